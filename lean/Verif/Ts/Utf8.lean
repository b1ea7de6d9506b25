import Verif.Ts.Js
/-!
# `TextDecoder`

The UTF-8 decoder of the WHATWG Encoding Standard, as `new TextDecoder()` with `decode(value, {stream: true})` uses it
(`/repo/_examples/webrpc-streaming/webapp/src/rpc.gen.ts` 148 and 167): malformed bytes become U+FFFD, a byte order mark at
the beginning is dropped, the state is kept between the calls and never flushed.  The standard is outside /repo.
-/

namespace Verif.Ts
open Verif.Schema hiding Json Method
open Verif.Gen

/-- The state of the UTF-8 decoder: the code point so far, the bytes still needed (the standard counts needed and seen
bytes), the bounds for the next byte. -/
structure Utf8State where
  point : Nat
  left : Nat
  lower : Nat
  upper : Nat
deriving DecidableEq

/-- At the beginning and after a character. -/
def Utf8State.clean : Utf8State := ⟨0, 0, 0x80, 0xBF⟩

/-- The replacement character. -/
def replacement : Char := Char.ofNat 0xFFFD

/-- The decoder at the beginning of a character. -/
def utf8Start (b : Nat) : Utf8State × Str :=
  if b ≤ 0x7F then (.clean, [Char.ofNat b])
  else if 0xC2 ≤ b ∧ b ≤ 0xDF then (⟨b % 0x20, 1, 0x80, 0xBF⟩, [])
  else if 0xE0 ≤ b ∧ b ≤ 0xEF then
    (⟨b % 0x10, 2, if b = 0xE0 then 0xA0 else 0x80, if b = 0xED then 0x9F else 0xBF⟩, [])
  else if 0xF0 ≤ b ∧ b ≤ 0xF4 then
    (⟨b % 0x08, 3, if b = 0xF0 then 0x90 else 0x80, if b = 0xF4 then 0x8F else 0xBF⟩, [])
  else (.clean, [replacement])

/-- One byte. A byte that does not continue the character begins a new one. -/
def utf8Byte (s : Utf8State) (b : Nat) : Utf8State × Str :=
  if s.left = 0 then utf8Start b
  else if b < s.lower ∨ s.upper < b then
    let p := utf8Start b
    (p.1, replacement :: p.2)
  else
    let point := s.point * 0x40 + b % 0x40
    if s.left = 1 then (.clean, [Char.ofNat point])
    else (⟨point, s.left - 1, 0x80, 0xBF⟩, [])

/-- Some bytes. -/
def utf8Bytes : Utf8State → List UInt8 → Utf8State × Str
  | s, [] => (s, [])
  | s, b :: l =>
    let p := utf8Byte s b.toNat
    let q := utf8Bytes p.1 l
    (q.1, p.2 ++ q.2)

/-- A `TextDecoder`: its decoder and whether the first character was seen. -/
structure TextDecoder where
  state : Utf8State
  bomSeen : Bool
deriving DecidableEq

/-- `new TextDecoder()` -/
def TextDecoder.new : TextDecoder := ⟨.clean, false⟩

/-- The byte order mark. -/
def bom : Char := Char.ofNat 0xFEFF

/-- `decode(value, {stream: true})` -/
def TextDecoder.decode (d : TextDecoder) (bytes : List UInt8) : TextDecoder × Str :=
  let p := utf8Bytes d.state bytes
  if d.bomSeen then (⟨p.1, true⟩, p.2)
  else match p.2 with
    | [] => (⟨p.1, false⟩, [])
    | c :: text => (⟨p.1, true⟩, if c = bom then text else c :: text)

/-- How a text is sent. -/
def utf8 (text : Str) : List UInt8 := text.flatMap String.utf8EncodeChar

end Verif.Ts
