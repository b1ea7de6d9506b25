import Verif.Rpc.Stream
/-!
# What a stream is supposed to do
-/

namespace Verif.RpcSpec
open Verif.Schema hiding Json
open Verif.Json Verif.Gen Verif.Rpc

/-- One more character. -/
def contentStep (s : List Str × Str) (c : Char) : List Str × Str :=
  if c = '\n' then (if s.2 = [] then s.1 else s.1 ++ [s.2], []) else (s.1, s.2 ++ [c])

/-- What a text says as lines: the complete lines that are not empty, and the unfinished line at its end. -/
def content (t : Str) : List Str × Str := t.foldl contentStep ([], [])

/-- The calls of `Write` are those the implementation makes when it sees these outcomes. -/
inductive History {α : Type} (impl : List Bool → StreamAct α) : List (α × Bool) → Prop
  | nil : History impl []
  | snoc {cs m b} : History impl cs → impl (cs.map (·.2)) = .send m → History impl (cs ++ [(m, b)])

/-- The messages whose `Write` succeeded. -/
def sentMessages {α : Type} (calls : List (α × Bool)) : List α := calls.filterMap fun c => if c.2 then some c.1 else none

/-- The client decodes what the server encodes. -/
structure Codec {α : Type} (enc : α → Option Json) (dec : Json → Option α) : Prop where
  nums : ∀ m j, enc m = some j → Nums j
  decodes : ∀ m j, enc m = some j → dec j = some m
  notNull : ∀ m, enc m ≠ some .null

/-- A message is read. -/
def readMessage {α : Type} (m : α) : ReadResult α := ⟨some m, none⟩

/-- An error is read. -/
def readError {α : Type} (e : RpcError) : ReadResult α := ⟨none, some e⟩

/-- A client that has just connected: the text arrives in these pieces, then the body ends. -/
def connect (chunks : List Str) (ending : Ending) : StreamReader := ⟨[], chunks, ending, none⟩

end Verif.RpcSpec
