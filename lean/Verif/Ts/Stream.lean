import Verif.Ts.Client
import Verif.Ts.Utf8
/-!
# Model of generated TypeScript stream clients

Models `subscribeMessages` and `sseResponse` of `/repo/_examples/webrpc-streaming/webapp/src/rpc.gen.ts` (all line numbers
are of this file).  The callbacks of the user may throw, depending on everything that happened before.  What the body of
the response gives is a list of reads; while it is empty, the client waits.  The timer is modelled in `Ts/Timer.lean`: when
it fires the pending read fails.  A callback that is not given is one that does nothing.
-/

namespace Verif.Ts
open Verif.Schema hiding Json Method
open Verif.Json Verif.Gen
open Verif.Compile (mapSet)

/-- A call of a callback. -/
inductive Event
  | opened
  | message (v : Js)
  /-- `onError`; does its second argument connect again (or throw)? -/
  | error (e : Thrown) (retry : Bool)
  | closed

/-- The callbacks: what the last of these calls throws, if anything. -/
abbrev User := List Event → Option Str

/-- What `reader.read()` ends with. -/
inductive ReadEnd
  | chunk (bytes : List UInt8)
  | done
  /-- it throws an `AbortError` -/
  | aborted (message : Str)
  | failed (message : Str)

/-- The variables of the loop, lines 148-149. -/
structure StreamVars where
  decoder : TextDecoder
  buffer : Str
deriving DecidableEq

/-- How a piece of code ends. -/
inductive Flow
  | next
  | returned
  | threw (message : Str)
deriving DecidableEq

/-- A callback is called. -/
def emit (u : User) (trace : List Event) (e : Event) : List Event × Flow :=
  match u (trace ++ [e]) with
  | none => (trace ++ [e], .next)
  | some t => (trace ++ [e], .threw t)

/-- `WebrpcClientAbortedError` -/
def clientAbortedClass : ErrClass := ⟨S "WebrpcClientAborted", -8, S "request aborted by client", 400⟩
/-- `WebrpcStreamLostError` -/
def streamLostClass : ErrClass := ⟨S "WebrpcStreamLost", -9, S "stream lost", 400⟩

/-- The message of the error thrown by the `reconnect` of an aborted stream, lines 176 and 214. -/
def cannotReconnect : Str := S "Abort signal cannot be used to reconnect"

/-- `data.hasOwnProperty("webrpcError")`, line 203; `none`: it throws. -/
def hasWebrpcError : Js → Option Bool
  | .undefined => none
  | .null => none
  | .obj l => match l.lookup (S "hasOwnProperty") with
    | some _ => none
    | none => some (l.lookup (S "webrpcError")).isSome
  | _ => some false

/-- How the `try` in the loop over the lines ends, lines 201-211: with the value of `data`, with `return`, or by throwing
(with the value that `data` has then). -/
inductive Tried
  | data (v : Js)
  | returned
  | threw (v : Js) (message : Str)

/-- Lines 201-211. -/
def tryLine [JsEngine] (cs : List ErrClass) (u : User) (trace : List Event) (line : Str) : List Event × Tried :=
  match jsonParse line with
  | none => (trace, .threw .undefined (JsEngine.syntaxError line))
  | some data => match hasWebrpcError data with
    | none => (trace, .threw data (JsEngine.typeError (S "hasOwnProperty")))
    | some false => (trace, .data data)
    | some true => match (throwPayload cs (member (S "webrpcError") data) : Except Thrown Unit) with
      | .error (.webrpc e) => match emit u trace (.error (.webrpc e) true) with
        | (trace, .threw t) => (trace, .threw data t)
        | (trace, _) => (trace, .returned)
      | .error (.other t) => (trace, .threw data t)
      | .ok () => (trace, .returned)

/-- One line, lines 195-228. -/
def onLine [JsEngine] (cs : List ErrClass) (status : Int) (u : User) (trace : List Event) (line : Str) : List Event × Flow :=
  if line = [] then (trace, .next)
  else match tryLine cs u trace line with
    | (trace, .returned) => (trace, .returned)
    | (trace, .data v) => emit u trace (.message v)
    | (trace, .threw v t) =>
      if t = cannotReconnect then (trace, .threw t)
      else match emit u trace (.error (.webrpc (badResponseClass.construct .undefined .undefined (.num (intText status))
          (.str (S "JSON.parse(): " ++ t)))) true) with
        | (trace, .next) => emit u trace (.message v)
        | (trace, f) => (trace, f)

/-- Some lines. -/
def onLines [JsEngine] (cs : List ErrClass) (status : Int) (u : User) : List Event → List Str → List Event × Flow
  | trace, [] => (trace, .next)
  | trace, l :: ls => match onLine cs status u trace l with
    | (trace, .next) => onLines cs status u trace ls
    | (trace, f) => (trace, f)

/-- `buffer.split("\n")` -/
def splitLines : Str → List Str
  | [] => [[]]
  | c :: r => if c = '\n' then [] :: splitLines r
    else match splitLines r with
      | [] => [[c]]
      | l :: ls => (c :: l) :: ls

/-- One round of the loop, lines 160-235. -/
def onRead [JsEngine] (cs : List ErrClass) (status : Int) (u : User) (trace : List Event) (v : StreamVars) (r : ReadEnd) :
    List Event × Flow × StreamVars :=
  match r with
  | .aborted t =>
    match emit u trace (.error (.webrpc (clientAbortedClass.construct (.str (S "AbortError")) .undefined .undefined
        (.str (S "AbortError: " ++ t)))) false) with
    | (trace, .next) => (trace, .returned, v)
    | (trace, f) => (trace, f, v)
  | .failed t =>
    match emit u trace (.error (.webrpc (streamLostClass.construct .undefined .undefined .undefined
        (.str (S "reader.read(): " ++ t)))) true) with
    | (trace, .next) => (trace, .returned, v)
    | (trace, f) => (trace, f, v)
  | .chunk bytes =>
    let p := v.decoder.decode bytes
    let lines := splitLines (v.buffer ++ p.2)
    match onLines cs status u trace lines.dropLast with
    | (trace, f) => (trace, f, ⟨p.1, lines.getLast?.getD []⟩)
  | .done =>
    let p := v.decoder.decode []
    let lines := splitLines (v.buffer ++ p.2)
    match onLines cs status u trace lines.dropLast with
    | (trace, .next) => match emit u trace .closed with
      | (trace, .next) => (trace, .returned, ⟨p.1, v.buffer ++ p.2⟩)
      | (trace, f) => (trace, f, ⟨p.1, v.buffer ++ p.2⟩)
    | (trace, f) => (trace, f, ⟨p.1, v.buffer ++ p.2⟩)

/-- The loop, lines 160-235; `next`: it waits for another read. -/
def readLoop [JsEngine] (cs : List ErrClass) (status : Int) (u : User) : List Event → StreamVars → List ReadEnd → List Event × Flow × StreamVars
  | trace, v, [] => (trace, .next, v)
  | trace, v, r :: rs => match onRead cs status u trace v r with
    | (trace, .next, v) => readLoop cs status u trace v rs
    | (trace, f, v) => (trace, f, v)

/-- What `fetch` gives. -/
inductive StreamFetched
  | failed (message : Str)
  /-- the status, what `text()` gives, and the reads of the body, if there is one -/
  | response (status : Int) (text : Except Str Str) (body : Option (List ReadEnd))

/-- `sseResponse`, lines 119-235. -/
def sseResponse [JsEngine] (cs : List ErrClass) (u : User) (status : Int) (text : Except Str Str) (body : Option (List ReadEnd)) :
    List Event × Flow :=
  if okStatus status then
    match body with
    | none => match emit u [] (.error (.webrpc (badResponseClass.construct .undefined .undefined (.num (intText status))
        (.str (S "Invalid response, missing body")))) true) with
      | (trace, .next) => (trace, .returned)
      | (trace, f) => (trace, f)
    | some reads => match emit u [] .opened with
      | (trace, .next) =>
        let r := readLoop cs status u trace ⟨.new, []⟩ reads
        (r.1, r.2.1)
      | (trace, f) => (trace, f)
  else
    match (match text with
      | .error t => .error (.other t)
      | .ok text => buildResponse cs status text : Except Thrown Js) with
    | .ok _ => ([], .returned)
    | .error e => match emit u [] (.error e true) with
      | (trace, .next) => (trace, .returned)
      | (trace, f) => (trace, f)

/-- `_fetch`, lines 105-111: what the callbacks are called with, and how the promise `closed` ends (`next`: not yet). -/
def subscribe [JsEngine] (cs : List ErrClass) (u : User) : StreamFetched → List Event × Flow
  | .failed t => match emit u [] (.error (.other t) true) with
    | (trace, .next) => (trace, .returned)
    | (trace, f) => (trace, f)
  | .response status text body => sseResponse cs u status text body

end Verif.Ts
