import Verif.Rpc.Server
/-!
# Model of a generated stream

Models the stream writer, the keep-alive goroutine and the stream reader of
`/repo/_examples/webrpc-streaming/proto/chat.gen.go`.

The server side is a transition system over two goroutines: the handler (`serveSubscribeMessagesJSONStream` with the
service implementation) and the keep-alive loop.  They share the mutex and the response; characters are written one by
one, so that every interleaving of the two that the mutex allows is a run.  The connection may break at any point.

Simplifications: messages are of an arbitrary type with an encoding to JSON that may fail; the first ping, which is
sent before the keep-alive loop starts, has succeeded; a write to the response after the handler has returned (which
`net/http` forbids) is only recorded; the implementation is a function of the outcomes of its writes so far, and calls
`Write` from one goroutine.
-/

namespace Verif.Rpc
open Verif.Schema hiding Json
open Verif.Json Verif.Gen

/-! ### Server -/

/-- The next thing the implementation does. -/
inductive StreamAct (α : Type)
  /-- `stream.Write(m)` -/
  | send (m : α)
  /-- return, with or without an error -/
  | finish (e : Option GoError)
  | panic (v : Str)

/-- A stream method: the implementation, as a function of the outcomes of its writes (`true`: no error); how messages
are encoded; the `OnError` hook. -/
structure Stream (α : Type) where
  impl : List Bool → StreamAct α
  enc : α → Option Json
  onError : RpcError → RpcError

/-- `Write` of the generated stream writer wraps the message, chat.gen.go:70-78. -/
def messageJson (j : Json) : Json := .obj [(S "message", j)]

/-- `sendErrorJSON` on a stream, chat.gen.go:472-477. -/
def errorJson (e : RpcError) : Json := .obj [(S "webrpcError", e.toJson)]

/-- A JSON document on a line: `Encoder.Encode` writes a newline after it. -/
def jsonLine (j : Json) : Str := print ⟨false, true⟩ 0 j ++ ['\n']

/-- What the handler writes. -/
inductive Job (α : Type)
  | msg (m : α)
  /-- the error returned by the implementation, after the hook -/
  | fail (e : RpcError)
  /-- `ErrWebrpcServerPanic`, after the hook -/
  | panic (e : RpcError)

/-- The text to write; `false`: there is an error and nothing is written. -/
def Stream.text {α : Type} (st : Stream α) : Job α → Str × Bool
  | .msg m => match st.enc m with
    | some j => (jsonLine (messageJson j), true)
    | none => ([], false)
  | .fail e => (jsonLine (errorJson e), true)
  | .panic e => (jsonLine (errorJson e), true)

/-- Where the handler is. -/
inductive Handler (α : Type)
  /-- in the implementation -/
  | run
  /-- at `mu.Lock()` -/
  | wait (j : Job α)
  /-- writing, with the rest of the text and whether there was no error -/
  | put (j : Job α) (rest : Str) (ok : Bool)
  /-- returned; the error that was written, if any -/
  | done (sent : Option RpcError)

/-- Writing the error for a panic. -/
def Stream.panicPut {α : Type} (st : Stream α) (e : RpcError) : Handler α := .put (.panic e) (st.text (.panic e)).1 true

/-- Where the keep-alive loop is. -/
inductive Keeper
  | idle
  | wait
  | put (rest : Str) (ok : Bool)
  | stopped

/-- Who holds the mutex. -/
inductive Who
  | handler
  | keepAlive
deriving DecidableEq

/-- State of the server. -/
structure StreamState (α : Type) where
  lock : Option Who
  /-- everything written to the response -/
  out : Str
  /-- the part that was flushed to the client -/
  flushed : Str
  /-- the connection is broken -/
  broken : Bool
  /-- the context of the keep-alive loop is cancelled -/
  cancelled : Bool
  handler : Handler α
  keeper : Keeper
  /-- finished calls of `Write` and whether they succeeded -/
  calls : List (α × Bool)
  /-- the response was used after the handler had returned -/
  late : Bool

/-- After the first ping, chat.gen.go:443-451. -/
def StreamState.init {α : Type} : StreamState α :=
  { lock := none, out := ['\n'], flushed := ['\n'], broken := false, cancelled := false, handler := .run, keeper := .idle,
    calls := [], late := false }

/-- Where the handler goes after writing. -/
def Handler.after {α : Type} : Job α → Bool → Handler α
  | .msg _, _ => .run
  | .fail e, ok => .done (if ok then some e else none)
  | .panic e, ok => .done (if ok then some e else none)

/-- The call of `Write` that ends. -/
def Job.call {α : Type} : Job α → Bool → List (α × Bool)
  | .msg m, ok => [(m, ok)]
  | _, _ => []

/-- `Flush` (without effect on a broken connection) and `mu.Unlock()`. -/
def StreamState.release {α : Type} (s : StreamState α) : StreamState α :=
  { s with lock := none, flushed := if s.broken then s.flushed else s.out }

/-- The steps. -/
inductive StreamStep {α : Type} (st : Stream α) : StreamState α → StreamState α → Prop
  /-- the implementation calls `Write`, chat.gen.go:118-120 -/
  | send {s m} : s.handler = .run → st.impl (s.calls.map (·.2)) = .send m → StreamStep st s { s with handler := .wait (.msg m) }
  /-- it returns nil, chat.gen.go:454 and 449 -/
  | finish {s} : s.handler = .run → st.impl (s.calls.map (·.2)) = .finish none →
      StreamStep st s { s with handler := .done none, cancelled := true }
  /-- it returns an error, chat.gen.go:455-460 -/
  | fail {s e} : s.handler = .run → st.impl (s.calls.map (·.2)) = .finish (some e) →
      StreamStep st s { s with handler := .wait (.fail (st.onError e.toRpc)), cancelled := true }
  /-- it panics: `ServeHTTP` sends an error without taking the mutex, chat.gen.go:312-316 -/
  | panic {s v} : s.handler = .run → st.impl (s.calls.map (·.2)) = .panic v →
      StreamStep st s { s with handler := st.panicPut (st.onError (errServerPanic.withCause v)), cancelled := true }
  /-- `mu.Lock()`, chat.gen.go:120, 460 -/
  | lock {s j} : s.handler = .wait j → s.lock = none →
      StreamStep st s { s with lock := some .handler, handler := .put j (st.text j).1 (st.text j).2 }
  /-- a character is written -/
  | put {s j c rest ok} : s.handler = .put j (c :: rest) ok → s.broken = false →
      StreamStep st s { s with out := s.out ++ [c], handler := .put j rest ok }
  /-- writing fails -/
  | putFails {s j c rest ok} : s.handler = .put j (c :: rest) ok → s.broken = true →
      StreamStep st s { s with handler := .put j [] false }
  /-- `Flush` and `mu.Unlock()` after a message or an error, chat.gen.go:127-130, 461-463 -/
  | unlock {s j ok} : s.handler = .put j [] ok → (∀ e, j ≠ .panic e) →
      StreamStep st s { s.release with handler := .after j ok, calls := s.calls ++ j.call ok }
  /-- the end of `ServeHTTP` after a panic -/
  | panicked {s e ok} : s.handler = .put (.panic e) [] ok → StreamStep st s { s with handler := .after (.panic e) ok }
  /-- the timer of the keep-alive loop fires (possibly after cancellation), chat.gen.go:98-99 -/
  | tick {s} : s.keeper = .idle → StreamStep st s { s with keeper := .wait }
  /-- it sees the cancellation, chat.gen.go:103-104 -/
  | stop {s} : s.keeper = .idle → s.cancelled = true → StreamStep st s { s with keeper := .stopped }
  /-- `mu.Lock()` in `ping`, chat.gen.go:110 -/
  | pingLock {s} : s.keeper = .wait → s.lock = none →
      StreamStep st s { s with lock := some .keepAlive, keeper := .put ['\n'] true }
  /-- a character of the ping -/
  | ping {s c rest ok} : s.keeper = .put (c :: rest) ok → s.broken = false → (∀ e, s.handler ≠ .done e) →
      StreamStep st s { s with out := s.out ++ [c], keeper := .put rest ok }
  /-- after the handler has returned -/
  | pingLate {s c rest ok e} : s.keeper = .put (c :: rest) ok → s.handler = .done e →
      StreamStep st s { s with late := true, keeper := .put rest ok }
  /-- writing fails -/
  | pingFails {s c rest ok} : s.keeper = .put (c :: rest) ok → s.broken = true →
      StreamStep st s { s with keeper := .put [] false }
  /-- `Flush` and `mu.Unlock()` in `ping`, chat.gen.go:112-113; the loop ends after an error -/
  | pingUnlock {s ok} : s.keeper = .put [] ok →
      StreamStep st s { s.release with keeper := if ok then .idle else .stopped }
  /-- the connection breaks -/
  | breaks {s} : StreamStep st s { s with broken := true }

/-- The states the server can be in. -/
inductive StreamReach {α : Type} (st : Stream α) : StreamState α → Prop
  | init : StreamReach st .init
  | step {s t} : StreamReach st s → StreamStep st s t → StreamReach st t

/-! ### Client -/

/-- How reading the body ends. -/
inductive Ending
  | eof
  | unexpectedEof
  /-- the context was cancelled or timed out -/
  | cancelled (text : Str)
  | other (text : Str)

/-- A stream reader: characters in the buffer of the `bufio.Reader`, pieces that will still arrive, how the body ends
after them, and after how many looks at the context it is done (`none`: never). -/
structure StreamReader where
  buf : Str
  chunks : List Str
  ending : Ending
  abort : Option Nat

/-- Up to and including the first newline. -/
def splitLine : Str → Option (Str × Str)
  | [] => none
  | c :: r => if c = '\n' then some ([c], r) else (splitLine r).map fun p => (c :: p.1, p.2)

/-- `bufio.Reader.ReadBytes('\n')`: the line, the rest of the buffer and the pieces still to come. -/
def readBytes (buf : Str) : List Str → Option (Str × Str × List Str)
  | [] => (splitLine buf).map fun p => (p.1, p.2, [])
  | c :: cs => match splitLine buf with
    | some p => some (p.1, p.2, c :: cs)
    | none => readBytes (buf ++ c) cs

/-- After `Close`, what is not yet in the buffer is lost. -/
def StreamReader.close (r : StreamReader) : StreamReader :=
  { r with chunks := [], ending := .other (S "http: read on closed response body") }

/-- `handleReadError`, chat.gen.go:250-262. -/
def handleReadError : Ending → RpcError
  | .eof => errStreamFinished.withCause (S "EOF")
  | .unexpectedEof => errStreamLost.withCause (S "unexpected EOF")
  | .cancelled t => errClientAborted.withCause t
  | .other t => errBadResponse.withCause (S "reading stream: " ++ t)

/-- The structure a line is decoded into, chat.gen.go:201-204. -/
structure LineOut (α : Type) where
  message : Option α
  error : Option RpcError
deriving DecidableEq

/-- One member of the line; a repeated member replaces the value (Go would merge into it). -/
def LineOut.setMember {α : Type} (dec : Json → Option α) (o : LineOut α) (key : Str) (v : Json) : Option (LineOut α) :=
  match fieldFor [S "message", S "webrpcError"] key with
  | none => some o
  | some f =>
    if f = S "message" then
      match v with
      | .null => some { o with message := none }
      | v => (dec v).map fun m => { o with message := some m }
    else
      match v with
      | .null => some { o with error := none }
      | v => (RpcError.ofJson v).map fun e => { o with error := some e }

/-- The members one after the other. -/
def LineOut.setMembers {α : Type} (dec : Json → Option α) : LineOut α → List (Str × Json) → Option (LineOut α)
  | o, [] => some o
  | o, (k, v) :: r => match o.setMember dec k v with
    | none => none
    | some o => o.setMembers dec r

/-- `json.Unmarshal` of a line. -/
def decodeLine {α : Type} (dec : Json → Option α) (line : Str) : Option (LineOut α) :=
  match parse line with
  | some (.obj l) => LineOut.setMembers dec ⟨none, none⟩ l
  | some .null => some ⟨none, none⟩
  | _ => none

/-- `streamReader.read`, chat.gen.go:224-248.  The first argument bounds the number of lines looked at. -/
def StreamReader.read {α : Type} (dec : Json → Option α) : Nat → StreamReader → Option (Except RpcError (LineOut α) × StreamReader)
  | 0, _ => none
  | n + 1, r =>
    if r.abort = some 0 then some (.error (errClientAborted.withCause (S "context canceled")), r.close)
    else
      let r := { r with abort := r.abort.map (· - 1) }
      match readBytes r.buf r.chunks with
      | none => some (.error (handleReadError r.ending), { r with buf := [], chunks := [] }.close)
      | some (line, buf, chunks) =>
        let r := { r with buf := buf, chunks := chunks }
        if line = ['\n'] then r.read dec n
        else match decodeLine dec line with
          | none => some (.error (errBadResponse.withCause (S "reading stream: ")), r.close)
          | some o => some (.ok o, r)

/-- What `Read` of the generated reader returns, chat.gen.go:200-216. -/
structure ReadResult (α : Type) where
  message : Option α
  error : Option RpcError
deriving DecidableEq

/-- The number of characters that can still be read. -/
def StreamReader.size (r : StreamReader) : Nat := r.buf.length + (r.chunks.map List.length).sum

/-- `Read`, chat.gen.go:200-216. -/
def StreamReader.Read {α : Type} (dec : Json → Option α) (r : StreamReader) : Option (ReadResult α × StreamReader) :=
  match r.read dec (r.size + 1) with
  | none => none
  | some (.error e, r) => some (⟨none, some e⟩, r)
  | some (.ok o, r) => some (⟨o.message, o.error⟩, r)

/-- The results of `n` calls of `Read`. -/
def StreamReader.reads {α : Type} (dec : Json → Option α) : Nat → StreamReader → Option (List (ReadResult α))
  | 0, _ => some []
  | n + 1, r => match r.Read dec with
    | none => none
    | some (x, r) => (r.reads dec n).map (x :: ·)

end Verif.Rpc
