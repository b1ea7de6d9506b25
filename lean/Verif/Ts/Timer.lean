import Verif.Ts.Stream
/-!
# Model of the timer, the abort signals and the headers of TypeScript stream clients

Models lines 91-117 and 150-166 of `/repo/_examples/webrpc-streaming/webapp/src/rpc.gen.ts`.

Time is in milliseconds, from a clock that does not go back.  `setInterval`, `AbortController` and `addEventListener` are
modelled from their specifications.
-/

namespace Verif.Ts
open Verif.Schema hiding Json Method
open Verif.Gen

/-! ### The timer -/

/-- `(10 + 1) * 1000`, line 151. -/
def streamTimeout : Nat := 11000

/-- What happens while the loop waits: the interval timer fires, or a read ends. -/
inductive TimedEvent
  | tick (time : Nat)
  | read (time : Nat) (r : ReadEnd)

/-- When it happens. -/
def TimedEvent.time : TimedEvent → Nat
  | .tick t => t
  | .read t _ => t

/-- The reads that the loop sees, lines 150-166; `last` is `lastReadTime`.  When the timer finds the last read too long ago,
it releases the lock of the reader, so that the read that is waited for fails (or what it gave is thrown away). -/
def timedReads (released : Str) : Nat → List TimedEvent → List ReadEnd
  | _, [] => []
  | last, .tick t :: r => if t - last > streamTimeout then [.failed released] else timedReads released last r
  | _, .read t x :: r => x :: timedReads released t r

/-! ### Signals -/

/-- What can abort. -/
inductive AbortEvent
  /-- `abort(reason)` of the controller that `subscribeMessages` returned -/
  | abort (reason : Option Str)
  /-- `options.signal` is aborted -/
  | signal
deriving DecidableEq

/-- The state of the signals: the reason for which the stream's own signal is aborted, and whether the listener of line 100
is registered. -/
structure AbortState where
  own : Option (Option Str)
  listener : Bool
deriving DecidableEq

/-- Lines 96-103.  The listener is registered for the `abort` event of the stream's *own* signal; the option
`signal: options.signal` says when to remove it (at once if that is aborted already). -/
def AbortState.init (given already : Bool) : AbortState := ⟨none, given && !already⟩

/-- One event.  The listener, when it is called, calls `abort` on the controller that is already aborted, which does
nothing. -/
def AbortState.step (s : AbortState) : AbortEvent → AbortState
  | .abort reason => match s.own with
    | some _ => s
    | none => { s with own := some reason }
  | .signal => { s with listener := false }

/-- What a pending read fails with when the stream's own signal is aborted: without a reason with an `AbortError`,
otherwise with the reason. -/
def AbortState.read (s : AbortState) (abortError : Str) : Option ReadEnd :=
  s.own.map fun
    | none => .aborted abortError
    | some reason => .failed reason

/-! ### Headers -/

/-- `HeadersInit`, the type of `options.headers`: an object, a `Headers`, or pairs. -/
inductive HeadersInit
  | record (l : List (Str × Str))
  | headers (l : List (Str × Str))
  | pairs (l : List (Str × Str))

/-- `{...headers}` in `createHttpRequest`, line 240: a `Headers` has no own properties, the own properties of an array are
its indices (and `fetch` makes a text of the pair). -/
def HeadersInit.spread : HeadersInit → List (Str × Str)
  | .record l => l
  | .headers _ => []
  | .pairs l => l.mapIdx fun i p => (Spec.numeral i, p.1 ++ S "," ++ p.2)

/-- The request of a stream, lines 105-107. -/
def TsClient.streamRequest [JsEngine] (c : TsClient) (name : Str) (req : Js) (headers : HeadersInit) : Except Thrown TsRequest :=
  c.request ⟨name, []⟩ (some req) headers.spread

end Verif.Ts
