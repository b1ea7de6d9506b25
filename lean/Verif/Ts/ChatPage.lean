import Verif.Ts.Stream
/-!
# Model of the chat page

Models the event handlers of `/repo/_examples/webrpc-streaming/webapp/src/main.ts` (line numbers without a file are of this
one) together with the subscriptions of the generated client (`rpc.gen.ts` of the same directory, lines 92-115): any number
of clicks, timers and calls of the callbacks, in any order in which the browser can run them.

Left out: the log, what the page looks like (`innerHTML`, times), and sending messages.  The user clicks the button only when
it is enabled (lines 187-207).
-/

namespace Verif.Ts
open Verif.Schema hiding Json Method
open Verif.Json Verif.Gen

/-- `connectionStatus`, lines 18-20. -/
inductive PageStatus
  | connected | connecting | disconnected | finished
deriving DecidableEq

/-- The variables of the page, lines 16-20 and 39. -/
structure Page where
  messages : List Js
  last : Js
  status : PageStatus
  retries : Nat

/-- Before `connect()`. -/
def Page.init : Page := ⟨[], .undefined, .connecting, 0⟩

/-- `message.message` and `message.message.id`, lines 30 and 33-35; reading a property of null or undefined throws. -/
def messageIn [JsEngine] (v : Js) : Except Str (Js × Js) :=
  match getProp v (S "message") with
  | .error (.other t) => .error t
  | .error (.webrpc _) => .error []
  | .ok m => match getProp m (S "id") with
    | .error (.other t) => .error t
    | .error (.webrpc _) => .error []
    | .ok id => .ok (m, id)

/-- `onMessage`, lines 29-37; `slice(-999)` is the last 999. -/
def Page.onMessage [JsEngine] (p : Page) (v : Js) : Except Str Page :=
  match messageIn v with
  | .error t => .error t
  | .ok (m, id) => .ok { p with
      last := id
      messages := if 1000 ≤ p.messages.length then p.messages.drop (p.messages.length - 999) ++ [m] else p.messages ++ [m] }

/-- `maxDelay`, line 40. -/
def maxDelay : Nat := 30

/-- `error.code` as a number, if it is one; errors that are no `WebrpcError` (and `abort` reasons) have none of the codes that
are compared here. -/
def Thrown.codeText : Thrown → Option Str
  | .webrpc e => match e.code with
    | .num t => some t
    | _ => none
  | .other _ => none

/-- `onError`, lines 42-68: the new state, and after how many milliseconds `reconnect` will be called, if at all. -/
def Page.onError (p : Page) (e : Thrown) : Page × Option Nat :=
  if e.codeText = some (S "-10") then ({ p with status := .finished }, none)
  else if e.codeText = some (S "-8") ∨ e.codeText = some (S "-1") then ({ p with status := .disconnected }, none)
  else ({ p with status := .connecting, retries := p.retries + 1 }, some (min maxDelay (2 ^ p.retries) * 1000))

/-- `onOpen`, lines 70-75. -/
def Page.onOpen (p : Page) : Page := { p with status := .connected, retries := 0 }

/-- `onClose`, lines 77-81. -/
def Page.onClose (p : Page) : Page := { p with status := .disconnected }

/-- What the callbacks of the page throw. -/
def pageThrows [JsEngine] : User := fun evs =>
  match evs.getLast? with
  | some (.message v) => match messageIn v with
    | .error t => some t
    | .ok _ => none
  | _ => none

/-- A call of `subscribeMessages`: the `lastMessageId` in `req`, and the reason it was aborted with, if it was. -/
structure PageSub where
  req : Js
  aborted : Option Str

/-- A request, made by `_fetch`, rpc.gen.ts:102-108: of which subscription, with which `lastMessageId`, whether (and with which
reason) the signal was already aborted, and the calls of the callbacks so far. -/
structure Attempt where
  sub : Nat
  sent : Js
  dead : Option Str
  trace : List Event

/-- A timer set by `onError`, line 67: for which subscription, can its `reconnect` be called, and after how many milliseconds. -/
structure PageTimer where
  sub : Nat
  retry : Bool
  delay : Nat

/-- The page with its connections.  `history` is not in the program: all calls of callbacks. -/
structure ChatPage where
  page : Page
  subs : List PageSub
  attempts : List Attempt
  timers : List PageTimer
  history : List Event

/-- `_fetch` of a subscription: it encodes `req` as it was given, rpc.gen.ts:102-103. -/
def ChatPage.fetch (s : ChatPage) (k : Nat) : ChatPage :=
  match s.subs[k]? with
  | none => s
  | some b => { s with attempts := s.attempts ++ [⟨k, b.req, b.aborted, []⟩] }

/-- `connect`, lines 105-113. -/
def ChatPage.connect (s : ChatPage) : ChatPage :=
  ({ s with subs := s.subs ++ [⟨s.page.last, none⟩] } : ChatPage).fetch s.subs.length

/-- The page is loaded, line 115. -/
def ChatPage.init : ChatPage := (⟨.init, [], [], [], []⟩ : ChatPage).connect

/-- The first `abort` counts. -/
def PageSub.abort (b : PageSub) (reason : Str) : PageSub :=
  match b.aborted with
  | some _ => b
  | none => { b with aborted := some reason }

/-- `controller.abort("user disconnected")`, line 94; `controller` is that of the last `connect`. -/
def ChatPage.abort (s : ChatPage) : ChatPage :=
  { s with subs := s.subs.modify (s.subs.length - 1) (·.abort (S "user disconnected")) }

/-- A click on the button, lines 92-101; it is disabled while connecting and when finished, lines 187-207. -/
def ChatPage.click (s : ChatPage) : ChatPage :=
  match s.page.status with
  | .connected => s.abort
  | .disconnected => s.connect
  | _ => s

/-- A callback is called for attempt `a` of subscription `k`. -/
def ChatPage.call [JsEngine] (s : ChatPage) (k : Nat) (e : Event) : ChatPage :=
  let s := { s with history := s.history ++ [e] }
  match e with
  | .opened => { s with page := s.page.onOpen }
  | .closed => { s with page := s.page.onClose }
  | .message v => match s.page.onMessage v with
    | .ok p => { s with page := p }
    | .error _ => s
  | .error e retry => match s.page.onError e with
    | (p, none) => { s with page := p }
    | (p, some ms) => { s with page := p, timers := s.timers ++ [⟨k, retry, ms⟩] }

/-- The same, and it is noted. -/
def ChatPage.event [JsEngine] (s : ChatPage) (a : Nat) (t : Attempt) (e : Event) : ChatPage :=
  { s.call t.sub e with attempts := s.attempts.set a { t with trace := t.trace ++ [e] } }

/-- A timer fires: `reconnect` fetches again, or throws. -/
def ChatPage.fire (s : ChatPage) (t : PageTimer) : ChatPage := if t.retry then s.fetch t.sub else s

/-- The lines that arrive, in order. -/
def arriving : StreamVars → List ReadEnd → List Str
  | _, [] => []
  | v, .chunk bytes :: rs =>
    let p := v.decoder.decode bytes
    let lines := splitLines (v.buffer ++ p.2)
    lines.dropLast ++ arriving ⟨p.1, lines.getLast?.getD []⟩ rs
  | v, .done :: _ => (splitLines (v.buffer ++ (v.decoder.decode []).2)).dropLast
  | _, _ :: _ => []

/-- What a line may not be: an object with a member `hasOwnProperty`, or with a `webrpcError` that is null. -/
def LawfulLine [JsEngine] (line : Str) : Prop :=
  ∀ data, jsonParse line = some data → nullish data = true ∨ hasWebrpcError data = some false ∨
    (hasWebrpcError data = some true ∧ nullish (member (S "webrpcError") data) = false)

/-- The answers a request can get. -/
def Answer [JsEngine] (t : Attempt) (f : StreamFetched) : Prop :=
  (∀ reason, t.dead = some reason → f = .failed reason) ∧
  ∀ status text reads, f = .response status text (some reads) → ∀ line ∈ arriving ⟨.new, []⟩ reads, LawfulLine line

/-- What happens without the user. -/
inductive PageStep [JsEngine] (cs : List ErrClass) : ChatPage → ChatPage → Prop
  /-- the next call of a callback for a request -/
  | event {s a t e f} : s.attempts[a]? = some t → Answer t f → t.trace ++ [e] <+: (subscribe cs pageThrows f).1 →
      PageStep cs s (s.event a t e)
  | fire {s before t after} : s.timers = before ++ t :: after → PageStep cs s ({ s with timers := before ++ after }.fire t)

/-- The states the page can be in. -/
inductive PageReach [JsEngine] (cs : List ErrClass) : ChatPage → Prop
  | init : PageReach cs .init
  | step {s t} : PageReach cs s → PageStep cs s t → PageReach cs t
  | click {s} : PageReach cs s → PageReach cs s.click

/-- From one state to a later one. -/
inductive PageSteps [JsEngine] (cs : List ErrClass) : ChatPage → ChatPage → Prop
  | refl {s} : PageSteps cs s s
  | step {s t u} : PageSteps cs s t → PageStep cs t u → PageSteps cs s u
  | click {s t} : PageSteps cs s t → PageSteps cs s t.click

end Verif.Ts
