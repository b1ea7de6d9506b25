import Verif.Ts.ChatPage
import Verif.Spec.Ts
/-!
# What a user of the chat page relies on
-/

namespace Verif.TsSpec
open Verif.Schema hiding Json Method
open Verif.Ts Verif.Gen Verif.Json

/-- The chat message in a call of a callback, with its id. -/
def chatMessage : Event → Option (Js × Js)
  | .message v => if nullish v || nullish (member (S "message") v) then none
      else some (member (S "message") v, member (S "id") (member (S "message") v))
  | _ => none

/-- The chat messages received, in order, with their ids. -/
def received (evs : List Event) : List (Js × Js) := evs.filterMap chatMessage

/-- The last `n`. -/
def lastOf {α : Type} (n : Nat) (l : List α) : List α := l.drop (l.length - n)

/-- The id of the last message received, if any. -/
def lastId (evs : List (Js × Js)) : Js := (evs.getLast?.map (·.2)).getD .undefined

/-- The error has the code. -/
def HasCode (e : Thrown) (code : Int) : Prop := ∃ t, e = .webrpc t ∧ t.code = .num (intText code)

/-- After this error the page does not connect again by itself. -/
def GivesUp (e : Thrown) : Prop := HasCode e (-10) ∨ HasCode e (-8) ∨ HasCode e (-1)

/-- How many times in a row connecting has failed. -/
inductive Failures : List Event → Nat → Prop
  | none : Failures [] 0
  | opened {h} : Failures (h ++ [.opened]) 0
  | closed {h n} : Failures h n → Failures (h ++ [.closed]) n
  | message {h n v} : Failures h n → Failures (h ++ [.message v]) n
  | gaveUp {h n e r} : Failures h n → GivesUp e → Failures (h ++ [.error e r]) n
  | failed {h n e r} : Failures h n → ¬ GivesUp e → Failures (h ++ [.error e r]) (n + 1)

/-- The request has been dealt with: the stream was closed or an error was reported. -/
def Over (t : Attempt) : Prop := ∃ e ∈ t.trace, e = .closed ∨ ∃ x r, e = .error x r

/-- A request is open: it is the last one made, all others are over, and no timer is running. -/
def Connecting (s : ChatPage) : Prop := ∃ old t, s.attempts = old ++ [t] ∧ (∀ u ∈ old, Over u) ∧ ¬ Over t ∧ s.timers = []

/-- All requests are over, and one timer is running that will make another one. -/
def Waiting (s : ChatPage) : Prop := (∀ u ∈ s.attempts, Over u) ∧ ∃ t, s.timers = [t] ∧ t.retry = true

/-- All requests are over, and no timer is running. -/
def Off (s : ChatPage) : Prop := (∀ u ∈ s.attempts, Over u) ∧ s.timers = []

/-- The states the page can be in if the user, after a click on "Re-connect", waits for something to happen before the next
click. -/
inductive PatientReach [JsEngine] (cs : List ErrClass) : ChatPage → Prop
  | init : PatientReach cs .init
  | step {s t} : PatientReach cs s → PageStep cs s t → PatientReach cs t
  | click {s} : PatientReach cs s → (s.page.status = .disconnected → ∀ u ∈ s.attempts, Over u) → PatientReach cs s.click

/-- The id as a JavaScript number. -/
def idNumber (n : Nat) : Js := .num (intText n)

/-- The ids of these messages are ascending numbers. -/
def Ascending (l : List (Js × Js)) : Prop := ∃ ids : List Nat, l.map (·.2) = ids.map idNumber ∧ ids.Pairwise (· < ·)

/-- The request was served as the chat server serves it (C57): the messages have ascending ids, which come after the one that
was sent. -/
def Served (t : Attempt) : Prop :=
  ∃ ids : List Nat, (received t.trace).map (·.2) = ids.map idNumber ∧ ids.Pairwise (· < ·) ∧ ∀ L, t.sent = idNumber L → ∀ n ∈ ids, L < n

end Verif.TsSpec
