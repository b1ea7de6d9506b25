import Verif.Ts.Stream
import Verif.Spec.Ts
import Verif.Spec.Stream
import Verif.Spec.JsonText
/-!
# What users of generated TypeScript stream clients rely on
-/

namespace Verif.TsSpec
open Verif.Schema hiding Json Method
open Verif.Json Verif.Gen Verif.Ts Verif.RpcSpec Verif.Spec Verif.Rpc

/-- Callbacks that never throw. -/
def Quiet (u : User) : Prop := ∀ trace, u trace = none

/-- The document is a message: not null, and no object with the member `webrpcError` (or `hasOwnProperty`). -/
def MessageDoc (j : Json) : Prop :=
  j ≠ .null ∧ ∀ ms, j = .obj ms → S "webrpcError" ∉ ms.map (·.1) ∧ S "hasOwnProperty" ∉ ms.map (·.1)

/-- The document says that the stream has failed: an object whose member `webrpcError` is `w`, which describes `t`. -/
def ErrorDoc [JsEngine] (cs : List ErrClass) (j : Json) (t : TsError) : Prop :=
  ∃ ms w code, j = .obj ms ∧ S "webrpcError" ∈ ms.map (·.1) ∧ S "hasOwnProperty" ∉ ms.map (·.1) ∧
    member (S "webrpcError") (ofJson j) = w ∧ nullish w = false ∧ CodeIn w code ∧ Describes cs w code t

/-- What the lines (those that are not empty) of a stream have to lead to: a message each, until one says that the stream
has failed, which ends it (`true`). -/
inductive Reports [JsEngine] (cs : List ErrClass) : List Str → List Event → Bool → Prop
  | nil : Reports cs [] [] false
  | message {line j lines evs stop} : JsonText line j → MessageDoc j → Reports cs lines evs stop →
      Reports cs (line :: lines) (.message (ofJson j) :: evs) stop
  | error {line j t lines} : JsonText line j → ErrorDoc cs j t → Reports cs (line :: lines) [.error (.webrpc t) true] true

/-- The error has the class and the code of the built-in error `name`, with this cause. -/
def BuiltIn (name : Str) (code : Int) (cause : Str) (t : TsError) : Prop :=
  t.cls.name = name ∧ t.code = .num (intText code) ∧ t.cause = .str cause

/-- What `onMessage` has to be called with for the messages whose `Write` succeeded. -/
def messagesOf [JsEngine] {α : Type} (st : Stream α) (calls : List (α × Bool)) : List Event :=
  (sentMessages calls).filterMap fun m => (st.enc m).map fun j => .message (ofJson (messageJson j))

/-- What the callbacks are called with for some documents: one call each; an error is the last. -/
inductive Calls [JsEngine] (cs : List ErrClass) : List Json → List Event → Bool → Prop
  | nil : Calls cs [] [] false
  | message {j docs evs stop} : Calls cs docs evs stop → Calls cs (messageJson j :: docs) (.message (ofJson (messageJson j)) :: evs) stop
  | error {e t docs} : ToldByGo cs e t → Calls cs (errorJson e :: docs) [.error (.webrpc t) true] true

end Verif.TsSpec
