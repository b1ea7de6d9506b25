import Verif.Props.ChatPage
import Verif.Props.TsStreamGo
/-!
# C108: examples
-/

namespace Verif.ChatPage
open Verif.Schema hiding Json Method
open Verif.Json Verif.Gen Verif.TsSpec Verif.RpcSpec Verif.Rpc
open Verif.Ts hiding emit_quiet

/-! ### An example -/

/-- A message, as the server sends it. -/
def exData : Js := .obj [(S "message", .obj [(S "id", .num (S "0"))])]

/-- The line with it. -/
def exLine : Str := S "{\"message\":{\"id\":0}}"

/-- A stream with this message that is then lost. -/
def exLost : StreamFetched := .response 200 (.ok []) (some [.chunk (utf8 (exLine ++ ['\n'])), .failed []])

theorem ex_parse : Json.parse exLine = some (.obj [(S "message", .obj [(S "id", .num (S "0"))])]) := by
  have h : Verif.Props.lineOf (.obj [(S "message", .obj [(S "id", .num (S "0"))])]) = exLine := by decide +kernel
  rw [← h]
  exact parse_iff.2 (line_json (by simp only [Nums, NumsMembers, and_true]; exact numText_int 0))

theorem ex_json : let _ := exEngine; jsonParse exLine = some exData := by
  intro _
  unfold jsonParse
  rw [ex_parse]
  rfl

theorem ex_decode : ((TextDecoder.new).decode (utf8 (exLine ++ ['\n']))).2 = exLine ++ ['\n'] := by decide +kernel

theorem ex_split : splitLines ([] ++ (exLine ++ ['\n'])) = [exLine, []] := by decide +kernel

/-- The error. -/
def exError : Thrown := .webrpc (streamLostClass.construct .undefined .undefined .undefined (.str (S "reader.read(): " ++ [])))

/-- A stream with one message that is then lost. -/
theorem one_message [JsEngine] (cs : List ErrClass) (bytes : List UInt8) (line : Str) (data : Js) (x : Js × Js) (h0 : line ≠ [])
    (h1 : ((TextDecoder.new).decode bytes).2 = line ++ ['\n']) (h2 : splitLines ([] ++ (line ++ ['\n'])) = [line, []])
    (h3 : jsonParse line = some data) (h4 : hasWebrpcError data = some false) (h5 : messageIn data = .ok x) :
    (subscribe cs pageThrows (.response 200 (.ok []) (some [.chunk bytes, .failed []]))).1 = [.opened, .message data, .error exError true] := by
  have hline : onLine cs 200 pageThrows [.opened] line = ([.opened, .message data], .next) := by
    unfold onLine
    rw [if_neg h0]
    unfold tryLine
    rw [h3]
    dsimp only
    rw [h4]
    dsimp only
    exact emit_ok _ _ x h5
  unfold subscribe sseResponse
  dsimp only
  rw [if_pos (show okStatus 200 = true by decide)]
  rw [emit_quiet _ _ (fun _ h => by cases h)]
  dsimp only
  unfold readLoop onRead
  dsimp only
  rw [h1, h2]
  have hd : List.dropLast [line, []] = [line] := rfl
  rw [hd]
  have hl : onLines cs 200 pageThrows ([] ++ [.opened]) [line] = ([.opened, .message data], .next) := by
    unfold onLines
    rw [List.nil_append, hline]
    rfl
  rw [hl]
  dsimp only
  unfold readLoop onRead
  dsimp only
  rw [emit_quiet _ _ (fun _ h => by cases h)]
  rfl

theorem ex_lost : let _ := exEngine; (subscribe [] pageThrows exLost).1 = [.opened, .message exData, .error exError true] := by
  intro _
  exact one_message [] _ exLine exData (.obj [(S "id", .num (S "0"))], .num (S "0")) (by decide +kernel) ex_decode ex_split ex_json (by rfl) (by rfl)

theorem ex_answer : let _ := exEngine; ∀ t : Attempt, t.dead = none → Answer t exLost := by
  intro _ t ht
  refine ⟨fun r hr => by (rw [ht] at hr; cases hr), fun status text reads hf line hl => ?_⟩
  unfold exLost at hf
  cases hf
  unfold arriving at hl
  dsimp only at hl
  rw [ex_decode, ex_split] at hl
  unfold arriving at hl
  rw [List.append_nil] at hl
  cases List.mem_singleton.1 hl
  intro data hd
  rw [ex_json] at hd
  cases hd
  exact .inr (.inl rfl)

/-- C108 is false of the code for reconnects after an error: the page received a message, the stream was lost, it connected again
(with the `lastMessageId` it had when it connected first) and received the same message again. -/
theorem C108_twice : let _ := exEngine
    ∃ s m, PatientReach [] s ∧ (∀ t ∈ s.attempts, Served t) ∧ received s.history = [m, m] ∧ s.page.messages = [m.1, m.1] ∧
      ¬ Ascending (received s.history) := by
  intro _
  have r1 := PatientReach.step (cs := []) .init (PageStep.event (s := .init) (a := 0) (t := ⟨0, .undefined, none, []⟩) (e := .opened) rfl (ex_answer _ rfl)
    (by rw [ex_lost]; exact ⟨[_, _], rfl⟩))
  have r2 := r1.step (PageStep.event (a := 0) (t := ⟨0, .undefined, none, [.opened]⟩) (e := .message exData) rfl (ex_answer _ rfl)
    (by rw [ex_lost]; exact ⟨[_], rfl⟩))
  have r3 := r2.step (PageStep.event (a := 0) (t := ⟨0, .undefined, none, [.opened, .message exData]⟩) (e := .error exError true) rfl (ex_answer _ rfl)
    (by rw [ex_lost]; exact ⟨[], rfl⟩))
  have r4 := r3.step (PageStep.fire (before := []) (t := ⟨0, true, _⟩) (after := []) rfl)
  have r5 := r4.step (PageStep.event (a := 1) (t := ⟨0, .undefined, none, []⟩) (e := .opened) rfl (ex_answer _ rfl)
    (by rw [ex_lost]; exact ⟨[_, _], rfl⟩))
  have r6 := r5.step (PageStep.event (a := 1) (t := ⟨0, .undefined, none, [.opened]⟩) (e := .message exData) rfl (ex_answer _ rfl)
    (by rw [ex_lost]; exact ⟨[_], rfl⟩))
  refine ⟨_, (.obj [(S "id", .num (S "0"))], .num (S "0")), r6, ?_, rfl, ?_, ?_⟩
  · intro t ht
    have : (received t.trace).map (·.2) = [0].map idNumber ∧ t.sent = .undefined := by
      rcases List.mem_cons.1 ht with rfl | ht
      · exact ⟨rfl, rfl⟩
      · cases List.mem_singleton.1 ht
        exact ⟨rfl, rfl⟩
    exact ⟨[0], this.1, by simp, fun L hL => by rw [this.2] at hL; cases hL⟩
  · rw [(inv_reach r6).messages, lastOf_short (by show 2 ≤ 1000; decide)]; rfl
  · rintro ⟨ids, h1, h2⟩
    match ids with
    | [a, b] =>
      injection h1 with ha h1
      injection h1 with hb _
      have hab : idNumber a = idNumber b := by rw [← ha, ← hb]
      have := intText_inj (Js.num.inj hab)
      have hlt : a < b := (List.pairwise_cons.1 h2).1 b (List.mem_cons_self ..)
      omega
    | [] => cases h1
    | [_] => injection h1 with _ h1; cases h1
    | _ :: _ :: _ :: _ => injection h1 with _ h1; injection h1 with _ h1; cases h1

end Verif.ChatPage
