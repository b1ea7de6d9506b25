import Verif.Spec.ChatPage
import Verif.Props.TsStream
import Verif.Props.Chat
/-!
# C107, C108: the chat page
-/

namespace Verif.ChatPage
open Verif.Schema hiding Json Method
open Verif.Json Verif.Gen Verif.TsSpec
open Verif.Ts hiding emit_quiet

variable [JsEngine]

/-! ### The calls of callbacks for one request -/

/-- Where a request is. -/
inductive Phase
  | start | opened | ended
deriving DecidableEq

/-- What may be called next. -/
def Phase.next : Phase → Event → Option Phase
  | .start, .opened => some .opened
  | .start, .error e r => if r = true ∨ e.codeText = some (S "-8") then some .ended else none
  | .opened, .message _ => some .opened
  | .opened, .closed => some .ended
  | .opened, .error e r => if r = true ∨ e.codeText = some (S "-8") then some .ended else none
  | .ended, .message v => match messageIn v with
    | .error _ => some .ended
    | .ok _ => none
  | _, _ => none

/-- After some calls. -/
def run : Phase → List Event → Option Phase
  | p, [] => some p
  | p, e :: r => match p.next e with
    | none => none
    | some p => run p r

theorem run_append (p : Phase) (a b : List Event) : run p (a ++ b) = (run p a).bind fun q => run q b := by
  induction a generalizing p with
  | nil => rfl
  | cons e a ih =>
    rw [List.cons_append, run, run]
    cases p.next e with
    | none => rfl
    | some q => exact ih q

theorem run_one {tr : List Event} {p : Phase} (h : run .start tr = some p) (e : Event) : run .start (tr ++ [e]) = p.next e := by
  rw [run_append, h, Option.bind_some, run]
  cases p.next e <;> rfl

theorem emit_quiet (tr : List Event) (e : Event) (h : ∀ v, e ≠ .message v) : emit pageThrows tr e = (tr ++ [e], .next) := by
  have : pageThrows (tr ++ [e]) = none := by
    unfold pageThrows
    rw [List.getLast?_concat]
    cases e with
    | message v => exact absurd rfl (h v)
    | _ => rfl
  unfold emit
  rw [this]

theorem emit_ok (tr : List Event) (v : Js) (x : Js × Js) (h : messageIn v = .ok x) : emit pageThrows tr (.message v) = (tr ++ [.message v], .next) := by
  have : pageThrows (tr ++ [.message v]) = none := by
    unfold pageThrows
    rw [List.getLast?_concat]
    dsimp only
    rw [h]
  unfold emit
  rw [this]

theorem emit_throws (tr : List Event) (v : Js) (t : Str) (h : messageIn v = .error t) :
    emit pageThrows tr (.message v) = (tr ++ [.message v], .threw t) := by
  have : pageThrows (tr ++ [.message v]) = some t := by
    unfold pageThrows
    rw [List.getLast?_concat]
    dsimp only
    rw [h]
  unfold emit
  rw [this]

theorem messageIn_nullish {v : Js} (h : nullish v = true) : ∃ t, messageIn v = .error t := by
  unfold messageIn getProp
  rw [if_pos h]
  exact ⟨_, rfl⟩

theorem throw_nonnull (cs : List ErrClass) {w : Js} (h : nullish w = false) :
    ∃ e, (throwPayload cs w : Except Thrown Unit) = .error (.webrpc e) := by
  have hg : ∀ k, getProp w k = .ok (member k w) := fun k => by unfold getProp; rw [if_neg (by rw [h]; simp)]
  have hc : ∃ c, codeOf w = .ok c := by
    unfold codeOf
    rw [hg]
    show ∃ c, (match member (S "code") w with | .num t => _ | _ => _ : Except Thrown Str) = .ok c
    split <;> exact ⟨_, rfl⟩
  obtain ⟨c, hc⟩ := hc
  unfold throwPayload
  rw [hc]
  dsimp only
  have hn : ∃ e, (classFor cs c).new w = .ok e := by
    unfold ErrClass.new
    rw [hg, hg, hg, hg]
    exact ⟨_, rfl⟩
  obtain ⟨e, he⟩ := hn
  rw [he]
  exact ⟨e, rfl⟩

/-- A step that keeps to the order. -/
def Orderly (r : List Event × Flow) : Prop := ∃ p, run .start r.1 = some p ∧ (r.2 = .next → p = .opened)

theorem orderly_line (cs : List ErrClass) (status : Int) (tr : List Event) (line : Str) (hl : LawfulLine line)
    (h : run .start tr = some .opened) : Orderly (onLine cs status pageThrows tr line) := by
  unfold onLine
  by_cases he : line = []
  · rw [if_pos he]; exact ⟨_, h, fun _ => rfl⟩
  rw [if_neg he]
  have bad : ∀ (v : Js) (t : Str), nullish v = true → Orderly (if t = cannotReconnect then (tr, .threw t)
      else match emit pageThrows tr (.error (.webrpc (badResponseClass.construct .undefined .undefined (.num (intText status))
          (.str (S "JSON.parse(): " ++ t)))) true) with
        | (trace, .next) => emit pageThrows trace (.message v)
        | (trace, f) => (trace, f)) := by
    intro v t hv
    by_cases ht : t = cannotReconnect
    · rw [if_pos ht]; exact ⟨_, h, fun h => by cases h⟩
    · rw [if_neg ht, emit_quiet _ _ (fun _ h => by cases h)]
      dsimp only
      obtain ⟨t', ht'⟩ := messageIn_nullish hv
      rw [emit_throws _ _ _ ht']
      refine ⟨.ended, ?_, fun h => by cases h⟩
      have h1 : run .start (tr ++ [.error (.webrpc (badResponseClass.construct .undefined .undefined (.num (intText status))
          (.str (S "JSON.parse(): " ++ t)))) true]) = some .ended := by
        rw [run_one h]; rfl
      show run .start (_ ++ [Event.message v]) = _
      rw [run_one h1]
      unfold Phase.next
      dsimp only
      rw [ht']
  unfold tryLine
  cases hp : jsonParse line with
  | none => exact bad _ _ rfl
  | some data =>
    dsimp only
    cases hw : hasWebrpcError data with
    | none =>
      rcases hl data hp with hn | hn | ⟨hn, _⟩
      · exact bad _ _ hn
      · rw [hw] at hn; cases hn
      · rw [hw] at hn; cases hn
    | some b =>
      cases b with
      | false =>
        dsimp only
        cases hm : messageIn data with
        | error t => rw [emit_throws _ _ _ hm]; exact ⟨.opened, by rw [run_one h]; rfl, fun h => by cases h⟩
        | ok x => rw [emit_ok _ _ _ hm]; exact ⟨.opened, by rw [run_one h]; rfl, fun _ => rfl⟩
      | true =>
        dsimp only
        rcases hl data hp with hn | hn | ⟨_, hn⟩
        · cases data <;> first | cases hw | cases hn
        · rw [hw] at hn; cases hn
        · obtain ⟨e, he⟩ := throw_nonnull cs hn
          rw [he]
          dsimp only
          rw [emit_quiet _ _ (fun _ h => by cases h)]
          exact ⟨.ended, by rw [run_one h]; rfl, fun h => by cases h⟩

theorem orderly_lines (cs : List ErrClass) (status : Int) (lines : List Str) (tr : List Event) (hl : ∀ line ∈ lines, LawfulLine line)
    (h : run .start tr = some .opened) : Orderly (onLines cs status pageThrows tr lines) := by
  induction lines generalizing tr with
  | nil => exact ⟨_, h, fun _ => rfl⟩
  | cons line lines ih =>
    unfold onLines
    have h1 := orderly_line cs status tr line (hl line (List.mem_cons_self ..)) h
    revert h1
    cases onLine cs status pageThrows tr line with
    | mk tr' f =>
      rintro ⟨p, hp, hf⟩
      cases f with
      | next =>
        cases hf rfl
        exact ih tr' (fun l hm => hl l (List.mem_cons_of_mem _ hm)) hp
      | returned => exact ⟨p, hp, fun h => by cases h⟩
      | threw t => exact ⟨p, hp, fun h => by cases h⟩

theorem orderly_loop (cs : List ErrClass) (status : Int) (rs : List ReadEnd) (tr : List Event) (v : StreamVars)
    (hl : ∀ line ∈ arriving v rs, LawfulLine line) (h : run .start tr = some .opened) :
    ∃ p, run .start (readLoop cs status pageThrows tr v rs).1 = some p := by
  induction rs generalizing tr v with
  | nil => exact ⟨_, h⟩
  | cons r rs ih =>
    unfold readLoop
    cases r with
    | aborted t =>
      unfold onRead
      dsimp only
      rw [emit_quiet _ _ (fun _ h => by cases h)]
      exact ⟨.ended, by rw [run_one h]; rfl⟩
    | failed t =>
      unfold onRead
      dsimp only
      rw [emit_quiet _ _ (fun _ h => by cases h)]
      exact ⟨.ended, by rw [run_one h]; rfl⟩
    | chunk bytes =>
      unfold onRead
      dsimp only
      unfold arriving at hl
      dsimp only at hl
      have h1 := orderly_lines cs status _ tr (fun line hm => hl line (List.mem_append_left _ hm)) h
      revert h1
      cases onLines cs status pageThrows tr _ with
      | mk tr' f =>
        rintro ⟨p, hp, hf⟩
        cases f with
        | next =>
          cases hf rfl
          exact ih tr' _ (fun line hm => hl line (List.mem_append_right _ hm)) hp
        | returned => exact ⟨p, hp⟩
        | threw t => exact ⟨p, hp⟩
    | done =>
      unfold onRead
      dsimp only
      unfold arriving at hl
      have h1 := orderly_lines cs status _ tr hl h
      revert h1
      cases onLines cs status pageThrows tr _ with
      | mk tr' f =>
        rintro ⟨p, hp, hf⟩
        cases f with
        | next =>
          cases hf rfl
          dsimp only
          rw [emit_quiet _ _ (fun _ h => by cases h)]
          exact ⟨.ended, by rw [run_one hp]; rfl⟩
        | returned => exact ⟨p, hp⟩
        | threw t => exact ⟨p, hp⟩

theorem orderly_subscribe (cs : List ErrClass) (t : Attempt) (f : StreamFetched) (hf : Answer t f) :
    ∃ p, run .start (subscribe cs pageThrows f).1 = some p := by
  cases f with
  | failed t =>
    unfold subscribe
    dsimp only
    rw [emit_quiet _ _ (fun _ h => by cases h)]
    exact ⟨.ended, rfl⟩
  | response status text body =>
    unfold subscribe sseResponse
    dsimp only
    by_cases hs : okStatus status = true
    · rw [if_pos hs]
      cases body with
      | none =>
        dsimp only
        rw [emit_quiet _ _ (fun _ h => by cases h)]
        exact ⟨.ended, rfl⟩
      | some reads =>
        dsimp only
        rw [emit_quiet _ _ (fun _ h => by cases h)]
        exact orderly_loop cs status reads [.opened] _ (hf.2 status text reads rfl) rfl
    · rw [if_neg hs]
      split
      · exact ⟨.start, rfl⟩
      · rw [emit_quiet _ _ (fun _ h => by cases h)]
        exact ⟨.ended, rfl⟩

theorem run_prefix {a b : List Event} {p q : Phase} (h : run p b = some q) (hp : a <+: b) : ∃ r, run p a = some r := by
  obtain ⟨c, rfl⟩ := hp
  rw [run_append] at h
  cases hr : run p a with
  | none => rw [hr] at h; cases h
  | some r => exact ⟨r, rfl⟩

/-- The next call for a request is one that its place allows. -/
theorem event_allowed {cs : List ErrClass} {t : Attempt} {f : StreamFetched} {e : Event} (hf : Answer t f)
    (hp : t.trace ++ [e] <+: (subscribe cs pageThrows f).1) : ∃ p q, run .start t.trace = some p ∧ p.next e = some q := by
  obtain ⟨r, hr⟩ := orderly_subscribe cs t f hf
  obtain ⟨q, hq⟩ := run_prefix hr hp
  obtain ⟨p, hp⟩ := run_prefix hq (List.prefix_append _ _)
  exact ⟨p, q, hp, by rw [← run_one hp, hq]⟩

/-! ### Received messages -/

omit [JsEngine] in
theorem received_append (a b : List Event) : received (a ++ b) = received a ++ received b := List.filterMap_append

theorem messageIn_chat (v : Js) : (∃ t, messageIn v = .error t ∧ chatMessage (.message v) = none) ∨
    (∃ x, messageIn v = .ok x ∧ chatMessage (.message v) = some x) := by
  by_cases h1 : nullish v = true
  · obtain ⟨t, ht⟩ := messageIn_nullish h1
    refine .inl ⟨t, ht, ?_⟩
    unfold chatMessage; dsimp only
    rw [if_pos (by rw [h1]; rfl)]
  · by_cases h2 : nullish (member (S "message") v) = true
    · refine .inl ⟨JsEngine.typeError (S "id"), ?_, ?_⟩
      · unfold messageIn getProp
        rw [if_neg h1]
        dsimp only
        rw [if_pos h2]
      · unfold chatMessage; dsimp only
        rw [if_pos (by rw [h2, Bool.or_true])]
    · refine .inr ⟨(member (S "message") v, member (S "id") (member (S "message") v)), ?_, ?_⟩
      · unfold messageIn getProp
        rw [if_neg h1]
        dsimp only
        rw [if_neg h2]
      · unfold chatMessage; dsimp only
        rw [if_neg (by simp [h1, h2])]

omit [JsEngine] in
theorem lastOf_short {α : Type} {n : Nat} {l : List α} (h : l.length ≤ n) : lastOf n l = l := by
  unfold lastOf
  rw [Nat.sub_eq_zero_of_le h]; rfl

omit [JsEngine] in
theorem lastOf_push {α : Type} (N : Nat) (l : List α) (m : α) :
    lastOf (N + 1) (l ++ [m]) = if N + 1 ≤ (lastOf (N + 1) l).length then (lastOf (N + 1) l).drop ((lastOf (N + 1) l).length - N) ++ [m]
      else lastOf (N + 1) l ++ [m] := by
  unfold lastOf
  by_cases h : N + 1 ≤ l.length
  · rw [if_pos (by rw [List.length_drop]; omega), List.drop_drop, List.length_drop, List.length_append,
      List.drop_append_of_le_length (by rw [List.length_singleton]; omega)]
    congr 2
    rw [List.length_singleton]
    omega
  · have h1 : l.length - (N + 1) = 0 := by omega
    rw [h1, List.drop_zero, if_neg h, List.length_append]
    have h2 : l.length + [m].length - (N + 1) = 0 := by rw [List.length_singleton]; omega
    rw [h2]; rfl

omit [JsEngine] in
theorem lastId_push (l : List (Js × Js)) (x : Js × Js) : lastId (l ++ [x]) = x.2 := by
  unfold lastId; rw [List.getLast?_concat]; rfl

/-! ### The invariant -/

/-- The request is over. -/
def Ended (t : Attempt) : Prop := run .start t.trace = some .ended

theorem run_ended {tr : List Event} {p q : Phase} (h : run p tr = some q) :
    q = .ended ↔ p = .ended ∨ ∃ e ∈ tr, e = .closed ∨ ∃ x r, e = .error x r := by
  induction tr generalizing p with
  | nil => cases h; simp
  | cons e tr ih =>
    rw [run] at h
    cases hn : p.next e with
    | none => rw [hn] at h; cases h
    | some p' =>
      rw [hn] at h
      rw [ih h]
      have key : p' = .ended ↔ p = .ended ∨ (e = .closed ∨ ∃ x r, e = .error x r) := by
        revert hn
        unfold Phase.next
        split
        · rintro ⟨⟩; simp
        · split
          · rintro ⟨⟩; simp
          · intro h; cases h
        · rintro ⟨⟩; simp
        · rintro ⟨⟩; simp
        · split
          · rintro ⟨⟩; simp
          · intro h; cases h
        · split
          · rintro ⟨⟩; simp
          · intro h; cases h
        · intro h; cases h
      rw [key]
      simp [or_assoc]

theorem ended_iff {t : Attempt} {p : Phase} (h : run .start t.trace = some p) : Over t ↔ p = .ended := by
  rw [run_ended h]
  unfold Over
  simp

/-- Where the page is. -/
inductive Place (s : ChatPage) : Prop
  | connected {old t} : s.attempts = old ++ [t] → (∀ u ∈ old, Ended u) → run .start t.trace = some .opened → t.sub + 1 = s.subs.length →
      s.timers = [] → s.page.status = .connected → Place s
  | asking {old t} : s.attempts = old ++ [t] → (∀ u ∈ old, Ended u) → run .start t.trace = some .start → t.sub + 1 = s.subs.length →
      s.timers = [] → (s.page.status = .connecting ∨ s.page.status = .disconnected) → Place s
  | waiting {tm} : (∀ u ∈ s.attempts, Ended u) → s.timers = [tm] → tm.retry = true → tm.sub + 1 = s.subs.length →
      (∃ u ∈ s.attempts, u.sub = tm.sub) → s.page.status = .connecting → Place s
  | off : (∀ u ∈ s.attempts, Ended u) → s.timers = [] → (s.page.status = .disconnected ∨ s.page.status = .finished) → Place s

/-- Requests that say what was received before. -/
def Resumes : List (Js × Js) → List Attempt → Prop
  | _, [] => True
  | acc, t :: r => t.sent = lastId acc ∧ Resumes (acc ++ received t.trace) r

omit [JsEngine] in
theorem resumes_snoc (acc : List (Js × Js)) (l : List Attempt) (t : Attempt) :
    Resumes acc (l ++ [t]) ↔ Resumes acc l ∧ t.sent = lastId (acc ++ l.flatMap fun u => received u.trace) := by
  induction l generalizing acc with
  | nil => simp [Resumes]
  | cons u l ih => simp [Resumes, ih, and_assoc]

omit [JsEngine] in
theorem resumes_set (acc : List (Js × Js)) (l : List Attempt) (a : Nat) (t t' : Attempt) (h : l[a]? = some t) (hs : t'.sent = t.sent)
    (hr : received t'.trace = received t.trace) : Resumes acc (l.set a t') ↔ Resumes acc l := by
  induction l generalizing acc a with
  | nil => rfl
  | cons u l ih =>
    cases a with
    | zero => cases h; simp [Resumes, hs, hr]
    | succ a => simp only [List.set_cons_succ, Resumes]; rw [ih _ _ (by simpa using h)]

omit [JsEngine] in
theorem flatMap_set (l : List Attempt) (a : Nat) (t t' : Attempt) (h : l[a]? = some t) (hr : received t'.trace = received t.trace) :
    (l.set a t').flatMap (fun u => received u.trace) = l.flatMap fun u => received u.trace := by
  induction l generalizing a with
  | nil => rfl
  | cons u l ih =>
    cases a with
    | zero => cases h; simp [hr]
    | succ a => simp only [List.set_cons_succ, List.flatMap_cons]; rw [ih _ (by simpa using h)]

omit [JsEngine] in
theorem map_sub_set (l : List Attempt) (a : Nat) (t t' : Attempt) (h : l[a]? = some t) (hs : t'.sub = t.sub) :
    (l.set a t').map Attempt.sub = l.map Attempt.sub := by
  induction l generalizing a with
  | nil => rfl
  | cons u l ih =>
    cases a with
    | zero => cases h; simp [hs]
    | succ a => simp only [List.set_cons_succ, List.map_cons]; rw [ih _ (by simpa using h)]

/-- What holds in every state. -/
structure Inv (s : ChatPage) : Prop where
  place : Place s
  subs : ∀ t ∈ s.attempts, ∃ b, s.subs[t.sub]? = some b ∧ t.sent = b.req
  recv : received s.history = s.attempts.flatMap fun u => received u.trace
  messages : s.page.messages = lastOf 1000 ((received s.history).map (·.1))
  last : s.page.last = lastId (received s.history)
  fails : Failures s.history s.page.retries
  once : (s.attempts.map Attempt.sub).Nodup → Resumes [] s.attempts

/-- A call that the page does not notice. -/
def Unnoticed (e : Event) : Prop := ∃ v t, e = .message v ∧ messageIn v = .error t

theorem unnoticed_call {s : ChatPage} {k : Nat} {e : Event} (h : Unnoticed e) : s.call k e = { s with history := s.history ++ [e] } := by
  obtain ⟨v, t, rfl, hv⟩ := h
  unfold ChatPage.call Page.onMessage
  dsimp only
  rw [hv]

theorem unnoticed_chat {e : Event} (h : Unnoticed e) : chatMessage e = none := by
  obtain ⟨v, t, rfl, hv⟩ := h
  rcases messageIn_chat v with ⟨_, _, h⟩ | ⟨_, h, _⟩
  · exact h
  · rw [hv] at h; cases h

theorem next_ended {e : Event} {q : Phase} (h : Phase.next .ended e = some q) : Unnoticed e ∧ q = .ended := by
  cases e with
  | message v =>
    unfold Phase.next at h
    dsimp only at h
    cases hm : messageIn v with
    | error t => rw [hm] at h; cases h; exact ⟨⟨v, t, rfl, hm⟩, rfl⟩
    | ok x => rw [hm] at h; cases h
  | _ => cases h

omit [JsEngine] in
theorem set_last {α : Type} {old : List α} {x : α} {a : Nat} {t : α} (h : (old ++ [x])[a]? = some t) (y : α) :
    (a < old.length ∧ old[a]? = some t ∧ (old ++ [x]).set a y = old.set a y ++ [x]) ∨ (a = old.length ∧ t = x ∧ (old ++ [x]).set a y = old ++ [y]) := by
  by_cases ha : a < old.length
  · refine .inl ⟨ha, ?_, ?_⟩
    · rw [List.getElem?_append_left ha] at h; exact h
    · rw [List.set_append_left _ _ ha]
  · have hlt : a < (old ++ [x]).length := (List.getElem?_eq_some_iff.1 h).1
    have ha' : a = old.length := by simp at hlt; omega
    subst ha'
    refine .inr ⟨rfl, ?_, ?_⟩
    · rw [List.getElem?_concat_length] at h; cases h; rfl
    · rw [List.set_append_right _ _ (Nat.le_refl _)]; simp

omit [JsEngine] in
theorem all_set {old : List Attempt} {P : Attempt → Prop} (h : ∀ u ∈ old, P u) {y : Attempt} (hy : P y) (a : Nat) : ∀ u ∈ old.set a y, P u := by
  intro u hu
  rcases List.mem_or_eq_of_mem_set hu with hu | rfl
  · exact h u hu
  · exact hy

/-- A late call, for a request that is over. -/
theorem inv_late {s : ChatPage} (i : Inv s) {a : Nat} {t : Attempt} {e : Event} (ha : s.attempts[a]? = some t) (ht : Ended t)
    (hu : Unnoticed e) (hn : Phase.next .ended e = some .ended) : Inv (s.event a t e) := by
  have hrec : received (t.trace ++ [e]) = received t.trace := by
    rw [received_append]; simp [received, unnoticed_chat hu]
  have hrec' : received (s.history ++ [e]) = received s.history := by
    rw [received_append]; simp [received, unnoticed_chat hu]
  have ht' : Ended { t with trace := t.trace ++ [e] } := by
    show run .start (t.trace ++ [e]) = _
    rw [run_one ht, hn]
  unfold ChatPage.event
  rw [unnoticed_call hu]
  refine { place := ?_, subs := ?_, recv := ?_, messages := ?_, last := ?_, fails := ?_, once := ?_ }
  · cases i.place with
    | connected h1 h2 h3 h4 h5 h6 =>
      rw [h1] at ha
      rcases set_last ha { t with trace := t.trace ++ [e] } with ⟨_, _, hs⟩ | ⟨_, rfl, _⟩
      · exact .connected (by show s.attempts.set a _ = _; rw [h1]; exact hs) (all_set h2 ht' a) h3 h4 h5 h6
      · rw [Ended, h3] at ht; cases ht
    | asking h1 h2 h3 h4 h5 h6 =>
      rw [h1] at ha
      rcases set_last ha { t with trace := t.trace ++ [e] } with ⟨_, _, hs⟩ | ⟨_, rfl, _⟩
      · exact .asking (by show s.attempts.set a _ = _; rw [h1]; exact hs) (all_set h2 ht' a) h3 h4 h5 h6
      · rw [Ended, h3] at ht; cases ht
    | waiting h1 h2 h3 h4 h5 h6 =>
      refine .waiting (all_set h1 ht' a) h2 h3 h4 ?_ h6
      obtain ⟨u, hu, hus⟩ := h5
      have : u.sub ∈ (s.attempts.set a { t with trace := t.trace ++ [e] }).map Attempt.sub := by
        rw [map_sub_set _ _ _ _ ha (by rfl)]; exact List.mem_map.2 ⟨u, hu, rfl⟩
      obtain ⟨w, hw, hwu⟩ := List.mem_map.1 this
      exact ⟨w, hw, hwu.trans hus⟩
    | off h1 h2 h3 => exact .off (all_set h1 ht' a) h2 h3
  · exact all_set (y := { t with trace := t.trace ++ [e] }) i.subs (i.subs t (List.mem_of_getElem? ha)) a
  · show received (s.history ++ [e]) = _
    rw [hrec', i.recv, flatMap_set _ _ _ _ ha (by exact hrec)]
  · show s.page.messages = lastOf 1000 ((received (s.history ++ [e])).map _)
    rw [hrec', i.messages]
  · show s.page.last = lastId (received (s.history ++ [e]))
    rw [hrec', i.last]
  · obtain ⟨v, _, rfl, _⟩ := hu
    exact .message i.fails
  · intro hd
    dsimp only at hd ⊢
    rw [map_sub_set _ _ _ _ ha (by rfl)] at hd
    rw [resumes_set _ _ _ _ _ ha (by rfl) (by exact hrec)]
    exact i.once hd

/-- A call for the request that is open. -/
theorem inv_live {s : ChatPage} (i : Inv s) {old : List Attempt} {t : Attempt} {e : Event} (h1 : s.attempts = old ++ [t]) (p : Page)
    (tms : List PageTimer)
    (hplace : Place ⟨p, s.subs, old ++ [{ t with trace := t.trace ++ [e] }], tms, s.history ++ [e]⟩)
    (hmsg : p.messages = lastOf 1000 ((received (s.history ++ [e])).map (·.1)))
    (hlast : p.last = lastId (received (s.history ++ [e]))) (hf : Failures (s.history ++ [e]) p.retries) :
    Inv ⟨p, s.subs, old ++ [{ t with trace := t.trace ++ [e] }], tms, s.history ++ [e]⟩ := by
  refine ⟨hplace, ?_, ?_, hmsg, hlast, hf, ?_⟩
  · intro u hu
    have hs := i.subs
    rw [h1] at hs
    rcases List.mem_append.1 hu with hu | hu
    · exact hs u (List.mem_append_left _ hu)
    · rw [List.mem_singleton] at hu
      subst hu
      exact hs t (List.mem_append_right _ (List.mem_singleton.2 rfl))
  · show received (s.history ++ [e]) = _
    rw [received_append, i.recv, h1]
    simp [received_append]
  · intro hd
    have hd' : (s.attempts.map Attempt.sub).Nodup := by rw [h1]; simpa using hd
    have := i.once hd'
    rw [h1, resumes_snoc] at this
    rw [resumes_snoc]
    exact this

theorem received_same {h : List Event} {e : Event} (he : chatMessage e = none) : received (h ++ [e]) = received h := by
  rw [received_append]; simp [received, he]

omit [JsEngine] in
theorem codeText_iff (e : Thrown) (c : Int) : e.codeText = some (intText c) ↔ HasCode e c := by
  unfold Thrown.codeText HasCode
  cases e with
  | other t => simp
  | webrpc t =>
    cases hc : t.code with
    | num x =>
      constructor
      · intro h
        simp only [hc, Option.some.injEq] at h
        exact ⟨t, rfl, by rw [hc, h]⟩
      · rintro ⟨_, ⟨⟩, h⟩
        rw [hc] at h
        cases h
        simp [hc]
    | _ =>
      constructor
      · intro h; simp [hc] at h
      · rintro ⟨_, ⟨⟩, h⟩
        rw [hc] at h
        cases h

omit [JsEngine] in
theorem onError_spec (p : Page) (e : Thrown) :
    (GivesUp e ∧ (p.onError e).2 = none ∧ ((p.onError e).1 = { p with status := .disconnected } ∨ (p.onError e).1 = { p with status := .finished })) ∨
    (¬ GivesUp e ∧ p.onError e = ({ p with status := .connecting, retries := p.retries + 1 }, some (min 30 (2 ^ p.retries) * 1000))) := by
  unfold Page.onError GivesUp
  simp only [← codeText_iff]
  rw [show intText (-10) = S "-10" from by decide, show intText (-8) = S "-8" from by decide, show intText (-1) = S "-1" from by decide]
  by_cases h1 : e.codeText = some (S "-10")
  · rw [if_pos h1]; exact .inl ⟨.inl h1, rfl, .inr rfl⟩
  · rw [if_neg h1]
    by_cases h2 : e.codeText = some (S "-8") ∨ e.codeText = some (S "-1")
    · rw [if_pos h2]; exact .inl ⟨.inr h2, rfl, .inl rfl⟩
    · rw [if_neg h2]
      refine .inr ⟨?_, rfl⟩
      rintro (h | h)
      · exact h1 h
      · exact h2 h

theorem inv_error {s : ChatPage} (i : Inv s) {old : List Attempt} {t : Attempt} {x : Thrown} {r : Bool} {a : Nat}
    (h1 : s.attempts = old ++ [t]) (ha : a = old.length) (h2 : ∀ u ∈ old, Ended u) (h4 : t.sub + 1 = s.subs.length) (h5 : s.timers = [])
    (hrun : run .start (t.trace ++ [.error x r]) = some .ended) (hr : r = true ∨ x.codeText = some (S "-8")) :
    Inv (s.event a t (.error x r)) := by
  have hall : ∀ u ∈ old ++ [{ t with trace := t.trace ++ [.error x r] }], Ended u := by
    intro u hu
    rcases List.mem_append.1 hu with hu | hu
    · exact h2 u hu
    · rw [List.mem_singleton] at hu; subst hu; exact hrun
  have hset : s.attempts.set a { t with trace := t.trace ++ [.error x r] } = old ++ [{ t with trace := t.trace ++ [.error x r] }] := by
    rw [h1, ha, List.set_append_right _ _ (Nat.le_refl _)]; simp
  have hsame := received_same (h := s.history) (e := .error x r) rfl
  rcases onError_spec s.page x with ⟨hg, hn, hp⟩ | ⟨hg, hp⟩
  · have : s.event a t (.error x r) =
        ⟨(s.page.onError x).1, s.subs, old ++ [{ t with trace := t.trace ++ [.error x r] }], s.timers, s.history ++ [.error x r]⟩ := by
      unfold ChatPage.event ChatPage.call
      dsimp only
      rw [show s.page.onError x = ((s.page.onError x).1, none) from by rw [← hn]]
      dsimp only
      rw [hset]
    rw [this]
    refine inv_live i h1 _ _ (.off hall h5 ?_) ?_ ?_ ?_
    · rcases hp with hp | hp <;> rw [hp]
      · exact .inl rfl
      · exact .inr rfl
    · rw [hsame]; rcases hp with hp | hp <;> rw [hp] <;> exact i.messages
    · rw [hsame]; rcases hp with hp | hp <;> rw [hp] <;> exact i.last
    · have : (s.page.onError x).1.retries = s.page.retries := by rcases hp with hp | hp <;> rw [hp]
      rw [this]; exact .gaveUp i.fails hg
  · have : s.event a t (.error x r) =
        ⟨{ s.page with status := .connecting, retries := s.page.retries + 1 }, s.subs, old ++ [{ t with trace := t.trace ++ [.error x r] }],
          [⟨t.sub, r, min 30 (2 ^ s.page.retries) * 1000⟩], s.history ++ [.error x r]⟩ := by
      unfold ChatPage.event ChatPage.call
      dsimp only
      rw [hp]
      dsimp only
      rw [hset, h5]
      rfl
    rw [this]
    have hr' : r = true := by
      rcases hr with hr | hr
      · exact hr
      · refine absurd (.inr (.inl ?_)) hg
        rw [← codeText_iff]
        exact hr
    exact inv_live i h1 _ _ (.waiting (tm := ⟨t.sub, r, _⟩) hall rfl hr' h4 ⟨_, List.mem_append_right _ (List.mem_singleton.2 rfl), rfl⟩ rfl) (by rw [hsame]; exact i.messages) (by rw [hsame]; exact i.last)
      (.failed i.fails hg)

theorem inv_event {cs : List ErrClass} {s : ChatPage} (i : Inv s) {a : Nat} {t : Attempt} {e : Event} {f : StreamFetched}
    (ha : s.attempts[a]? = some t) (hf : Answer t f) (hp : t.trace ++ [e] <+: (subscribe cs pageThrows f).1) : Inv (s.event a t e) := by
  obtain ⟨p, q, hrun, hnext⟩ := event_allowed hf hp
  have hrun' : run .start (t.trace ++ [e]) = some q := by rw [run_one hrun, hnext]
  by_cases hpe : p = .ended
  · subst hpe
    obtain ⟨hu, rfl⟩ := next_ended hnext
    exact inv_late i ha hrun hu hnext
  · have none_live : ¬ Ended t := by intro h; rw [Ended, hrun] at h; cases h; exact hpe rfl
    cases i.place with
    | waiting h1 => exact absurd (h1 t (List.mem_of_getElem? ha)) none_live
    | off h1 => exact absurd (h1 t (List.mem_of_getElem? ha)) none_live
    | asking h1 h2 h3 h4 h5 h6 =>
      rename_i old t'
      have ha' := ha
      rw [h1] at ha'
      rcases set_last ha' { t with trace := t.trace ++ [e] } with ⟨_, hm, _⟩ | ⟨hal, rfl, hset⟩
      · exact absurd (h2 t (List.mem_of_getElem? hm)) none_live
      rw [hrun] at h3
      cases h3
      cases e with
      | opened =>
        have : s.event a t .opened = ⟨s.page.onOpen, s.subs, old ++ [{ t with trace := t.trace ++ [.opened] }], s.timers, s.history ++ [.opened]⟩ := by
          unfold ChatPage.event ChatPage.call
          dsimp only
          rw [h1, hset]
        rw [this]
        have hsame := received_same (h := s.history) (e := .opened) rfl
        cases hnext
        exact inv_live i h1 _ _ (.connected rfl h2 hrun' h4 h5 rfl) (by rw [hsame]; exact i.messages) (by rw [hsame]; exact i.last) .opened
      | error x r =>
        unfold Phase.next at hnext
        dsimp only at hnext
        by_cases hr : r = true ∨ x.codeText = some (S "-8")
        · rw [if_pos hr] at hnext
          cases hnext
          exact inv_error i h1 hal h2 h4 h5 hrun' hr
        · rw [if_neg hr] at hnext; cases hnext
      | message v => cases hnext
      | closed => cases hnext
    | connected h1 h2 h3 h4 h5 h6 =>
      rename_i old t'
      have ha' := ha
      rw [h1] at ha'
      rcases set_last ha' { t with trace := t.trace ++ [e] } with ⟨_, hm, _⟩ | ⟨hal, rfl, hset⟩
      · exact absurd (h2 t (List.mem_of_getElem? hm)) none_live
      rw [hrun] at h3
      cases h3
      cases e with
      | opened => cases hnext
      | error x r =>
        unfold Phase.next at hnext
        dsimp only at hnext
        by_cases hr : r = true ∨ x.codeText = some (S "-8")
        · rw [if_pos hr] at hnext
          cases hnext
          exact inv_error i h1 hal h2 h4 h5 hrun' hr
        · rw [if_neg hr] at hnext; cases hnext
      | closed =>
        have : s.event a t .closed = ⟨s.page.onClose, s.subs, old ++ [{ t with trace := t.trace ++ [.closed] }], s.timers, s.history ++ [.closed]⟩ := by
          unfold ChatPage.event ChatPage.call
          dsimp only
          rw [h1, hset]
        rw [this]
        have hsame := received_same (h := s.history) (e := .closed) rfl
        cases hnext
        refine inv_live i h1 _ _ (.off ?_ h5 (.inl rfl)) (by rw [hsame]; exact i.messages) (by rw [hsame]; exact i.last) (.closed i.fails)
        intro u hu
        rcases List.mem_append.1 hu with hu | hu
        · exact h2 u hu
        · rw [List.mem_singleton] at hu; subst hu; exact hrun'
      | message v =>
        cases hnext
        rcases messageIn_chat v with ⟨x, hx, hc⟩ | ⟨x, hx, hc⟩
        · have : s.event a t (.message v) = ⟨s.page, s.subs, old ++ [{ t with trace := t.trace ++ [.message v] }], s.timers, s.history ++ [.message v]⟩ := by
            unfold ChatPage.event
            rw [unnoticed_call ⟨v, x, rfl, hx⟩]
            dsimp only
            rw [h1, hset]
          rw [this]
          have hsame := received_same (h := s.history) (e := .message v) hc
          exact inv_live i h1 _ _ (.connected rfl h2 hrun' h4 h5 h6) (by rw [hsame]; exact i.messages) (by rw [hsame]; exact i.last) (.message i.fails)
        · obtain ⟨m, id⟩ := x
          have : s.event a t (.message v) = ⟨⟨if 1000 ≤ s.page.messages.length then s.page.messages.drop (s.page.messages.length - 999) ++ [m] else s.page.messages ++ [m],
                id, s.page.status, s.page.retries⟩, s.subs,
              old ++ [{ t with trace := t.trace ++ [.message v] }], s.timers, s.history ++ [.message v]⟩ := by
            unfold ChatPage.event ChatPage.call Page.onMessage
            dsimp only
            rw [hx]
            dsimp only
            rw [h1, hset]
          rw [this]
          have hmore : received (s.history ++ [.message v]) = received s.history ++ [(m, id)] := by
            rw [received_append]; simp [received, hc]
          refine inv_live i h1 _ _ (.connected rfl h2 hrun' h4 h5 h6) ?_ ?_ (.message i.fails)
          · rw [hmore, List.map_append]
            show _ = lastOf (999 + 1) _
            rw [List.map_singleton, lastOf_push 999, ← show s.page.messages = lastOf (999 + 1) _ from i.messages]
          · rw [hmore, lastId_push]

theorem inv_fetch {s : ChatPage} (hsubs : ∀ t ∈ s.attempts, ∃ b, s.subs[t.sub]? = some b ∧ t.sent = b.req)
    (hrecv : received s.history = s.attempts.flatMap fun u => received u.trace)
    (hmsg : s.page.messages = lastOf 1000 ((received s.history).map (·.1))) (hlast : s.page.last = lastId (received s.history))
    (hf : Failures s.history s.page.retries) (hend : ∀ u ∈ s.attempts, Ended u) (ht : s.timers = []) (hs : s.page.status = .connecting ∨ s.page.status = .disconnected)
    {k : Nat} {b : PageSub} (hb : s.subs[k]? = some b) (hk : k + 1 = s.subs.length)
    (honce : (s.attempts.map Attempt.sub ++ [k]).Nodup → Resumes [] s.attempts ∧ b.req = lastId (s.attempts.flatMap fun u => received u.trace)) :
    Inv (s.fetch k) := by
  unfold ChatPage.fetch
  rw [hb]
  refine ⟨.asking rfl hend rfl hk ht hs, ?_, ?_, hmsg, hlast, hf, ?_⟩
  · intro u hu
    rcases List.mem_append.1 hu with hu | hu
    · exact hsubs u hu
    · rw [List.mem_singleton] at hu; subst hu; exact ⟨b, hb, rfl⟩
  · show received s.history = _
    rw [hrecv]; simp [received]
  · intro hd
    rw [resumes_snoc]
    have := honce (by simpa using hd)
    exact ⟨this.1, by simpa using this.2⟩

theorem inv_connect {s : ChatPage} (hsubs : ∀ t ∈ s.attempts, ∃ b, s.subs[t.sub]? = some b ∧ t.sent = b.req)
    (hrecv : received s.history = s.attempts.flatMap fun u => received u.trace)
    (hmsg : s.page.messages = lastOf 1000 ((received s.history).map (·.1))) (hlast : s.page.last = lastId (received s.history))
    (hf : Failures s.history s.page.retries) (hend : ∀ u ∈ s.attempts, Ended u) (ht : s.timers = [])
    (hs : s.page.status = .connecting ∨ s.page.status = .disconnected)
    (honce : (s.attempts.map Attempt.sub).Nodup → Resumes [] s.attempts) : Inv s.connect := by
  unfold ChatPage.connect
  refine inv_fetch (s := ⟨s.page, s.subs ++ [⟨s.page.last, none⟩], s.attempts, s.timers, s.history⟩) ?_ hrecv hmsg hlast hf hend ht hs (b := ⟨s.page.last, none⟩) ?_ ?_ ?_
  · intro t ht
    obtain ⟨b, h1, h2⟩ := hsubs t ht
    refine ⟨b, ?_, h2⟩
    show (s.subs ++ [_])[t.sub]? = _
    rw [List.getElem?_append_left (List.getElem?_eq_some_iff.1 h1).1, h1]
  · show (s.subs ++ [_])[s.subs.length]? = _
    rw [List.getElem?_concat_length]
  · show _ = (s.subs ++ [_]).length
    simp
  · intro hd
    refine ⟨honce (List.nodup_append.1 hd).1, ?_⟩
    show s.page.last = _
    rw [hlast, hrecv]

theorem inv_reach {cs : List ErrClass} {s : ChatPage} (h : PatientReach cs s) : Inv s := by
  induction h with
  | init =>
    unfold ChatPage.init
    exact inv_connect (by intro t ht; cases ht) rfl rfl rfl .none (by intro u hu; cases hu) rfl (.inl rfl) (fun _ => trivial)
  | click _ hp i =>
    rename_i s _
    unfold ChatPage.click
    cases hs : s.page.status with
    | connecting => exact i
    | finished => exact i
    | disconnected =>
      dsimp only
      have hend : ∀ u ∈ s.attempts, Ended u := by
        have hover := hp hs
        intro u hu
        have hex : ∃ p, run .start u.trace = some p := by
          cases i.place with
          | connected h1 h2 h3 =>
            rw [h1] at hu
            rcases List.mem_append.1 hu with hu | hu
            · exact ⟨_, h2 u hu⟩
            · rw [List.mem_singleton] at hu; subst hu; exact ⟨_, h3⟩
          | asking h1 h2 h3 =>
            rw [h1] at hu
            rcases List.mem_append.1 hu with hu | hu
            · exact ⟨_, h2 u hu⟩
            · rw [List.mem_singleton] at hu; subst hu; exact ⟨_, h3⟩
          | waiting h1 => exact ⟨_, h1 u hu⟩
          | off h1 => exact ⟨_, h1 u hu⟩
        obtain ⟨p, hp⟩ := hex
        have := (ended_iff hp).1 (hover u hu)
        subst this
        exact hp
      refine inv_connect i.subs i.recv i.messages i.last i.fails hend ?_ (.inr hs) i.once
      cases i.place with
      | connected _ _ _ _ h => exact h
      | asking _ _ _ _ h => exact h
      | waiting _ _ _ _ _ h => rw [hs] at h; cases h
      | off _ h => exact h
    | connected =>
      unfold ChatPage.abort
      refine ⟨?_, ?_, i.recv, i.messages, i.last, i.fails, i.once⟩
      · cases i.place with
        | connected h1 h2 h3 h4 h5 h6 => exact .connected h1 h2 h3 (by show _ = (s.subs.modify _ _).length; rw [List.length_modify]; exact h4) h5 h6
        | asking _ _ _ _ _ h => rw [hs] at h; rcases h with h | h <;> cases h
        | waiting _ _ _ _ _ h => rw [hs] at h; cases h
        | off _ _ h => rw [hs] at h; rcases h with h | h <;> cases h
      · intro t ht
        obtain ⟨b, h1, h2⟩ := i.subs t ht
        show ∃ b, (s.subs.modify _ _)[t.sub]? = some b ∧ _
        rw [List.getElem?_modify, h1]
        by_cases hk : s.subs.length - 1 = t.sub
        · refine ⟨b.abort (S "user disconnected"), by rw [Option.map_eq_map, Option.map_some, if_pos hk], ?_⟩
          unfold PageSub.abort
          split <;> exact h2
        · exact ⟨b, by rw [Option.map_eq_map, Option.map_some, if_neg hk], h2⟩
  | step _ st i =>
    cases st with
    | event ha hf hp => exact inv_event i ha hf hp
    | fire ht =>
      rename_i s _ before tm after
      cases i.place with
      | connected _ _ _ _ h => rw [h] at ht; cases before <;> cases ht
      | asking _ _ _ _ h => rw [h] at ht; cases before <;> cases ht
      | off _ h => rw [h] at ht; cases before <;> cases ht
      | waiting h1 h2 h3 h4 h5 h6 =>
        rename_i tm'
        have : before = [] ∧ after = [] ∧ tm = tm' := by
          rw [h2] at ht
          cases before with
          | nil => cases ht; exact ⟨rfl, rfl, rfl⟩
          | cons x l => injection ht with _ ht; cases l <;> cases ht
        obtain ⟨rfl, rfl, rfl⟩ := this
        unfold ChatPage.fire
        rw [if_pos h3]
        obtain ⟨u, hu, hus⟩ := h5
        obtain ⟨b, hb, _⟩ := i.subs u hu
        rw [hus] at hb
        refine inv_fetch (s := ⟨s.page, s.subs, s.attempts, [] ++ [], s.history⟩) i.subs i.recv i.messages i.last i.fails h1 rfl (.inl h6) hb h4 ?_
        intro hd
        have := (List.nodup_append.1 hd).2.2 u.sub (List.mem_map.2 ⟨u, hu, rfl⟩) tm.sub (by simp)
        exact absurd hus this

/-! ### What is shown, however the user clicks -/

/-- What the page shows. -/
structure Shows (s : ChatPage) : Prop where
  messages : s.page.messages = lastOf 1000 ((received s.history).map (·.1))
  last : s.page.last = lastId (received s.history)
  fails : Failures s.history s.page.retries

theorem shows_quiet {s t : ChatPage} (i : Shows s) {e : Event} (he : chatMessage e = none) (h1 : t.page.messages = s.page.messages)
    (h2 : t.page.last = s.page.last) (h3 : t.history = s.history ++ [e]) (hf : Failures (s.history ++ [e]) t.page.retries) : Shows t := by
  have hsame := received_same (h := s.history) he
  exact ⟨by rw [h1, h3, hsame]; exact i.messages, by rw [h2, h3, hsame]; exact i.last, by rw [h3]; exact hf⟩

theorem shows_call {s : ChatPage} (i : Shows s) (k : Nat) (e : Event) : Shows (s.call k e) := by
  cases e with
  | opened => exact shows_quiet i (e := .opened) rfl rfl rfl rfl .opened
  | closed => exact shows_quiet i (e := .closed) rfl rfl rfl rfl (.closed i.fails)
  | message v =>
    rcases messageIn_chat v with ⟨x, hx, hc⟩ | ⟨⟨m, id⟩, hx, hc⟩
    · rw [unnoticed_call ⟨v, x, rfl, hx⟩]
      exact shows_quiet i hc rfl rfl rfl (.message i.fails)
    · have hmore : received (s.history ++ [.message v]) = received s.history ++ [(m, id)] := by
        rw [received_append]; simp [received, hc]
      unfold ChatPage.call Page.onMessage
      dsimp only
      rw [hx]
      refine ⟨?_, ?_, .message i.fails⟩
      · dsimp only
        rw [hmore, List.map_append]
        show _ = lastOf (999 + 1) _
        rw [List.map_singleton, lastOf_push 999, ← show s.page.messages = lastOf (999 + 1) _ from i.messages]
      · dsimp only; rw [hmore, lastId_push]
  | error x r =>
    have hsame := received_same (h := s.history) (e := .error x r) rfl
    rcases onError_spec s.page x with ⟨hg, hn, hp⟩ | ⟨hg, hp⟩
    · have : s.call k (.error x r) = { s with page := (s.page.onError x).1, history := s.history ++ [.error x r] } := by
        unfold ChatPage.call
        dsimp only
        rw [show s.page.onError x = ((s.page.onError x).1, none) from by rw [← hn]]
      rw [this]
      refine ⟨?_, ?_, ?_⟩
      · dsimp only; rw [hsame]; rcases hp with hp | hp <;> rw [hp] <;> exact i.messages
      · dsimp only; rw [hsame]; rcases hp with hp | hp <;> rw [hp] <;> exact i.last
      · have : (s.page.onError x).1.retries = s.page.retries := by rcases hp with hp | hp <;> rw [hp]
        dsimp only
        rw [this]; exact .gaveUp i.fails hg
    · unfold ChatPage.call
      dsimp only
      rw [hp]
      exact ⟨by dsimp only; rw [hsame]; exact i.messages, by dsimp only; rw [hsame]; exact i.last, .failed i.fails hg⟩

omit [JsEngine] in
theorem fetch_same (s : ChatPage) (k : Nat) : (s.fetch k).page = s.page ∧ (s.fetch k).history = s.history := by
  unfold ChatPage.fetch
  cases s.subs[k]? <;> exact ⟨rfl, rfl⟩

omit [JsEngine] in
theorem connect_same (s : ChatPage) : s.connect.page = s.page ∧ s.connect.history = s.history := by
  unfold ChatPage.connect
  have := fetch_same ({ s with subs := s.subs ++ [⟨s.page.last, none⟩] } : ChatPage) s.subs.length
  exact this

omit [JsEngine] in
theorem click_same (s : ChatPage) : s.click.page = s.page ∧ s.click.history = s.history := by
  unfold ChatPage.click
  cases s.page.status with
  | connected => exact ⟨rfl, rfl⟩
  | disconnected => exact connect_same s
  | connecting => exact ⟨rfl, rfl⟩
  | finished => exact ⟨rfl, rfl⟩

omit [JsEngine] in
theorem Shows.same {s t : ChatPage} (i : Shows s) (h : t.page = s.page ∧ t.history = s.history) : Shows t := by
  obtain ⟨h1, h2⟩ := h
  exact ⟨by rw [h1, h2]; exact i.messages, by rw [h1, h2]; exact i.last, by rw [h1, h2]; exact i.fails⟩

theorem shows_reach {cs : List ErrClass} {s : ChatPage} (h : PageReach cs s) : Shows s := by
  induction h with
  | init => exact Shows.same (s := ⟨.init, [], [], [], []⟩) ⟨rfl, rfl, .none⟩ (connect_same _)
  | click _ i => exact i.same (click_same _)
  | step _ st i =>
    cases st with
    | event ha hf hp =>
      rename_i t e _
      have := shows_call i t.sub e
      exact ⟨this.messages, this.last, this.fails⟩
    | fire ht =>
      unfold ChatPage.fire
      split
      · exact i.same (fetch_same _ _)
      · exact i.same ⟨rfl, rfl⟩

/-! ### C107 -/

/-- C107. The page shows the last 1000 messages received, in the order they were received, and knows the id of the last one,
whatever happens and however the user clicks. -/
theorem C107_shown (cs : List ErrClass) (s : ChatPage) (h : PageReach cs s) :
    s.page.messages = lastOf 1000 ((received s.history).map (·.1)) ∧ s.page.last = lastId (received s.history) :=
  ⟨(shows_reach h).messages, (shows_reach h).last⟩

/-- C107. After an error other than "finished", "aborted" and "request failed" the page connects again after 1, 2, 4, 8, 16,
30, 30, ... seconds, counted from the last time it was connected; after those three it does not. -/
theorem C107_backoff (cs : List ErrClass) (s : ChatPage) (h : PageReach cs s) (a : Nat) (t : Attempt) (e : Thrown) (r : Bool) :
    (¬ GivesUp e → (s.event a t (.error e r)).page.status = .connecting ∧
      ∃ n, Failures s.history n ∧ (s.event a t (.error e r)).timers = s.timers ++ [⟨t.sub, r, min 30 (2 ^ n) * 1000⟩]) ∧
    (GivesUp e → (s.event a t (.error e r)).timers = s.timers ∧
      ((s.event a t (.error e r)).page.status = .finished ↔ HasCode e (-10)) ∧
      ((s.event a t (.error e r)).page.status = .disconnected ↔ ¬ HasCode e (-10))) := by
  constructor
  · intro hg
    rcases onError_spec s.page e with ⟨hg', _⟩ | ⟨_, hp⟩
    · exact absurd hg' hg
    · unfold ChatPage.event ChatPage.call
      dsimp only
      rw [hp]
      exact ⟨rfl, _, (shows_reach h).fails, rfl⟩
  · intro hg
    have hc : ∀ c, e.codeText = some (intText c) ↔ HasCode e c := codeText_iff e
    unfold ChatPage.event ChatPage.call Page.onError
    dsimp only
    by_cases h1 : e.codeText = some (S "-10")
    · rw [if_pos h1]
      have : HasCode e (-10) := (hc _).1 h1
      exact ⟨rfl, ⟨fun _ => this, fun _ => rfl⟩, ⟨fun h => (by cases h), fun h => absurd this h⟩⟩
    · rw [if_neg h1]
      have h1' : ¬ HasCode e (-10) := fun h => h1 ((hc _).2 h)
      have h2 : e.codeText = some (S "-8") ∨ e.codeText = some (S "-1") := by
        rcases hg with hg | hg | hg
        · exact absurd hg h1'
        · exact .inl ((hc _).2 hg)
        · exact .inr ((hc _).2 hg)
      rw [if_pos h2]
      exact ⟨rfl, ⟨fun h => (by cases h), fun h => absurd h h1'⟩, ⟨fun _ => h1', fun _ => rfl⟩⟩

theorem over_of_ended {t : Attempt} (h : Ended t) : Over t := (ended_iff h).2 rfl

/-- C107. There is never more than one connection, or timer for the next one (if the user waits after "Re-connect"); what the
status says is the case. -/
theorem C107_one_connection_partial (cs : List ErrClass) (s : ChatPage) (h : PatientReach cs s) :
    (s.page.status = .connected → Connecting s) ∧ (s.page.status = .connecting → Connecting s ∨ Waiting s) ∧
    (s.page.status = .disconnected → Connecting s ∨ Off s) ∧ (s.page.status = .finished → Off s) := by
  cases (inv_reach h).place with
  | connected h1 h2 h3 h4 h5 h6 =>
    have : Connecting s := ⟨_, _, h1, fun u hu => over_of_ended (h2 u hu), fun h => (by cases (ended_iff h3).1 h), h5⟩
    rw [h6]
    exact ⟨fun _ => this, fun h => (by cases h), fun h => (by cases h), fun h => (by cases h)⟩
  | asking h1 h2 h3 h4 h5 h6 =>
    have : Connecting s := ⟨_, _, h1, fun u hu => over_of_ended (h2 u hu), fun h => (by cases (ended_iff h3).1 h), h5⟩
    refine ⟨fun _ => this, fun _ => .inl this, fun _ => .inl this, fun h => ?_⟩
    rw [h] at h6
    rcases h6 with h6 | h6 <;> cases h6
  | waiting h1 h2 h3 h4 h5 h6 =>
    rw [h6]
    exact ⟨fun h => (by cases h), fun _ => .inr ⟨fun u hu => over_of_ended (h1 u hu), _, h2, h3⟩, fun h => (by cases h), fun h => (by cases h)⟩
  | off h1 h2 h3 =>
    have : Off s := ⟨fun u hu => over_of_ended (h1 u hu), h2⟩
    refine ⟨fun h => ?_, fun h => ?_, fun _ => .inr this, fun _ => this⟩
    · rw [h] at h3; rcases h3 with h3 | h3 <;> cases h3
    · rw [h] at h3; rcases h3 with h3 | h3 <;> cases h3

/-- C107. Once the chat is closed, nothing changes any more. -/
theorem C107_finished_partial (cs : List ErrClass) (s s' : ChatPage) (h : PatientReach cs s) (hf : s.page.status = .finished)
    (hs : PageSteps cs s s') : s'.page = s.page ∧ s'.attempts.length = s.attempts.length ∧ s'.timers = [] := by
  have i := inv_reach h
  have hoff : (∀ u ∈ s.attempts, Ended u) ∧ s.timers = [] := by
    cases i.place with
    | connected _ _ _ _ _ h => rw [hf] at h; cases h
    | asking _ _ _ _ _ h => rw [hf] at h; rcases h with h | h <;> cases h
    | waiting _ _ _ _ _ h => rw [hf] at h; cases h
    | off h1 h2 _ => exact ⟨h1, h2⟩
  suffices hh : s'.page = s.page ∧ s'.attempts.length = s.attempts.length ∧ s'.timers = [] ∧ ∀ u ∈ s'.attempts, Ended u from ⟨hh.1, hh.2.1, hh.2.2.1⟩
  induction hs with
  | refl => exact ⟨rfl, rfl, hoff.2, hoff.1⟩
  | @click u st ih =>
    obtain ⟨h1, h2, h3, h4⟩ := ih
    have : u.click = u := by
      unfold ChatPage.click
      rw [h1, hf]
    rw [this]
    exact ⟨h1, h2, h3, h4⟩
  | step _ st ih =>
    obtain ⟨h1, h2, h3, h4⟩ := ih
    cases st with
    | fire ht => rename_i before _ _; rw [h3] at ht; cases before <;> cases ht
    | event ha hfa hp =>
      rename_i a t e f
      obtain ⟨p, q, hrun, hnext⟩ := event_allowed hfa hp
      have he := h4 t (List.mem_of_getElem? ha)
      rw [Ended, hrun] at he
      cases he
      obtain ⟨hu, rfl⟩ := next_ended hnext
      unfold ChatPage.event
      rw [unnoticed_call hu]
      refine ⟨h1, ?_, h3, ?_⟩
      · show (List.set _ _ _).length = _
        rw [List.length_set]; exact h2
      · exact all_set (y := { t with trace := t.trace ++ [e] }) h4 (by show run .start (t.trace ++ [e]) = _; rw [run_one hrun, hnext]) a

/-- C107. Clicking "Re-connect" twice opens two connections: `connect` does not change the status. -/
theorem C107_two_connections (cs : List ErrClass) : ∃ s old t u, PageReach cs s ∧ s.attempts = old ++ [t, u] ∧ ¬ Over t ∧ ¬ Over u := by
  have ans : ∀ t : Attempt, t.dead = none → Answer t (.response 200 (.ok []) (some [.done])) := by
    intro t ht
    refine ⟨fun r hr => by (rw [ht] at hr; cases hr), fun status text reads hf line hl => ?_⟩
    cases hf
    exact absurd hl (List.not_mem_nil)
  have sub : (subscribe cs pageThrows (.response 200 (.ok []) (some [.done]))).1 = [.opened, .closed] := rfl
  have r1 := PageReach.step (cs := cs) .init (PageStep.event (s := .init) (a := 0) (t := ⟨0, .undefined, none, []⟩) (e := .opened) rfl (ans _ rfl)
    (by rw [sub]; exact ⟨[.closed], rfl⟩))
  have r2 := r1.step (PageStep.event (a := 0) (t := ⟨0, .undefined, none, [.opened]⟩) (e := .closed) rfl (ans _ rfl)
    (by rw [sub]; exact ⟨[], rfl⟩))
  refine ⟨_, [⟨0, .undefined, none, [.opened, .closed]⟩], ⟨1, .undefined, none, []⟩, ⟨2, .undefined, none, []⟩, r2.click.click, rfl, ?_, ?_⟩
  · rintro ⟨_, h, _⟩; cases h
  · rintro ⟨_, h, _⟩; cases h

/-! ### C108 -/

/-- C108. The messages are received one connection after the other. -/
theorem C108_no_overlap_partial (cs : List ErrClass) (s : ChatPage) (h : PatientReach cs s) :
    received s.history = s.attempts.flatMap fun t => received t.trace := (inv_reach h).recv

/-- C108. "Re-connect" asks for the messages after the last one received. -/
theorem C108_reconnect (cs : List ErrClass) (s : ChatPage) (h : PageReach cs s) (hs : s.page.status = .disconnected) :
    s.click.attempts = s.attempts ++ [⟨s.subs.length, lastId (received s.history), none, []⟩] := by
  unfold ChatPage.click
  rw [hs]
  unfold ChatPage.connect ChatPage.fetch
  dsimp only
  rw [List.getElem?_concat_length, (shows_reach h).last]

theorem ascending_of_resumes (l : List Attempt) (acc : List (Js × Js)) (ids : List Nat) (h : Resumes acc l)
    (hserved : ∀ t ∈ l, Served t) (h1 : acc.map (·.2) = ids.map idNumber) (h2 : ids.Pairwise (· < ·)) :
    Ascending (acc ++ l.flatMap fun t => received t.trace) := by
  induction l generalizing acc ids with
  | nil => exact ⟨ids, by simpa using h1, h2⟩
  | cons t l ih =>
    obtain ⟨hs, hr⟩ := h
    obtain ⟨ns, g1, g2, g3⟩ := hserved t (List.mem_cons_self ..)
    have key := ih (acc ++ received t.trace) (ids ++ ns) hr (fun u hu => hserved u (List.mem_cons_of_mem _ hu))
      (by rw [List.map_append, List.map_append, h1, g1]) ?_
    · rw [List.flatMap_cons, ← List.append_assoc]; exact key
    · rw [List.pairwise_append]
      refine ⟨h2, g2, fun x hx y hy => ?_⟩
      cases hl : ids.getLast? with
      | none => rw [List.getLast?_eq_none_iff] at hl; subst hl; cases hx
      | some L =>
        have hsent : t.sent = idNumber L := by
          rw [hs]
          unfold lastId
          have : (acc.map (·.2)).getLast? = some (idNumber L) := by rw [h1, List.getLast?_map, hl]; rfl
          rw [List.getLast?_map] at this
          rw [this]; rfl
        have h3 := g3 L hsent y hy
        have h4 : x ≤ L := by
          obtain ⟨init, rfl⟩ := List.getLast?_eq_some_iff.1 hl
          rw [List.pairwise_append] at h2
          rcases List.mem_append.1 hx with hx | hx
          · exact Nat.le_of_lt (h2.2.2 x hx L (List.mem_singleton.2 rfl))
          · rw [List.mem_singleton] at hx; exact Nat.le_of_eq hx
        exact Nat.lt_of_le_of_lt h4 h3

/-- C108. As long as the page has not connected again by itself, only by clicks, every message is received at most once and in
ascending order. -/
theorem C108_once_partial (cs : List ErrClass) (s : ChatPage) (h : PatientReach cs s) (hn : (s.attempts.map Attempt.sub).Nodup)
    (hserved : ∀ t ∈ s.attempts, Served t) : Ascending (received s.history) := by
  have i := inv_reach h
  rw [i.recv]
  exact ascending_of_resumes s.attempts [] [] (i.once hn) hserved rfl .nil

/-- C108. The chat server serves requests so: the ids it sends are ascending and come after the one that was asked for. -/
theorem C108_served {size : Nat} {s : Rpc.ChatState} (h : Rpc.ChatReach size s) {k : Nat} {i : Rpc.SubInfo}
    (hi : RpcSpec.subscriptionOf (s.subs k) = some i) :
    (i.got.map Rpc.ChatMsg.id).Pairwise (· < ·) ∧ ∀ L, i.last = some L → L < i.len → ∀ n ∈ i.got.map Rpc.ChatMsg.id, L < n := by
  obtain ⟨_, h2, _, h4, _⟩ := RpcSpec.C57_subscription h hi
  rw [h2]
  constructor
  · rw [List.pairwise_map]
    exact List.pairwise_lt_range.imp fun hab => by omega
  · intro L hL hlen n hn
    obtain ⟨m, _, rfl⟩ := List.mem_map.1 hn
    rw [h4 L hL hlen]
    have := Nat.le_max_right (i.len - size / 2) (L + 1)
    omega

/-- C108. When the page connects again by itself, it asks for the messages after the one it asked for the first time: all
requests of a `connect` send the same id. -/
theorem C108_retry (cs : List ErrClass) (s : ChatPage) (h : PatientReach cs s) (t u : Attempt) (ht : t ∈ s.attempts) (hu : u ∈ s.attempts)
    (hs : t.sub = u.sub) : t.sent = u.sent := by
  obtain ⟨b, hb, h1⟩ := (inv_reach h).subs t ht
  obtain ⟨c, hc, h2⟩ := (inv_reach h).subs u hu
  rw [hs, hc] at hb
  cases hb
  rw [h1, h2]

/-- C108. Two requests without an id that come early get the same first message. -/
theorem C108_resent {size : Nat} {s : Rpc.ChatState} (h : Rpc.ChatReach size s) {k₁ k₂ : Nat} {i₁ i₂ : Rpc.SubInfo}
    (h₁ : RpcSpec.subscriptionOf (s.subs k₁) = some i₁) (h₂ : RpcSpec.subscriptionOf (s.subs k₂) = some i₂)
    (hn₁ : i₁.last = none) (hn₂ : i₂.last = none) (hl₁ : i₁.len ≤ size / 2) (hl₂ : i₂.len ≤ size / 2) (hg₁ : i₁.got ≠ []) (hg₂ : i₂.got ≠ []) :
    (i₁.got.head?).map Rpc.ChatMsg.id = some 0 ∧ (i₂.got.head?).map Rpc.ChatMsg.id = some 0 := by
  have key : ∀ {k : Nat} {i : Rpc.SubInfo}, RpcSpec.subscriptionOf (s.subs k) = some i → i.last = none → i.len ≤ size / 2 → i.got ≠ [] →
      (i.got.head?).map Rpc.ChatMsg.id = some 0 := by
    intro k i hi hn hl hg
    obtain ⟨_, g2, g3, _⟩ := RpcSpec.C57_subscription h hi
    have hf : i.first = 0 := by rw [g3 hn]; omega
    rw [← List.head?_map, g2, hf]
    cases hgl : i.got.length with
    | zero => rw [List.length_eq_zero_iff] at hgl; exact absurd hgl hg
    | succ n => rw [List.range_succ_eq_map]; rfl
  exact ⟨key h₁ hn₁ hl₁ hg₁, key h₂ hn₂ hl₂ hg₂⟩

/-- A page that has clicked "Disconnect", and is connecting again. -/
structure Doomed (s : ChatPage) (k : Nat) : Prop where
  status : s.page.status = .connecting
  sub : ∃ b reason, s.subs[k]? = some b ∧ b.aborted = some reason
  place : ((∀ u ∈ s.attempts, Ended u) ∧ ∃ tm, s.timers = [tm] ∧ tm.sub = k ∧ tm.retry = true) ∨
    ∃ old t reason, s.attempts = old ++ [t] ∧ (∀ u ∈ old, Ended u) ∧ t.sub = k ∧ t.trace = [] ∧ t.dead = some reason ∧ s.timers = []

theorem not_givesUp_other (t : Str) : ¬ GivesUp (.other t) := by
  rintro (⟨_, h, _⟩ | ⟨_, h, _⟩ | ⟨_, h, _⟩) <;> cases h

theorem doomed_step {cs : List ErrClass} {s s' : ChatPage} {k : Nat} (d : Doomed s k) (h : PageStep cs s s') :
    Doomed s' k ∧ s'.page.messages = s.page.messages := by
  cases h with
  | fire ht =>
    rename_i before tm after
    rcases d.place with ⟨h1, tm', h2, h3, h4⟩ | ⟨_, _, _, _, _, _, _, _, h⟩
    · rw [h2] at ht
      cases before with
      | cons _ b => cases b <;> cases ht
      | nil =>
        cases ht
        obtain ⟨b, reason, hb, hr⟩ := d.sub
        unfold ChatPage.fire ChatPage.fetch
        rw [if_pos h4]
        dsimp only
        rw [h3, hb]
        dsimp only
        exact ⟨⟨d.status, ⟨b, reason, hb, hr⟩, .inr ⟨s.attempts, _, reason, rfl, h1, rfl, rfl, hr, rfl⟩⟩, rfl⟩
    · rw [h] at ht; cases before <;> cases ht
  | event ha hf hp =>
    rename_i a t e f
    have late : Ended t → Unnoticed e ∧ Ended { t with trace := t.trace ++ [e] } := by
      intro he
      obtain ⟨p, q, hrun, hnext⟩ := event_allowed hf hp
      rw [Ended, hrun] at he
      cases he
      obtain ⟨hu, rfl⟩ := next_ended hnext
      exact ⟨hu, by show run .start (t.trace ++ [e]) = _; rw [run_one hrun, hnext]⟩
    rcases d.place with ⟨h1, tm', h2, h3, h4⟩ | ⟨old, u, reason, h1, h2, h3, h4, h5, h6⟩
    · obtain ⟨hu, he⟩ := late (h1 t (List.mem_of_getElem? ha))
      unfold ChatPage.event
      rw [unnoticed_call hu]
      exact ⟨⟨d.status, d.sub, .inl ⟨all_set h1 he a, tm', h2, h3, h4⟩⟩, rfl⟩
    · rw [h1] at ha
      rcases set_last ha { t with trace := t.trace ++ [e] } with ⟨_, hold, hs⟩ | ⟨_, rfl, hs⟩
      · obtain ⟨hu, he⟩ := late (h2 t (List.mem_of_getElem? hold))
        unfold ChatPage.event
        rw [unnoticed_call hu]
        exact ⟨⟨d.status, d.sub, .inr ⟨old.set a _, u, reason, by (show s.attempts.set a _ = _; rw [h1]; exact hs), all_set h2 he a, h3, h4, h5, h6⟩⟩, rfl⟩
      · have hfe := hf.1 reason h5
        subst hfe
        have hsub : (subscribe cs pageThrows (.failed reason)).1 = [.error (.other reason) true] := by
          unfold subscribe
          dsimp only
          rw [emit_quiet _ _ (fun _ h => by cases h)]
          rfl
        rw [hsub, h4] at hp
        obtain ⟨c, hc⟩ := hp
        cases hc
        rcases onError_spec s.page (.other reason) with ⟨hg, _⟩ | ⟨_, hon⟩
        · exact absurd hg (not_givesUp_other reason)
        · unfold ChatPage.event ChatPage.call
          dsimp only
          rw [hon]
          refine ⟨⟨rfl, d.sub, .inl ⟨?_, ⟨t.sub, true, _⟩, by show s.timers ++ _ = _; rw [h6]; rfl, h3, rfl⟩⟩, rfl⟩
          show ∀ x ∈ s.attempts.set a _, Ended x
          rw [h1, hs]
          intro x hx
          rcases List.mem_append.1 hx with hx | hx
          · exact h2 x hx
          · rw [List.mem_singleton] at hx
            subst hx
            show run .start (t.trace ++ _) = _
            rw [h4]; rfl

/-- C108 is false of the code for "Disconnect": it aborts with a reason, so that the stream is reported as lost (C93_reason), with
an error that is not one of the three the page gives up for.  From then on the page is connecting for ever: it shows no more
messages, and the button does nothing. -/
theorem C108_disconnect (cs : List ErrClass) (s : ChatPage) (h : PatientReach cs s) (hs : s.page.status = .connected)
    (a : Nat) (t : Attempt) (f : StreamFetched) (x : Thrown) (r : Bool) (ha : s.click.attempts[a]? = some t) (hf : Answer t f)
    (hp : t.trace ++ [.error x r] <+: (subscribe cs pageThrows f).1) (hg : ¬ GivesUp x)
    (s' : ChatPage) (hs' : PageSteps cs (s.click.event a t (.error x r)) s') :
    s'.page.status = .connecting ∧ s'.page.messages = s.page.messages ∧ s'.click = s' := by
  have hc : s.click = s.abort := by unfold ChatPage.click; rw [hs]
  obtain ⟨p, q, hrun, hnext⟩ := event_allowed hf hp
  have hdoom : ∃ k, Doomed (s.click.event a t (.error x r)) k ∧ (s.click.event a t (.error x r)).page.messages = s.page.messages := by
    rcases onError_spec s.page x with ⟨hg', _⟩ | ⟨_, hon⟩
    · exact absurd hg' hg
    cases (inv_reach h).place with
    | @connected old u h1 h2 h3 h4 h5 h6 =>
      rw [hc] at ha ⊢
      have ha' : (old ++ [u])[a]? = some t := by rw [← h1]; exact ha
      rcases set_last ha' { t with trace := t.trace ++ [.error x r] } with ⟨_, hold, _⟩ | ⟨_, rfl, hset⟩
      · have he := h2 t (List.mem_of_getElem? hold)
        rw [Ended, hrun] at he
        cases he
        obtain ⟨⟨v, _, hv, _⟩, _⟩ := next_ended hnext
        cases hv
      · rw [hrun] at h3
        cases h3
        have hr : r = true ∧ q = .ended := by
          unfold Phase.next at hnext
          dsimp only at hnext
          split at hnext
          · rename_i hx
            cases hnext
            rcases hx with hx | hx
            · exact ⟨hx, rfl⟩
            · exact absurd (.inr (.inl ((codeText_iff x (-8)).1 hx))) hg
          · cases hnext
        obtain ⟨b, hb, _⟩ := (inv_reach h).subs t (by rw [h1]; exact List.mem_append_right _ (List.mem_singleton.2 rfl))
        refine ⟨t.sub, ⟨?_, ?_, .inl ⟨?_, ⟨t.sub, r, min 30 (2 ^ s.page.retries) * 1000⟩, ?_, rfl, hr.1⟩⟩, ?_⟩
        · unfold ChatPage.event ChatPage.call ChatPage.abort
          dsimp only
          rw [hon]
        · unfold ChatPage.event ChatPage.call ChatPage.abort
          dsimp only
          rw [hon]
          dsimp only
          have hk : s.subs.length - 1 = t.sub := by omega
          rw [hk, List.getElem?_modify_eq, hb]
          cases hab : b.aborted with
          | none => exact ⟨_, S "user disconnected", rfl, by unfold PageSub.abort; dsimp only; rw [hab]⟩
          | some reason => exact ⟨_, reason, rfl, by unfold PageSub.abort; dsimp only; rw [hab]; exact hab⟩
        · intro w hw
          have hw' : w ∈ (old ++ [t]).set a { t with trace := t.trace ++ [.error x r] } := by
            rw [← h1]; exact hw
          rw [hset] at hw'
          rcases List.mem_append.1 hw' with hw' | hw'
          · exact h2 w hw'
          · rw [List.mem_singleton] at hw'
            subst hw'
            show run .start (t.trace ++ _) = _
            rw [run_one hrun, hnext, hr.2]
        · unfold ChatPage.event ChatPage.call ChatPage.abort
          dsimp only
          rw [hon, h5]; rfl
        · unfold ChatPage.event ChatPage.call ChatPage.abort
          dsimp only
          rw [hon]
    | asking h1 h2 h3 h4 h5 h6 => rw [hs] at h6; rcases h6 with h6 | h6 <;> cases h6
    | waiting _ _ _ _ _ h6 => rw [hs] at h6; cases h6
    | off _ _ h6 => rw [hs] at h6; rcases h6 with h6 | h6 <;> cases h6
  obtain ⟨k, hd, hm⟩ := hdoom
  have idle : ∀ {w : ChatPage}, Doomed w k → w.click = w := by
    intro w hw
    unfold ChatPage.click
    rw [hw.status]
  suffices hh : Doomed s' k ∧ s'.page.messages = s.page.messages from ⟨hh.1.status, hh.2, idle hh.1⟩
  induction hs' with
  | refl => exact ⟨hd, hm⟩
  | click _ ih => rw [idle ih.1]; exact ih
  | step _ st ih => exact ⟨(doomed_step ih.1 st).1, by rw [(doomed_step ih.1 st).2]; exact ih.2⟩

end Verif.ChatPage
