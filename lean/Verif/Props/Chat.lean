import Verif.Rpc.Chat
/-!
# C57: chat messages and subscriptions

The model is `Verif.Rpc.Chat`: any number of goroutines sending and subscribing, in any interleaving.
-/

namespace Verif.RpcSpec
open Verif.Rpc
open Verif.Schema (Str S)

/-! ## What is stated -/

/-- What a goroutine's subscription was called with and what it has got so far. -/
def subscriptionOf : Sub → Option SubInfo
  | .active i _ => some i
  | .ended i => some i
  | _ => none

/-- The call a goroutine is in, if its message is not in the buffer yet. -/
def pending : Sending → List (Str × Str × Nat)
  | .idle => []
  | .want u x n => [(u, x, n)]
  | .locked u x n => [(u, x, n)]
  | .made m => [(m.username, m.text, m.createdAt)]
  | .counted m => [(m.username, m.text, m.createdAt)]
  | .written => []

/-- The calls goroutine `t` has made, in order: username, text and time. -/
def callsOf (s : ChatState) (t : Nat) : List (Str × Str × Nat) := (s.calls.filter (fun c => c.1 = t)).map (·.2)

/-- The messages in the buffer that goroutine `t` has written, in order. -/
def messagesOf (s : ChatState) (t : Nat) : List ChatMsg := ((s.writers.zip s.log).filter (fun c => c.1 = t)).map (·.2)

/-- The messages at positions `a`, `a + 1`, …, `n` of them. -/
def consecutive (log : List ChatMsg) (a n : Nat) : List ChatMsg := (log.drop a).take n

/-! ## Invariants -/

theorem upd_same {α : Type} (f : Nat → α) (i : Nat) (a : α) : upd f i a i = a := by simp [upd]

theorem upd_other {α : Type} (f : Nat → α) {i j : Nat} (a : α) (h : j ≠ i) : upd f i a j = f j := by simp [upd, h]

/-- In the part of `SendMessage` under the lock. -/
def holds : Sending → Bool
  | .idle => false
  | .want .. => false
  | _ => true

/-- What `msgId` and the message are at each place. -/
def numbered (s : ChatState) : Sending → Prop
  | .idle => True
  | .want .. => True
  | .locked .. => s.msgId = s.log.length
  | .made m => s.msgId = s.log.length ∧ m.id = s.log.length
  | .counted m => s.msgId = s.log.length + 1 ∧ m.id = s.log.length
  | .written => s.msgId = s.log.length

structure SendInv (s : ChatState) : Prop where
  lock : ∀ t, holds (s.sends t) = true ↔ s.lock = some t
  free : s.lock = none → s.msgId = s.log.length
  num : ∀ t, numbered s (s.sends t)
  ids : s.log.map ChatMsg.id = List.range s.log.length

theorem holder_unique {s : ChatState} (h : SendInv s) {t u : Nat} (ht : holds (s.sends t) = true) (hu : holds (s.sends u) = true) :
    u = t := by
  have a := (h.lock t).mp ht
  have b := (h.lock u).mp hu
  rw [a] at b; injection b with b; exact b.symm

theorem not_held {s : ChatState} {t : Nat} (h : numbered s (s.sends t)) (n : holds (s.sends t) = false) (s' : ChatState) :
    numbered s' (s.sends t) := by
  cases e : s.sends t <;> rw [e] at n <;> simp [holds] at n <;> simp [numbered]

theorem numbered_eq {s s' : ChatState} (hl : s'.log = s.log) (hm : s'.msgId = s.msgId) (x : Sending) (h : numbered s x) :
    numbered s' x := by
  cases x <;> simp_all [numbered]

/-- A step that leaves the buffer, the counter, the lock and the goroutines under the lock as they are. -/
theorem SendInv.same {s s' : ChatState} (h : SendInv s) (hl : s'.log = s.log) (hm : s'.msgId = s.msgId) (hk : s'.lock = s.lock)
    (hs : ∀ t, s'.sends t = s.sends t ∨ (holds (s.sends t) = false ∧ holds (s'.sends t) = false)) : SendInv s' := by
  refine ⟨?_, ?_, ?_, ?_⟩
  · intro t
    rw [hk, ← h.lock t]
    rcases hs t with e | ⟨a, b⟩
    · rw [e]
    · rw [a, b]
  · rw [hk, hm, hl]; exact h.free
  · intro t
    rcases hs t with e | ⟨a, b⟩
    · rw [e]; exact numbered_eq hl hm _ (h.num t)
    · cases e : s'.sends t <;> rw [e] at b <;> simp [holds] at b <;> simp [numbered]
  · rw [hl]; exact h.ids

/-- A step of the goroutine that has the lock. -/
theorem SendInv.held {s s' : ChatState} (h : SendInv s) {t : Nat} (ht : holds (s.sends t) = true) (hk : s'.lock = s.lock)
    (hs : ∃ x, s'.sends = upd s.sends t x ∧ holds x = true ∧ numbered s' x)
    (hi : s'.log.map ChatMsg.id = List.range s'.log.length) : SendInv s' := by
  obtain ⟨x, hx, hh, hn⟩ := hs
  have hl : s.lock = some t := (h.lock t).mp ht
  refine ⟨?_, ?_, ?_, hi⟩
  · intro u
    rw [hk, hx]
    by_cases e : u = t
    · subst e; rw [upd_same]; simp [hh, hl]
    · rw [upd_other _ _ e]; exact h.lock u
  · rw [hk, hl]; intro c; cases c
  · intro u
    rw [hx]
    by_cases e : u = t
    · subst e; rw [upd_same]; exact hn
    · rw [upd_other _ _ e]
      have n : holds (s.sends u) = false := by
        cases c : holds (s.sends u) with
        | false => rfl
        | true => exact absurd (holder_unique h ht c) e
      exact not_held (h.num u) n s'

theorem range_succ_append (n : Nat) : List.range (n + 1) = List.range n ++ [n] := List.range_succ

theorem call_held (s : ChatState) (t : Nat) (u x : Str) (hi : holds (s.sends t) = false) (j : Nat) :
    (s.call t u x).sends j = s.sends j ∨ (holds (s.sends j) = false ∧ holds ((s.call t u x).sends j) = false) := by
  show upd s.sends t _ j = _ ∨ _ ∧ holds (upd s.sends t _ j) = _
  by_cases e : j = t
  · subst e; right; rw [upd_same]; exact ⟨hi, rfl⟩
  · left; rw [upd_other _ _ e]

/-! ### The subscriptions -/

/-- What is true of a subscription. -/
structure Tracks (size : Nat) (s : ChatState) (k : Nat) (i : SubInfo) : Prop where
  len : i.len ≤ s.log.length
  start : i.start = i.len - size / 2
  first : i.start ≤ i.first
  fits : i.first + i.got.length ≤ s.log.length
  got : i.got = consecutive s.log i.first i.got.length
  skipped : ∀ p, i.start ≤ p → p < i.first → ∃ L, i.last = some L ∧ p ≤ L
  past : ∀ L, i.last = some L → L < i.len → L < i.first
  joined : ∃ j, j < i.len ∧ s.writers[j]? = some k ∧ (s.log[j]?).map (·.text) = some (i.username ++ S " joined")
  named : i.username ≠ []

/-- What is true at each place of `SubscribeMessages`. -/
def subOk (size : Nat) (s : ChatState) (k : Nat) : Sub → Prop
  | .idle => True
  | .refused => True
  | .joining u _ => u ≠ [] ∧ ∃ n, ([], u ++ S " joined", n) ∈ callsOf s k
  | .skipping i L pos => s.sends k = .idle ∧ i.last = some L ∧ i.got = [] ∧ i.len ≤ s.log.length ∧ i.start = i.len - size / 2 ∧
      i.start ≤ pos ∧ pos ≤ s.log.length ∧ (∀ p, i.start ≤ p → p < pos → p ≤ L) ∧ i.username ≠ [] ∧
      (∃ j, j < i.len ∧ s.writers[j]? = some k ∧ (s.log[j]?).map (·.text) = some (i.username ++ S " joined"))
  | .active i pos => s.sends k = .idle ∧ Tracks size s k i ∧ pos = i.first + i.got.length
  | .ended i => Tracks size s k i

structure ChatInv (size : Nat) (s : ChatState) : Prop where
  send : SendInv s
  lens : s.writers.length = s.log.length
  calls : ∀ t, callsOf s t = (messagesOf s t).map (fun m => (m.username, m.text, m.createdAt)) ++ pending (s.sends t)
  subs : ∀ k, subOk size s k (s.subs k)

/-- Position and message. -/
theorem id_at {s : ChatState} (h : SendInv s) {p : Nat} {m : ChatMsg} (e : s.log[p]? = some m) : m.id = p := by
  have a : (s.log.map ChatMsg.id)[p]? = some m.id := by rw [List.getElem?_map, e]; rfl
  rw [h.ids] at a
  have hp : p < s.log.length := by
    rcases Nat.lt_or_ge p s.log.length with c | c
    · exact c
    · rw [List.getElem?_eq_none (by simpa using c)] at e; cases e
  rw [List.getElem?_range hp] at a
  injection a with a; exact a.symm

theorem consecutive_append {log : List ChatMsg} {a n : Nat} (h : a + n ≤ log.length) (m : ChatMsg) :
    consecutive (log ++ [m]) a n = consecutive log a n := by
  unfold consecutive
  rw [List.drop_append_of_le_length (by omega), List.take_append_of_le_length (by simp; omega)]

theorem consecutive_succ {log : List ChatMsg} {a n : Nat} {m : ChatMsg} (h : log[a + n]? = some m) :
    consecutive log a (n + 1) = consecutive log a n ++ [m] := by
  unfold consecutive
  rw [List.take_add_one, List.getElem?_drop, h]; rfl

theorem joined_append {s : ChatState} {k len : Nat} {x : Str} (m : ChatMsg) (w : Nat) (hw : s.writers.length = s.log.length)
    (h : ∃ j, j < len ∧ s.writers[j]? = some k ∧ (s.log[j]?).map (·.text) = some x) :
    ∃ j, j < len ∧ (s.writers ++ [w])[j]? = some k ∧ ((s.log ++ [m])[j]?).map (·.text) = some x := by
  obtain ⟨j, a, b, c⟩ := h
  have hj : j < s.writers.length := by
    rcases Nat.lt_or_ge j s.writers.length with c | c
    · exact c
    · rw [List.getElem?_eq_none c] at b; cases b
  exact ⟨j, a, by rw [List.getElem?_append_left hj]; exact b, by rw [List.getElem?_append_left (by omega)]; exact c⟩

theorem Tracks.same {size : Nat} {s s' : ChatState} {k : Nat} {i : SubInfo} (h : Tracks size s k i) (hl : s'.log = s.log)
    (hw : s'.writers = s.writers) : Tracks size s' k i :=
  ⟨by rw [hl]; exact h.len, h.start, h.first, by rw [hl]; exact h.fits, by rw [hl]; exact h.got, h.skipped, h.past,
    by rw [hl, hw]; exact h.joined, h.named⟩

theorem Tracks.append {size : Nat} {s s' : ChatState} {k : Nat} {i : SubInfo} (h : Tracks size s k i) {m : ChatMsg} {w : Nat}
    (hl : s'.log = s.log ++ [m]) (hw : s'.writers = s.writers ++ [w]) (hn : s.writers.length = s.log.length) : Tracks size s' k i :=
  ⟨by rw [hl, List.length_append]; have := h.len; omega, h.start, h.first,
    by rw [hl, List.length_append]; have := h.fits; omega,
    by rw [hl, consecutive_append h.fits]; exact h.got, h.skipped, h.past,
    by rw [hl, hw]; exact joined_append m w hn h.joined, h.named⟩

/-- Steps that leave the buffer as it is. -/
theorem subOk.same {size : Nat} {s s' : ChatState} {k : Nat} (b : Sub) (h : subOk size s k b) (hl : s'.log = s.log)
    (hw : s'.writers = s.writers) (hc : ∃ more, s'.calls = s.calls ++ more) (hs : s'.sends k = s.sends k ∨ s.sends k ≠ .idle) :
    subOk size s' k b := by
  obtain ⟨more, hc⟩ := hc
  cases b with
  | idle => trivial
  | refused => trivial
  | joining u last =>
    obtain ⟨a, n, b⟩ := h
    refine ⟨a, n, ?_⟩
    unfold callsOf at b ⊢
    rw [hc, List.filter_append, List.map_append]
    exact List.mem_append_left _ b
  | skipping i L pos =>
    obtain ⟨a, b⟩ := h
    rcases hs with e | e
    · refine ⟨by rw [e]; exact a, ?_⟩
      rw [hl, hw]; exact b
    · exact absurd a e
  | active i pos =>
    obtain ⟨a, b, c⟩ := h
    rcases hs with e | e
    · exact ⟨by rw [e]; exact a, b.same hl hw, c⟩
    · exact absurd a e
  | ended i => exact Tracks.same h hl hw

/-- A message is written. -/
theorem subOk.append {size : Nat} {s s' : ChatState} {k w : Nat} {m : ChatMsg} (b : Sub) (h : subOk size s k b)
    (hl : s'.log = s.log ++ [m]) (hw : s'.writers = s.writers ++ [w]) (hn : s.writers.length = s.log.length)
    (hc : s'.calls = s.calls) (hs : s'.sends k = s.sends k ∨ s.sends k ≠ .idle) :
    subOk size s' k b := by
  cases b with
  | idle => trivial
  | refused => trivial
  | joining u last =>
    obtain ⟨a, n, b⟩ := h
    exact ⟨a, n, by unfold callsOf at b ⊢; rw [hc]; exact b⟩
  | skipping i L pos =>
    obtain ⟨a, b1, b2, b3, b4, b5, b6, b7, b8, b9⟩ := h
    rcases hs with e | e
    · refine ⟨by rw [e]; exact a, b1, b2, by rw [hl, List.length_append]; omega, b4, b5, by rw [hl, List.length_append]; omega, b7, b8, ?_⟩
      rw [hl, hw]; exact joined_append m w hn b9
    · exact absurd a e
  | active i pos =>
    obtain ⟨a, b, c⟩ := h
    rcases hs with e | e
    · exact ⟨by rw [e]; exact a, b.append hl hw hn, c⟩
    · exact absurd a e
  | ended i => exact Tracks.append h hl hw hn

theorem callsOf_call (s : ChatState) (t : Nat) (u x : Str) (j : Nat) :
    callsOf (s.call t u x) j = callsOf s j ++ (if j = t then [(u, x, s.clock)] else []) := by
  unfold callsOf ChatState.call
  dsimp only
  rw [List.filter_append, List.map_append]
  congr 1
  by_cases e : j = t
  · subst e; simp
  · have e' : ¬ t = j := fun c => e c.symm
    simp [e, e']

theorem messagesOf_write (s s' : ChatState) (t : Nat) (m : ChatMsg) (hl : s'.log = s.log ++ [m]) (hw : s'.writers = s.writers ++ [t])
    (hn : s.writers.length = s.log.length) (j : Nat) :
    messagesOf s' j = messagesOf s j ++ (if j = t then [m] else []) := by
  unfold messagesOf
  rw [hl, hw, List.zip_append hn, List.filter_append, List.map_append]
  congr 1
  by_cases e : j = t
  · subst e; simp
  · have e' : ¬ t = j := fun c => e c.symm
    simp [e, e']

/-- The messages of a goroutine are in the buffer. -/
theorem in_buffer {s : ChatState} {t : Nat} {m : ChatMsg} (hn : s.writers.length = s.log.length) (h : m ∈ messagesOf s t) :
    ∃ j, j < s.log.length ∧ s.writers[j]? = some t ∧ s.log[j]? = some m := by
  unfold messagesOf at h
  obtain ⟨⟨w, m'⟩, hm, he⟩ := List.mem_map.mp h
  obtain ⟨hz, hw⟩ := List.mem_filter.mp hm
  obtain ⟨j, hj⟩ := List.mem_iff_getElem?.mp hz
  rw [List.getElem?_zip_eq_some] at hj
  have hw' : w = t := by simpa using hw
  have he' : m' = m := he
  subst hw'; subst he'
  refine ⟨j, ?_, hj.1, hj.2⟩
  rcases Nat.lt_or_ge j s.log.length with c | c
  · exact c
  · rw [List.getElem?_eq_none c] at hj; cases hj.2

/-- The calls of a goroutine enter the buffer one by one. -/
theorem calls_move {s s' : ChatState} {t : Nat} {x : Sending} (h : ∀ t, callsOf s t = (messagesOf s t).map (fun m => (m.username, m.text, m.createdAt)) ++ pending (s.sends t))
    (hc : s'.calls = s.calls) (hl : s'.log = s.log) (hw : s'.writers = s.writers) (hs : s'.sends = upd s.sends t x)
    (hp : pending x = pending (s.sends t)) :
    ∀ t, callsOf s' t = (messagesOf s' t).map (fun m => (m.username, m.text, m.createdAt)) ++ pending (s'.sends t) := by
  intro j
  have a : callsOf s' j = callsOf s j := by unfold callsOf; rw [hc]
  have b : messagesOf s' j = messagesOf s j := by unfold messagesOf; rw [hl, hw]
  rw [a, b, h j, hs]
  by_cases e : j = t
  · subst e; rw [upd_same, hp]
  · rw [upd_other _ _ e]

theorem calls_call {s : ChatState} {t : Nat} (u x : Str) (hi : s.sends t = .idle) (h : ∀ t, callsOf s t = (messagesOf s t).map (fun m => (m.username, m.text, m.createdAt)) ++ pending (s.sends t)) :
    ∀ j, callsOf (s.call t u x) j = (messagesOf (s.call t u x) j).map (fun m => (m.username, m.text, m.createdAt)) ++ pending ((s.call t u x).sends j) := by
  intro j
  rw [callsOf_call, h j]
  show _ = (messagesOf s j).map _ ++ pending (upd s.sends t _ j)
  by_cases e : j = t
  · subst e; rw [upd_same, hi]; simp [pending]
  · rw [upd_other _ _ e]; simp [e]

theorem no_more (s : ChatState) : ∃ more, s.calls = s.calls ++ more := ⟨[], by simp⟩

theorem upd_cases {s : ChatState} {t : Nat} {x : Sending} (h : s.sends t ≠ .idle) (k : Nat) :
    upd s.sends t x k = s.sends k ∨ s.sends k ≠ .idle := by
  by_cases e : k = t
  · subst e; exact .inr h
  · left; rw [upd_other _ _ e]

/-- A step of one subscription. -/
theorem subs_set {size : Nat} {s : ChatState} (h : ChatInv size s) {k : Nat} {b : Sub} (hb : subOk size s k b) :
    ChatInv size (s.setSub k b) := by
  refine ⟨?_, h.lens, h.calls, ?_⟩
  · exact h.send.same rfl rfl rfl (fun _ => .inl rfl)
  · intro j
    show subOk size _ j (upd s.subs k b j)
    by_cases e : j = k
    · subst e; rw [upd_same]
      exact hb.same _ rfl rfl (no_more s) (.inl rfl)
    · rw [upd_other _ _ e]
      exact (h.subs j).same _ rfl rfl (no_more s) (.inl rfl)

/-- The "joined" message is in the buffer when the call has returned. -/
theorem joined_in {size : Nat} {s : ChatState} (h : ChatInv size s) {k : Nat} {u : Str} (hi : s.sends k = .idle)
    (hj : ∃ n, (([] : Str), u ++ S " joined", n) ∈ callsOf s k) :
    ∃ j, j < s.log.length ∧ s.writers[j]? = some k ∧ (s.log[j]?).map (·.text) = some (u ++ S " joined") := by
  obtain ⟨n, hj⟩ := hj
  rw [h.calls k, hi] at hj
  simp only [pending, List.append_nil] at hj
  obtain ⟨m, hm, he⟩ := List.mem_map.mp hj
  obtain ⟨j, a, b, c⟩ := in_buffer h.lens hm
  refine ⟨j, a, b, ?_⟩
  rw [c]
  injection he with _ he; injection he with he _
  show some m.text = _
  rw [he]

theorem chatInv_init (size : Nat) : ChatInv size .init := by
  refine ⟨⟨?_, fun _ => rfl, fun _ => trivial, rfl⟩, rfl, fun _ => rfl, fun _ => trivial⟩
  intro t
  show holds .idle = true ↔ (none : Option Nat) = some t
  simp [holds]

theorem chatInv_step {size : Nat} {s t : ChatState} (h : ChatInv size s) (st : ChatStep size s t) : ChatInv size t := by
  cases st with
  | time =>
    exact ⟨h.send.same rfl rfl rfl (fun _ => .inl rfl), h.lens, h.calls, fun k => (h.subs k).same _ rfl rfl (no_more s) (.inl rfl)⟩
  | @send t u x hi hk =>
    refine ⟨h.send.same rfl rfl rfl (call_held s t u x (by rw [hi]; rfl)), h.lens, calls_call u x hi h.calls, ?_⟩
    intro j
    show subOk size _ j (s.subs j)
    by_cases e : j = t
    · subst e; rw [hk]; trivial
    · exact (h.subs j).same _ rfl rfl ⟨_, rfl⟩ (.inl (upd_other _ _ e))
  | @lock t u x n hw hl =>
    refine ⟨⟨?_, ?_, ?_, h.send.ids⟩, h.lens, calls_move h.calls rfl rfl rfl rfl (by rw [hw]; rfl), ?_⟩
    · intro j
      show holds (upd s.sends t _ j) = true ↔ some t = some j
      by_cases e : j = t
      · subst e; rw [upd_same]; simp [holds]
      · rw [upd_other _ _ e, h.send.lock j, hl]
        simp
        exact fun c => e c.symm
    · intro c; cases c
    · intro j
      show numbered _ (upd s.sends t _ j)
      by_cases e : j = t
      · subst e; rw [upd_same]; exact h.send.free hl
      · rw [upd_other _ _ e]; exact numbered_eq rfl rfl _ (h.send.num j)
    · intro k
      exact (h.subs k).same _ rfl rfl (no_more s) (upd_cases (by rw [hw]; simp) k)
  | @make t u x n hw =>
    have hn := h.send.num t
    rw [hw] at hn
    exact ⟨h.send.held (t := t) (by rw [hw]; rfl) rfl ⟨_, rfl, rfl, ⟨hn, hn⟩⟩ h.send.ids, h.lens,
      calls_move h.calls rfl rfl rfl rfl (by rw [hw]; rfl),
      fun k => (h.subs k).same _ rfl rfl (no_more s) (upd_cases (by rw [hw]; simp) k)⟩
  | @count t m hw =>
    have hn := h.send.num t
    rw [hw] at hn
    exact ⟨h.send.held (t := t) (by rw [hw]; rfl) rfl ⟨_, rfl, rfl, ⟨congrArg (· + 1) hn.1, hn.2⟩⟩ h.send.ids, h.lens,
      calls_move h.calls rfl rfl rfl rfl (by rw [hw]; rfl),
      fun k => (h.subs k).same _ rfl rfl (no_more s) (upd_cases (by rw [hw]; simp) k)⟩
  | @write t m hw =>
    have hn := h.send.num t
    rw [hw] at hn
    refine ⟨h.send.held (t := t) (by rw [hw]; rfl) rfl ⟨_, rfl, rfl, ?_⟩ ?_, ?_, ?_, ?_⟩
    · show s.msgId = (s.log ++ [m]).length
      rw [List.length_append]; exact hn.1
    · show (s.log ++ [m]).map ChatMsg.id = List.range (s.log ++ [m]).length
      rw [List.map_append, h.send.ids, List.length_append]
      show _ ++ [m.id] = List.range (s.log.length + 1)
      rw [range_succ_append, hn.2]
    · show (s.writers ++ [t]).length = (s.log ++ [m]).length
      rw [List.length_append, List.length_append, h.lens]; rfl
    · intro j
      rw [messagesOf_write s _ t m rfl rfl h.lens j]
      show callsOf s j = _ ++ pending (upd s.sends t _ j)
      rw [h.calls j]
      by_cases e : j = t
      · subst e; rw [upd_same, hw]; simp [pending]
      · rw [upd_other _ _ e]; simp [e]
    · intro k
      exact (h.subs k).append _ rfl rfl h.lens rfl (upd_cases (by rw [hw]; simp) k)
  | @unlock t hw =>
    have hl : s.lock = some t := (h.send.lock t).mp (by rw [hw]; rfl)
    have hn := h.send.num t
    rw [hw] at hn
    refine ⟨⟨?_, fun _ => hn, ?_, h.send.ids⟩, h.lens, calls_move h.calls rfl rfl rfl rfl (by rw [hw]; rfl), ?_⟩
    · intro j
      show holds (upd s.sends t _ j) = true ↔ none = some j
      by_cases e : j = t
      · subst e; rw [upd_same]; simp [holds]
      · rw [upd_other _ _ e, h.send.lock j, hl]
        simp
        exact fun c => e c.symm
    · intro j
      show numbered _ (upd s.sends t _ j)
      by_cases e : j = t
      · subst e; rw [upd_same]; trivial
      · rw [upd_other _ _ e]; exact numbered_eq rfl rfl _ (h.send.num j)
    · intro k
      exact (h.subs k).same _ rfl rfl (no_more s) (upd_cases (by rw [hw]; simp) k)
  | refuse => exact subs_set h trivial
  | @join k u last hi hk hu =>
    refine ⟨(h.send).same rfl rfl rfl (call_held (s.setSub k _) k _ _ (by show holds (s.sends k) = _; rw [hi]; rfl)), h.lens,
      calls_call (s := s.setSub k _) _ _ hi h.calls, ?_⟩
    intro j
    show subOk size _ j (upd s.subs k _ j)
    by_cases e : j = k
    · subst e; rw [upd_same]
      refine ⟨hu, s.clock, ?_⟩
      rw [callsOf_call]
      simp; right; rfl
    · rw [upd_other _ _ e]
      exact (h.subs j).same _ rfl rfl ⟨_, rfl⟩ (.inl (upd_other _ _ e))
  | @subscribe k u hi hk =>
    have hb := h.subs k
    rw [hk] at hb
    refine subs_set h ⟨hi, ⟨Nat.le_refl _, rfl, Nat.le_refl _, Nat.sub_le _ _, rfl, ?_, ?_, joined_in h hi hb.2, hb.1⟩, rfl⟩
    · intro p a b
      have a' : s.log.length - size / 2 ≤ p := a
      have b' : p < s.log.length - size / 2 := b
      omega
    · intro L c; cases c
  | @reconnect k u last hi hk =>
    have hb := h.subs k
    rw [hk] at hb
    exact subs_set h ⟨hi, rfl, rfl, Nat.le_refl _, rfl, Nat.le_refl _, Nat.sub_le _ _, fun p a b => absurd (Nat.lt_of_le_of_lt a b) (Nat.lt_irrefl _),
      hb.1, joined_in h hi hb.2⟩
  | @skip k i last pos m hk hm hle =>
    have hb := h.subs k
    rw [hk] at hb
    obtain ⟨b0, b1, b2, b3, b4, b5, b6, b7, b8, b9⟩ := hb
    have hid := id_at h.send hm
    have hp : pos < s.log.length := by
      rcases Nat.lt_or_ge pos s.log.length with c | c
      · exact c
      · rw [List.getElem?_eq_none c] at hm; cases hm
    refine subs_set h ⟨b0, b1, b2, b3, b4, by omega, by omega, ?_, b8, b9⟩
    intro p a b
    rcases Nat.lt_or_ge p pos with c | c
    · exact b7 p a c
    · omega
  | @skipped k i last pos hk hm =>
    have hb := h.subs k
    rw [hk] at hb
    obtain ⟨b0, b1, b2, b3, b4, b5, b6, b7, b8, b9⟩ := hb
    refine subs_set h ⟨b0, ⟨b3, b4, b5, ?_, ?_, ?_, ?_, b9, b8⟩, ?_⟩
    · show pos + i.got.length ≤ _
      rw [b2]; simpa using b6
    · show i.got = consecutive s.log pos i.got.length
      rw [b2]; simp [consecutive]
    · intro p a b; exact ⟨last, b1, b7 p a b⟩
    · intro L e hL
      have e' : i.last = some L := e
      rw [b1] at e'; injection e' with e'; subst e'
      show last < pos
      have hL' : last < i.len := hL
      rcases Nat.lt_or_ge pos s.log.length with c | c
      · have hs : s.log[pos]? = some s.log[pos] := List.getElem?_eq_getElem c
        have h1 := hm _ hs
        have h2 := id_at h.send hs
        omega
      · omega
    · show pos = pos + i.got.length
      rw [b2]; rfl
  | @deliver k i pos m hk hm _ =>
    have hb := h.subs k
    rw [hk] at hb
    obtain ⟨b0, b1, b2⟩ := hb
    subst b2
    have hp : i.first + i.got.length < s.log.length := by
      rcases Nat.lt_or_ge (i.first + i.got.length) s.log.length with c | c
      · exact c
      · rw [List.getElem?_eq_none c] at hm; cases hm
    have hl : (i.got ++ [m]).length = i.got.length + 1 := by simp
    refine subs_set h ⟨b0, ⟨b1.len, b1.start, b1.first, ?_, ?_, b1.skipped, b1.past, b1.joined, b1.named⟩, ?_⟩
    · show i.first + (i.got ++ [m]).length ≤ _
      rw [hl]; omega
    · show i.got ++ [m] = consecutive s.log i.first (i.got ++ [m]).length
      rw [hl, consecutive_succ hm, ← b1.got]
    · show _ = i.first + (i.got ++ [m]).length
      rw [hl]; omega
  | @stop k i pos hk =>
    have hb := h.subs k
    rw [hk] at hb
    obtain ⟨b0, b1, b2⟩ := hb
    refine ⟨(h.send).same rfl rfl rfl (call_held (s.setSub k _) k _ _ (by show holds (s.sends k) = _; rw [b0]; rfl)), h.lens,
      calls_call (s := s.setSub k _) _ _ b0 h.calls, ?_⟩
    intro j
    show subOk size _ j (upd s.subs k _ j)
    by_cases e : j = k
    · subst e; rw [upd_same]
      exact b1.same rfl rfl
    · rw [upd_other _ _ e]
      exact (h.subs j).same _ rfl rfl ⟨_, rfl⟩ (.inl (upd_other _ _ e))

theorem chatInv {size : Nat} {s : ChatState} (h : ChatReach size s) : ChatInv size s := by
  induction h with
  | init => exact chatInv_init size
  | step _ st ih => exact chatInv_step ih st

/-! ## The theorems -/

/-- **C57, ids.**  In every state the messages in the buffer have the ids 0, 1, 2, … in the order they were written: ids are
never repeated, and never left out. -/
theorem C57_ids {size : Nat} {s : ChatState} (h : ChatReach size s) : s.log.map ChatMsg.id = List.range s.log.length :=
  (chatInv h).send.ids

/-- **C57, calls.**  The calls of `SendMessage` a goroutine has made are, in order and exactly once, the messages it has in the
buffer (with the name and text of the call), but for the last call while it has not written yet.  And once a message is in the buffer it
stays at its place. -/
theorem C57_calls {size : Nat} {s : ChatState} (h : ChatReach size s) :
    (∀ t, ∃ waiting, callsOf s t = (messagesOf s t).map (fun m => (m.username, m.text, m.createdAt)) ++ waiting ∧
      waiting.length ≤ 1 ∧ (s.sends t = .idle → waiting = [])) ∧
    s.writers.length = s.log.length ∧
    (∀ s', ChatSteps size s s' → s.log <+: s'.log ∧ s.writers <+: s'.writers) := by
  refine ⟨fun t => ⟨pending (s.sends t), (chatInv h).calls t, ?_, fun e => by rw [e]; rfl⟩, (chatInv h).lens, ?_⟩
  · cases s.sends t <;> simp [pending]
  · intro s' st
    induction st with
    | refl => exact ⟨List.prefix_rfl, List.prefix_rfl⟩
    | step _ c ih =>
      cases c with
      | write => exact ⟨ih.1.trans (List.prefix_append _ _), ih.2.trans (List.prefix_append _ _)⟩
      | _ => exact ih

/-- **C57, subscriptions.**  Whatever else happens, a subscription has got consecutive messages of the buffer: no message twice,
none left out, in the order of their ids.  The first is the one half a buffer behind the newest when the subscription was
made, or the one after the last message the subscriber names, if that is later.  The user has a name, and the message that says that
the user has joined was in the buffer when the subscription was made. -/
theorem C57_subscription {size : Nat} {s : ChatState} (h : ChatReach size s) {k : Nat} {i : SubInfo}
    (hi : subscriptionOf (s.subs k) = some i) :
    i.got = consecutive s.log i.first i.got.length ∧
    i.got.map ChatMsg.id = (List.range i.got.length).map (i.first + ·) ∧
    (i.last = none → i.first = i.len - size / 2) ∧
    (∀ L, i.last = some L → L < i.len → i.first = max (i.len - size / 2) (L + 1)) ∧
    i.username ≠ [] ∧
    ∃ j, j < i.len ∧ s.writers[j]? = some k ∧ (s.log[j]?).map (·.text) = some (i.username ++ S " joined") := by
  have inv := chatInv h
  have hb := inv.subs k
  have ht : Tracks size s k i := by
    cases e : s.subs k with
    | active i' pos => rw [e] at hi hb; injection hi with hi; subst hi; exact hb.2.1
    | ended i' => rw [e] at hi hb; injection hi with hi; subst hi; exact hb
    | _ => rw [e] at hi; cases hi
  refine ⟨ht.got, ?_, ?_, ?_, ht.named, ht.joined⟩
  · apply List.ext_getElem?
    intro n
    rw [List.getElem?_map, List.getElem?_map]
    rcases Nat.lt_or_ge n i.got.length with c | c
    · rw [List.getElem?_range c]
      have hg : i.got[n]? = s.log[i.first + n]? := by
        rw [ht.got]; unfold consecutive
        rw [List.getElem?_take_of_lt c, List.getElem?_drop]
      have hlt : i.first + n < s.log.length := by have := ht.fits; omega
      have hs := List.getElem?_eq_getElem hlt
      rw [hg, hs]
      show some (ChatMsg.id _) = some _
      rw [id_at inv.send hs]
    · rw [List.getElem?_eq_none c, List.getElem?_eq_none (by simpa using c)]; rfl
  · intro e
    have h1 := ht.start
    have h2 := ht.first
    rcases Nat.lt_or_ge i.start i.first with c | c
    · obtain ⟨L, e', _⟩ := ht.skipped i.start (Nat.le_refl _) c
      rw [e] at e'; cases e'
    · omega
  · intro L e hL
    have h1 := ht.start
    have h2 := ht.first
    have h3 := ht.past L e hL
    rcases Nat.lt_or_ge i.start i.first with c | c
    · obtain ⟨L', e', hle⟩ := ht.skipped (i.first - 1) (by omega) (by omega)
      rw [e] at e'; injection e' with e'; subst e'
      omega
    · omega

/-- **C57, reconnecting.**  If a client that has got messages up to id `L` subscribes again naming `L`, and at most half a buffer
of messages was written in between, then the messages of both subscriptions together are consecutive messages of the buffer: none
is missing and none comes twice. -/
theorem C57_resume {size : Nat} {s : ChatState} (h : ChatReach size s) {k₁ k₂ : Nat} {i₁ i₂ : SubInfo} {L : Nat}
    (h₁ : subscriptionOf (s.subs k₁) = some i₁) (h₂ : subscriptionOf (s.subs k₂) = some i₂)
    (hL : (i₁.got.getLast?).map ChatMsg.id = some L) (hlast : i₂.last = some L) (hbefore : L < i₂.len)
    (hnear : i₂.len ≤ L + 1 + size / 2) :
    i₁.got ++ i₂.got = consecutive s.log i₁.first (i₁.got.length + i₂.got.length) := by
  obtain ⟨g1, m1, _⟩ := C57_subscription h h₁
  obtain ⟨g2, _, _, f2, _⟩ := C57_subscription h h₂
  have e2 := f2 L hlast hbefore
  have hf2 : i₂.first = L + 1 := by rw [e2]; omega
  have e1 : i₁.first + i₁.got.length = L + 1 := by
    rw [← List.getLast?_map, m1, List.getLast?_map, List.getLast?_range] at hL
    split at hL
    · cases hL
    · injection hL with hL
      have hL' : i₁.first + (i₁.got.length - 1) = L := hL
      omega
  rw [hf2, ← e1] at g2
  unfold consecutive at g1 g2 ⊢
  rw [List.take_add, List.drop_drop, ← g1, ← g2]

/-! ## Concrete cases -/

theorem _root_.Verif.Rpc.ChatReach.many {size : Nat} {s t : ChatState} (h : ChatReach size s) (st : ChatSteps size s t) : ChatReach size t := by
  induction st with
  | refl => exact h
  | step _ c ih => exact ih.step c

theorem _root_.Verif.Rpc.ChatSteps.one {size : Nat} {s t : ChatState} (h : ChatStep size s t) : ChatSteps size s t := .step .refl h

theorem _root_.Verif.Rpc.ChatSteps.trans {size : Nat} {s t u : ChatState} (h : ChatSteps size s t) (g : ChatSteps size t u) : ChatSteps size s u := by
  induction g with
  | refl => exact h
  | step _ c ih => exact .step ih c

/-- A goroutine in `SendMessage` that finds the lock free can go on to the end. -/
theorem finish_send {size : Nat} (s : ChatState) (t : Nat) (u x : Str) (n : Nat) (hs : s.sends t = .want u x n) (hl : s.lock = none) :
    ∃ s', ChatSteps size s s' ∧ s'.lock = none ∧ s'.sends = upd s.sends t .idle ∧ s'.subs = s.subs ∧
      s'.log = s.log ++ [⟨s.msgId, u, x, n⟩] ∧ s'.clock = s.clock := by
  have e2 : ∀ (a b : Sending), upd (upd s.sends t a) t b = upd s.sends t b := by
    intro a b; funext j; unfold upd; split <;> rfl
  refine ⟨{ s with lock := none, msgId := s.msgId + 1, log := s.log ++ [⟨s.msgId, u, x, n⟩], writers := s.writers ++ [t], sends := upd s.sends t .idle }, ?_, rfl, rfl, rfl, rfl, rfl⟩
  have s1 := ChatStep.lock (size := size) hs hl
  have s2 := ChatStep.make (size := size) (s := { s with lock := some t, sends := upd s.sends t (.locked u x n) }) (t := t) (upd_same _ _ _)
  dsimp only at s2
  rw [e2] at s2
  have s3 := ChatStep.count (size := size) (s := { s with lock := some t, sends := upd s.sends t (.made ⟨s.msgId, u, x, n⟩) }) (t := t) (upd_same _ _ _)
  dsimp only at s3
  rw [e2] at s3
  have s4 := ChatStep.write (size := size) (s := { s with lock := some t, msgId := s.msgId + 1, sends := upd s.sends t (.counted ⟨s.msgId, u, x, n⟩) }) (t := t) (upd_same _ _ _)
  dsimp only at s4
  rw [e2] at s4
  have s5 := ChatStep.unlock (size := size) (s := { s with lock := some t, msgId := s.msgId + 1, log := s.log ++ [⟨s.msgId, u, x, n⟩], writers := s.writers ++ [t], sends := upd s.sends t .written }) (t := t) (upd_same _ _ _)
  dsimp only at s5
  rw [e2] at s5
  exact .step (.step (.step (.step (.step .refl s1) s2) s3) s4) s5

theorem upd_idle {s : ChatState} {t : Nat} (h : s.sends t = .idle) (x : Sending) : upd (upd s.sends t x) t .idle = s.sends := by
  funext j; unfold upd
  split
  · rename_i e; subst e; exact h.symm
  · rfl

/-- A goroutine can send a message. -/
theorem can_send {size : Nat} (s : ChatState) (t : Nat) (u x : Str) (hs : s.sends t = .idle) (hb : s.subs t = .idle) (hl : s.lock = none) :
    ∃ s', ChatSteps size s s' ∧ s'.lock = none ∧ s'.sends = s.sends ∧ s'.subs = s.subs ∧
      s'.log = s.log ++ [⟨s.msgId, u, x, s.clock⟩] := by
  obtain ⟨s', a, b, c, d, e, _⟩ := finish_send (size := size) (s.call t u x) t u x s.clock (upd_same _ _ _) hl
  refine ⟨s', (ChatSteps.one (.send hs hb)).trans a, b, ?_, d, e⟩
  rw [c]; exact upd_idle hs _

/-- A user can join. -/
theorem can_join {size : Nat} (s : ChatState) (k : Nat) (u : Str) (last : Option Nat) (hu : u ≠ []) (hs : s.sends k = .idle)
    (hb : s.subs k = .idle) (hl : s.lock = none) :
    ∃ s', ChatSteps size s s' ∧ s'.lock = none ∧ s'.sends = s.sends ∧ s'.subs = upd s.subs k (.joining u last) ∧
      s'.log.length = s.log.length + 1 := by
  obtain ⟨s', a, b, c, d, e, _⟩ := finish_send (size := size) ((s.setSub k (.joining u last)).call k [] (u ++ S " joined")) k [] (u ++ S " joined") s.clock (upd_same _ _ _) hl
  refine ⟨s', (ChatSteps.one (.join hs hb hu)).trans a, b, ?_, d, ?_⟩
  · rw [c]; exact upd_idle (s := s) hs _
  · rw [e]; simp; rfl

/-- A server with `n` messages that nobody uses. -/
theorem quiet (size n : Nat) : ∃ s, ChatReach size s ∧ s.lock = none ∧ (∀ t, s.sends t = .idle) ∧ (∀ t, s.subs t = .idle) ∧ s.log.length = n := by
  induction n with
  | zero => exact ⟨.init, .init, rfl, fun _ => rfl, fun _ => rfl, rfl⟩
  | succ n ih =>
    obtain ⟨s, r, a, b, c, d⟩ := ih
    obtain ⟨s', r', a', b', c', d'⟩ := can_send (size := size) s 0 (S "u") (S "hi") (b 0) (c 0) a
    exact ⟨s', r.many r', a', fun t => by rw [b']; exact b t, fun t => by rw [c']; exact c t, by rw [d']; simp [d]⟩

theorem setSub_same (s : ChatState) (k : Nat) (b : Sub) : (s.setSub k b).subs k = b := upd_same _ _ _

theorem setSub_other (s : ChatState) {j k : Nat} (b : Sub) (e : j ≠ k) : (s.setSub k b).subs j = s.subs j := upd_other _ _ e

/-- Naming the message `L` to `Skip`, in a buffer whose messages at `start` and after are all later. -/
theorem C57_gap_at (size L n : Nat) (hfar : L + 1 < n + 1 - size / 2) :
    ∃ s k i, ChatReach size s ∧ subscriptionOf (s.subs k) = some i ∧ i.last = some L ∧ L < i.len ∧ L + 1 < i.first := by
  obtain ⟨s, r, a, b, c, d⟩ := quiet size n
  obtain ⟨s', r', a', b', c', d'⟩ := can_join (size := size) s 0 (S "u") (some L) (by decide) (b 0) (c 0) a
  have hj : s'.subs 0 = .joining (S "u") (some L) := by rw [c']; exact upd_same _ _ _
  have st := ChatStep.reconnect (size := size) (by rw [b']; exact b 0) hj
  have rr := (r.many r').step st
  have hin := (chatInv rr).send
  have st2 := ChatStep.skipped (size := size) (s := s'.setSub 0 (.skipping (s'.subscription size (S "u") (some L)) L (s'.log.length - size / 2))) (k := 0)
    (i := s'.subscription size (S "u") (some L)) (last := L) (pos := s'.log.length - size / 2) (setSub_same _ _ _)
    (by intro m hm; have := id_at hin hm; omega)
  refine ⟨_, 0, _, rr.step st2, by rw [setSub_same]; rfl, rfl, ?_, ?_⟩
  · show L < s'.log.length
    omega
  · show L + 1 < s'.log.length - size / 2
    omega

/-- **C57, where the claim fails.**  With any size of buffer, a client can reconnect naming the last message it has got and
silently miss messages: those more than half a buffer behind (nothing in the stream says so, but for the gap in the ids). -/
theorem C57_gap (size : Nat) : ∃ s k i L, ChatReach size s ∧ subscriptionOf (s.subs k) = some i ∧ i.last = some L ∧ L < i.len ∧ L + 1 < i.first := by
  obtain ⟨s, k, i, h⟩ := C57_gap_at size 0 (size + 1) (by omega)
  exact ⟨s, k, i, 0, h⟩

/-- **C57, times.**  The time of a message is read before the lock is taken: a message with a later id can have an earlier time. -/
theorem C57_times (size : Nat) : ∃ s a b, ChatReach size s ∧ s.log = [a, b] ∧ a.id < b.id ∧ b.createdAt < a.createdAt := by
  -- goroutine 0 reads the time, time passes, goroutine 1 reads the time and sends, goroutine 0 sends
  have r1 : ChatReach size ((ChatState.init).call 0 (S "u") (S "first")) := .step .init (.send rfl rfl)
  have r2 := r1.step .time
  obtain ⟨s', a, b, c, d, e⟩ := can_send (size := size) { (ChatState.init).call 0 (S "u") (S "first") with clock := 1 } 1 (S "v") (S "second") rfl rfl rfl
  have r3 : ChatReach size s' := ChatReach.many r2 a
  have hs : s'.sends 0 = .want (S "u") (S "first") 0 := by rw [c]; rfl
  obtain ⟨s'', a', b', c', d', e', _⟩ := finish_send (size := size) s' 0 (S "u") (S "first") 0 hs b
  have r4 := r3.many a'
  have hid := C57_ids r3
  have hfree := (chatInv r3).send.free b
  have hlen : s'.log.length = 1 := by rw [e]; rfl
  refine ⟨s'', ⟨0, S "v", S "second", 1⟩, ⟨s'.msgId, S "u", S "first", 0⟩, r4, ?_, ?_, ?_⟩
  · rw [e', e]; rfl
  · show 0 < s'.msgId
    omega
  · show 0 < 1
    omega

/-- A user joins, gets the message about it, loses the connection, another user sends a message, and the first user
reconnects and gets what was missed: a state that meets the hypotheses of `C57_subscription` and `C57_resume` (with a buffer of size 10). -/
theorem C57_example : ∃ s k₁ k₂ i₁ i₂, ChatReach 10 s ∧ subscriptionOf (s.subs k₁) = some i₁ ∧ subscriptionOf (s.subs k₂) = some i₂ ∧
    (i₁.got.getLast?).map ChatMsg.id = some 0 ∧ i₂.last = some 0 ∧ 0 < i₂.len ∧ i₂.len ≤ 0 + 1 + 10 / 2 ∧ i₂.got.length = 1 := by
  -- user 0 joins and subscribes
  obtain ⟨s1, r1, a1, b1, c1, d1⟩ := can_join (size := 10) .init 0 (S "ann") none (by decide) rfl rfl rfl
  have hj1 : s1.subs 0 = .joining (S "ann") none := by rw [c1]; exact upd_same _ _ _
  have r2 := (ChatReach.init.many r1).step (ChatStep.subscribe (size := 10) (k := 0) (by rw [b1]; rfl) hj1)
  have l1 : s1.log.length = 1 := d1
  -- and gets the message
  obtain ⟨m1, hm1⟩ : ∃ m, s1.log[0]? = some m := ⟨_, List.getElem?_eq_getElem (by omega)⟩
  have id1 : m1.id = 0 := id_at (chatInv (ChatReach.init.many r1)).send hm1
  have p1 : s1.log.length - 10 / 2 = 0 := by omega
  have r3 := r2.step (ChatStep.deliver (size := 10) (k := 0) (i := s1.subscription 10 (S "ann") none) (pos := s1.log.length - 10 / 2) (m := m1) (setSub_same _ _ _)
    (by rw [p1]; exact hm1) (by show s1.log.length - _ ≤ _; omega))
  -- the same user joins again, as goroutine 1
  obtain ⟨s4, hr4, hs4⟩ : ∃ s, ChatReach 10 s ∧ s = ((s1.setSub 0 (.active (s1.subscription 10 (S "ann") none) (s1.log.length - 10 / 2))).setSub 0
      (.active { s1.subscription 10 (S "ann") none with got := [m1] } (s1.log.length - 10 / 2 + 1))) := ⟨_, r3, rfl⟩
  have hl4 : s4.lock = none := by rw [hs4]; exact a1
  have hx4 : ∀ j, s4.sends j = .idle := by rw [hs4]; intro j; show s1.sends j = _; rw [b1]; rfl
  have hb4 : s4.subs 0 = .active { s1.subscription 10 (S "ann") none with got := [m1] } (s1.log.length - 10 / 2 + 1) := by
    rw [hs4]; exact setSub_same _ _ _
  have hc4 : s4.subs 1 = .idle := by
    rw [hs4]
    rw [setSub_other _ _ (by decide), setSub_other _ _ (by decide), c1, upd_other _ _ (by decide)]; rfl
  have ll4 : s4.log.length = 1 := by rw [hs4]; exact l1
  obtain ⟨s5, r5, a5, b5, c5, d5⟩ := can_join (size := 10) s4 1 (S "ann") (some 0) (by decide) (hx4 1) hc4 hl4
  have hj5 : s5.subs 1 = .joining (S "ann") (some 0) := by rw [c5]; exact upd_same _ _ _
  have hR5 := hr4.many r5
  have r6 := hR5.step (ChatStep.reconnect (size := 10) (k := 1) (by rw [b5]; exact hx4 1) hj5)
  have p5 : s5.log.length - 10 / 2 = 0 := by omega
  have hlog5 : ∀ n, n < 2 → ∃ m, s5.log[n]? = some m ∧ m.id = n := by
    intro n hn
    have : n < s5.log.length := by omega
    exact ⟨_, List.getElem?_eq_getElem this, id_at (chatInv hR5).send (List.getElem?_eq_getElem this)⟩
  obtain ⟨ma, hma, ida⟩ := hlog5 0 (by omega)
  obtain ⟨mb, hmb, idb⟩ := hlog5 1 (by omega)
  have r7 := r6.step (ChatStep.skip (size := 10) (k := 1) (i := s5.subscription 10 (S "ann") (some 0)) (last := 0) (pos := s5.log.length - 10 / 2) (m := ma) (setSub_same _ _ _)
    (by rw [p5]; exact hma) (by omega))
  have r8 := r7.step (ChatStep.skipped (size := 10) (k := 1) (i := s5.subscription 10 (S "ann") (some 0)) (last := 0) (pos := s5.log.length - 10 / 2 + 1) (setSub_same _ _ _)
    (by intro m hm
        rw [p5] at hm
        have hm' : s5.log[1]? = some m := hm
        rw [hmb] at hm'; injection hm' with hm'; subst hm'; omega))
  have r9 := r8.step (ChatStep.deliver (size := 10) (k := 1) (i := { s5.subscription 10 (S "ann") (some 0) with first := s5.log.length - 10 / 2 + 1 }) (pos := s5.log.length - 10 / 2 + 1) (m := mb) (setSub_same _ _ _)
    (by rw [p5]; exact hmb) (by show s5.log.length - _ ≤ _; omega))
  refine ⟨_, 0, 1, { s1.subscription 10 (S "ann") none with got := [m1] },
    { s5.subscription 10 (S "ann") (some 0) with first := s5.log.length - 10 / 2 + 1, got := [mb] }, r9, ?_, ?_, ?_, rfl, ?_, ?_, rfl⟩
  · rw [setSub_other _ _ (by decide), setSub_other _ _ (by decide), setSub_other _ _ (by decide), setSub_other _ _ (by decide), c5,
      upd_other _ _ (by decide), hb4]; rfl
  · rw [setSub_same]; rfl
  · show some m1.id = some 0
    rw [id1]
  · show 0 < s5.log.length
    omega
  · show s5.log.length ≤ _
    omega

end Verif.RpcSpec
