import Verif.Schema.FilterLemmas
import Verif.Spec.BigInts
import Verif.Ridl.ValueLemmas
/-! Lemmas on the big-integer helpers. -/

namespace Verif.Schema
open Verif.Spec

variable {ts : List TypeDecl}

theorem isBig_iff (e : Str) : isBig e = true ↔ ReadsBig e := by
  unfold isBig ReadsBig
  rw [beq_iff_eq]
  have hlow : ∀ c : Char, ∀ x ∈ [('b', 'B'), ('i', 'I'), ('g', 'G'), ('n', 'N'), ('t', 'T')],
      (if 'A' ≤ c ∧ c ≤ 'Z' then Char.ofNat (c.toNat + 32) else c) = x.1 ↔ (c = x.1 ∨ c = x.2) := by
    intro c x hx
    by_cases hc : 'A' ≤ c ∧ c ≤ 'Z'
    · rw [if_pos hc]
      have h1 : 65 ≤ c.toNat := hc.1
      have h2 : c.toNat ≤ 90 := hc.2
      have hv : (c.toNat + 32).isValidChar := by left; omega
      have h3 : (Char.ofNat (c.toNat + 32)).toNat = c.toNat + 32 := by
        rw [Char.ofNat, dif_pos hv]; rfl
      have inj : ∀ a b : Char, a = b ↔ a.toNat = b.toNat := fun a b =>
        ⟨fun h => h ▸ rfl, fun h => Verif.Ridl.char_toNat_inj h⟩
      rw [inj, h3, inj c, inj c]
      simp only [List.mem_cons, List.not_mem_nil, or_false] at hx
      rcases hx with rfl | rfl | rfl | rfl | rfl
      · show c.toNat + 32 = 98 ↔ (c.toNat = 98 ∨ c.toNat = 66); omega
      · show c.toNat + 32 = 105 ↔ (c.toNat = 105 ∨ c.toNat = 73); omega
      · show c.toNat + 32 = 103 ↔ (c.toNat = 103 ∨ c.toNat = 71); omega
      · show c.toNat + 32 = 110 ↔ (c.toNat = 110 ∨ c.toNat = 78); omega
      · show c.toNat + 32 = 116 ↔ (c.toNat = 116 ∨ c.toNat = 84); omega
    · rw [if_neg hc]
      have : ∀ d : Char, ('A' ≤ d ∧ d ≤ 'Z') → c ≠ d := fun d hd h => hc (h ▸ hd)
      simp only [List.mem_cons, List.not_mem_nil, or_false] at hx
      rcases hx with rfl | rfl | rfl | rfl | rfl
      · simp [this 'B' (by decide)]
      · simp [this 'I' (by decide)]
      · simp [this 'G' (by decide)]
      · simp [this 'N' (by decide)]
      · simp [this 'T' (by decide)]
  generalize hf : (fun c : Char => if 'A' ≤ c ∧ c ≤ 'Z' then Char.ofNat (c.toNat + 32) else c) = f
  have hlow' : ∀ c : Char, ∀ x ∈ [('b', 'B'), ('i', 'I'), ('g', 'G'), ('n', 'N'), ('t', 'T')],
      f c = x.1 ↔ (c = x.1 ∨ c = x.2) := by rw [← hf]; exact hlow
  have hb := fun c => hlow' c ('b', 'B') (by simp)
  have hi := fun c => hlow' c ('i', 'I') (by simp)
  have hg := fun c => hlow' c ('g', 'G') (by simp)
  have hn := fun c => hlow' c ('n', 'N') (by simp)
  have ht := fun c => hlow' c ('t', 'T') (by simp)
  have hs : S "bigint" = ['b', 'i', 'g', 'i', 'n', 't'] := rfl
  have hs' : S "BIGINT" = ['B', 'I', 'G', 'I', 'N', 'T'] := rfl
  rw [hs, hs']
  constructor
  · intro h
    have hl : e.length = 6 := by simpa using congrArg List.length h
    match e, hl with
    | [c0, c1, c2, c3, c4, c5], _ =>
      simp only [List.map_cons, List.map_nil, List.cons.injEq, and_true, hb, hi, hg, hn, ht] at h
      refine ⟨rfl, ?_⟩
      intro i c hc
      obtain ⟨h0, h1, h2, h3, h4, h5⟩ := h
      match i, hc with
      | 0, hc => simp at hc; subst hc; simpa [eq_comm] using h0
      | 1, hc => simp at hc; subst hc; simpa [eq_comm] using h1
      | 2, hc => simp at hc; subst hc; simpa [eq_comm] using h2
      | 3, hc => simp at hc; subst hc; simpa [eq_comm] using h3
      | 4, hc => simp at hc; subst hc; simpa [eq_comm] using h4
      | 5, hc => simp at hc; subst hc; simpa [eq_comm] using h5
      | k + 6, hc => simp at hc
  · rintro ⟨hl, h⟩
    match e, hl with
    | [c0, c1, c2, c3, c4, c5], _ =>
      have h0 := h 0 c0 rfl
      have h1 := h 1 c1 rfl
      have h2 := h 2 c2 rfl
      have h3 := h 3 c3 rfl
      have h4 := h 4 c4 rfl
      have h5 := h 5 c5 rfl
      simp at h0 h1 h2 h3 h4 h5
      simp only [List.map_cons, List.map_nil, List.cons.injEq, and_true, hb, hi, hg, hn, ht]
      simp only [eq_comm] at *
      exact ⟨h0, h1, h2, h3, h4, h5⟩

/-- What is known about the memo. -/
structure MemoOK (ts : List TypeDecl) (A : Prop) (m : List (Str × Bool)) : Prop where
  sound : ∀ w, m.lookup w = some true → ∃ u ∈ ts, u.name = w ∧ HasBig ts u
  direct : ∀ w, m.lookup w = some false → ∀ u ∈ ts, u.name = w → ¬ HasDirect u
  complete : A → ∀ w, m.lookup w = some false → ∀ u ∈ ts, u.name = w → ¬ HasBig ts u

/-- Names of `ts` that are not visited yet. -/
def fresh (ts : List TypeDecl) (st : BigMemo) : Nat := (ts.filter fun t => !st.visited.contains t.name).length

/-- A type has what is looked for. -/
def VarBig (ts : List TypeDecl) (v : VarType) : Prop := DirectBig v ∨ ∃ u, IsStruct ts v u ∧ HasBig ts u

/-- Every visited name is that of a struct above `t`. -/
def Above (ts : List TypeDecl) (E : TypeDecl → TypeDecl → Prop) (t : TypeDecl) (vis : List Str) : Prop :=
  ∀ w ∈ vis, ∃ a ∈ ts, a.name = w ∧ Path E a t

/-- Outcome of a search on something that has property `B` (and `D` directly). -/
structure Result (ts : List TypeDecl) (A : Prop) (st st' : BigMemo) (b : Bool) (B D : Prop) : Prop where
  vis : ∀ w, w ∈ st'.visited ↔ w ∈ st.visited
  memo : MemoOK ts A st'.memo
  hit : b = true → B
  missDirect : b = false → ¬ D
  miss : A → b = false → ¬ B

theorem isStruct_mem {v : VarType} {u : TypeDecl} (h : IsStruct ts v u) : u ∈ ts := by
  obtain ⟨_, _, _, _, b, a, rfl, _⟩ := h; simp

/-- What the recursive call is assumed to do. -/
def RecHas (ts : List TypeDecl) (A : Prop) (rec : TypeDecl → BigMemo → Option (Bool × BigMemo)) (N : Nat) : Prop :=
  ∀ t ∈ ts, ∀ st, MemoOK ts A st.memo → fresh ts st < N → (A → Above ts (SubStruct ts) t st.visited) →
    ∃ b st', rec t st = some (b, st') ∧
      Result ts A st st' b (HasBig ts t) (t.name ∉ st.visited ∧ HasDirect t)

theorem fresh_congr {st st' : BigMemo} (h : ∀ w, w ∈ st'.visited ↔ w ∈ st.visited) : fresh ts st' = fresh ts st := by
  unfold fresh
  congr 1
  apply List.filter_congr
  intro t _
  rw [Bool.eq_iff_iff]
  simp [h]

theorem varHas_spec {A : Prop} {rec : TypeDecl → BigMemo → Option (Bool × BigMemo)} {N : Nat}
    (hrec : RecHas ts A rec N) (v : VarType) (st : BigMemo) (hm : MemoOK ts A st.memo) (hf : fresh ts st < N)
    (habove : A → ∀ u, IsStruct ts v u → Above ts (SubStruct ts) u st.visited) :
    ∃ b st', varHas ts rec v st = some (b, st') ∧ Result ts A st st' b (VarBig ts v) (DirectBig v) := by
  unfold varHas
  by_cases hb : isBig v.expr = true
  · rw [if_pos hb]
    exact ⟨true, st, rfl, ⟨fun _ => Iff.rfl, hm, fun _ => .inl (.inl ((isBig_iff _).1 hb)), by simp, by simp⟩⟩
  · rw [if_neg hb]
    have none_case : (∀ u, ¬ IsStruct ts v u) → ¬ DirectBig v →
        ∃ b st', (some (false, st) : Option (Bool × BigMemo)) = some (b, st') ∧
          Result ts A st st' b (VarBig ts v) (DirectBig v) := by
      intro h1 h2
      refine ⟨false, st, rfl, ⟨fun _ => Iff.rfl, hm, by simp, fun _ => h2, fun _ _ => ?_⟩⟩
      rintro (h | ⟨u, hu, _⟩)
      · exact h2 h
      · exact h1 u hu
    have ptr_case : ∀ (e n : Str) (p : Ptr), (v = .struct e n p ∨ ∃ e', v = .list e' (.struct e n p)) →
        ¬ DirectBig v → ∃ b st', ptrHas ts rec p st = some (b, st') ∧
          Result ts A st st' b (VarBig ts v) (DirectBig v) := by
      intro e n p hv hnd
      unfold ptrHas
      have huniq : ∀ u, IsStruct ts v u ↔ deref ts p = some u := by
        intro u
        rw [deref_iff]
        constructor
        · rintro ⟨e1, n1, p1, h1, hd⟩
          have : p1 = p := by
            rcases hv with rfl | ⟨e', rfl⟩
            · rcases h1 with h1 | ⟨_, h1⟩
              · cases h1; rfl
              · cases h1
            · rcases h1 with h1 | ⟨_, h1⟩
              · cases h1
              · cases h1; rfl
          rw [this] at hd; exact hd
        · intro hd; exact ⟨e, n, p, hv, hd⟩
      cases hd : deref ts p with
      | none =>
        exact none_case (fun u hu => by rw [huniq, hd] at hu; cases hu) hnd
      | some t =>
        have ht : IsStruct ts v t := (huniq t).2 hd
        obtain ⟨b, st', h1, h2⟩ := hrec t (isStruct_mem ht) st hm hf (fun hA => habove hA t ht)
        refine ⟨b, st', h1, ⟨h2.vis, h2.memo, fun hb => .inr ⟨t, ht, h2.hit hb⟩, fun _ => hnd, ?_⟩⟩
        intro hA hb
        rintro (h | ⟨u, hu, hB⟩)
        · exact hnd h
        · rw [huniq, hd] at hu
          cases hu
          exact h2.miss hA hb hB
    have hnb : ¬ ReadsBig v.expr := fun h => hb ((isBig_iff _).2 h)
    cases v with
    | leaf e c =>
      exact none_case (fun u ⟨_, _, _, h, _⟩ => by rcases h with h | ⟨_, h⟩ <;> cases h)
        (by rintro (h | ⟨_, _, h, _⟩); exact hnb h; cases h)
    | map e k v =>
      exact none_case (fun u ⟨_, _, _, h, _⟩ => by rcases h with h | ⟨_, h⟩ <;> cases h)
        (by rintro (h | ⟨_, _, h, _⟩); exact hnb h; cases h)
    | enum e k v =>
      exact none_case (fun u ⟨_, _, _, h, _⟩ => by rcases h with h | ⟨_, h⟩ <;> cases h)
        (by rintro (h | ⟨_, _, h, _⟩); exact hnb h; cases h)
    | alias e k v =>
      exact none_case (fun u ⟨_, _, _, h, _⟩ => by rcases h with h | ⟨_, h⟩ <;> cases h)
        (by rintro (h | ⟨_, _, h, _⟩); exact hnb h; cases h)
    | struct e n p =>
      exact ptr_case e n p (.inl rfl) (by rintro (h | ⟨_, _, h, _⟩); exact hnb h; cases h)
    | list e el =>
      dsimp only
      by_cases hel : isBig el.expr = true
      · rw [if_pos hel]
        exact ⟨true, st, rfl, ⟨fun _ => Iff.rfl, hm, fun _ => .inl (.inr ⟨_, _, rfl, (isBig_iff _).1 hel⟩), by simp, by simp⟩⟩
      · rw [if_neg hel]
        have hnd : ¬ DirectBig (.list e el) := by
          rintro (h | ⟨_, _, h, h'⟩)
          · exact hnb h
          · cases h; exact hel ((isBig_iff _).2 h')
        cases el with
        | struct e' n p => exact ptr_case e' n p (.inr ⟨e, rfl⟩) hnd
        | _ => exact none_case (fun u ⟨_, _, _, h, _⟩ => by rcases h with h | ⟨_, h⟩ <;> cases h) hnd

theorem anyHas_spec {A : Prop} {α : Type} {f : α → BigMemo → Option (Bool × BigMemo)} {N : Nat} {B D : α → Prop}
    {I : List Str → Prop} (hI : ∀ a b : List Str, (∀ w, w ∈ b ↔ w ∈ a) → I a → I b)
    (xs : List α) (hf : ∀ x ∈ xs, ∀ st, MemoOK ts A st.memo → fresh ts st < N → I st.visited →
      ∃ b st', f x st = some (b, st') ∧ Result ts A st st' b (B x) (D x))
    (st : BigMemo) (hm : MemoOK ts A st.memo) (hfr : fresh ts st < N) (hi : I st.visited) :
    ∃ b st', anyHas f xs st = some (b, st') ∧ Result ts A st st' b (∃ x ∈ xs, B x) (∃ x ∈ xs, D x) := by
  induction xs generalizing st with
  | nil => exact ⟨false, st, rfl, ⟨fun _ => Iff.rfl, hm, by simp, by simp, by simp⟩⟩
  | cons x xs ih =>
    obtain ⟨b, st', h1, h2⟩ := hf x (by simp) st hm hfr hi
    unfold anyHas
    rw [h1]
    cases b with
    | true =>
      exact ⟨true, st', rfl, ⟨h2.vis, h2.memo, fun _ => ⟨x, by simp, h2.hit rfl⟩, by simp, by simp⟩⟩
    | false =>
      obtain ⟨b, st'', h3, h4⟩ := ih (fun y hy => hf y (by simp [hy])) st' h2.memo
        (by rw [fresh_congr h2.vis]; exact hfr) (hI _ _ h2.vis hi)
      refine ⟨b, st'', h3, ⟨fun w => (h4.vis w).trans (h2.vis w), h4.memo, ?_, ?_, ?_⟩⟩
      · intro hb
        obtain ⟨y, hy, hB⟩ := h4.hit hb
        exact ⟨y, by simp [hy], hB⟩
      · rintro hb ⟨y, hy, hD⟩
        rcases List.mem_cons.1 hy with rfl | hy
        · exact h2.missDirect rfl hD
        · exact h4.missDirect hb ⟨y, hy, hD⟩
      · rintro hA hb ⟨y, hy, hB⟩
        rcases List.mem_cons.1 hy with rfl | hy
        · exact h2.miss hA rfl hB
        · exact h4.miss hA hb ⟨y, hy, hB⟩

theorem hasBig_iff {t : TypeDecl} : HasBig ts t ↔
    t.kind = S "struct" ∧ ∃ v ∈ t.fields.filterMap (·.type), VarBig ts v := by
  constructor
  · intro h
    cases h with
    | direct f v hk hf hv hd => exact ⟨hk, v, List.mem_filterMap.2 ⟨f, hf, hv⟩, .inl hd⟩
    | nested hs hb =>
      obtain ⟨hk, f, hf, v, hv, hi⟩ := hs
      exact ⟨hk, v, List.mem_filterMap.2 ⟨f, hf, hv⟩, .inr ⟨_, hi, hb⟩⟩
  · rintro ⟨hk, v, hv, hb⟩
    obtain ⟨f, hf, hfv⟩ := List.mem_filterMap.1 hv
    rcases hb with hb | ⟨u, hu, hb⟩
    · exact .direct f v hk hf hfv hb
    · exact .nested ⟨hk, f, hf, v, hfv, hu⟩ hb

theorem hasDirect_iff {t : TypeDecl} : HasDirect t ↔
    t.kind = S "struct" ∧ ∃ v ∈ t.fields.filterMap (·.type), DirectBig v := by
  unfold HasDirect
  constructor
  · rintro ⟨hk, f, hf, v, hv, hd⟩; exact ⟨hk, v, List.mem_filterMap.2 ⟨f, hf, hv⟩, hd⟩
  · rintro ⟨hk, v, hv, hd⟩
    obtain ⟨f, hf, hfv⟩ := List.mem_filterMap.1 hv
    exact ⟨hk, f, hf, v, hfv, hd⟩

theorem fresh_visit {t : TypeDecl} (ht : t ∈ ts) {st : BigMemo} (h : t.name ∉ st.visited) :
    fresh ts { st with visited := t.name :: st.visited } < fresh ts st := by
  unfold fresh
  refine Verif.Ridl.filter_length_lt ts ?_ t ht ?_ ?_
  · intro x _ hx
    simp only [Bool.not_eq_true', List.contains_eq_mem, decide_eq_false_iff_not, List.mem_cons, not_or] at hx ⊢
    exact hx.2
  · simp
  · simpa using h

theorem structHasN_spec (A : Prop) (hA : A → ¬ Cyclic (SubStruct ts)) (hdist : OneTypePerName ts) (n : Nat) :
    RecHas ts A (structHasN ts n) n := by
  induction n with
  | zero => intro t _ st _ hf; omega
  | succ n ih =>
    intro t ht st hm hf habove
    unfold structHasN
    by_cases hk : t.kind ≠ S "struct"
    · rw [if_pos hk]
      exact ⟨false, st, rfl, ⟨fun _ => Iff.rfl, hm, by simp, fun _ h => hk h.2.1,
        fun _ _ h => hk (hasBig_iff.1 h).1⟩⟩
    · rw [if_neg hk]
      have hk' : t.kind = S "struct" := by simpa using hk
      cases hl : st.memo.lookup t.name with
      | some b =>
        refine ⟨b, st, rfl, ⟨fun _ => Iff.rfl, hm, ?_, ?_, ?_⟩⟩
        · rintro rfl
          obtain ⟨u, hu, hn, hb⟩ := hm.sound _ hl
          rw [hdist t ht u hu hn.symm]; exact hb
        · rintro rfl h; exact hm.direct _ hl t ht rfl h.2
        · rintro hA rfl; exact hm.complete hA _ hl t ht rfl
      | none =>
        dsimp only
        by_cases hv : st.visited.contains t.name = true
        · rw [if_pos hv]
          refine ⟨false, st, rfl, ⟨fun _ => Iff.rfl, hm, by simp, ?_, ?_⟩⟩
          · rintro _ ⟨h, _⟩; exact h (by simpa using hv)
          · intro hA'
            obtain ⟨a, ha, hn, hp⟩ := habove hA' t.name (by simpa using hv)
            exact absurd ⟨t, by rw [hdist a ha t ht hn] at hp; exact hp⟩ (hA hA')
        · rw [if_neg hv]
          have hv' : t.name ∉ st.visited := by simpa using hv
          have hfr := fresh_visit ht hv'
          obtain ⟨b, st', h1, h2⟩ := anyHas_spec (ts := ts) (A := A) (N := n)
            (I := fun vis => A → ∀ w ∈ vis, ∃ a ∈ ts, a.name = w ∧ (a = t ∨ Path (SubStruct ts) a t))
            (B := VarBig ts) (D := DirectBig) (f := varHas ts (structHasN ts n))
            (fun a b hab hI hA w hw => hI hA w ((hab w).1 hw))
            (t.fields.filterMap (·.type))
            (by
              intro v hv st hm hf hI
              refine varHas_spec ih v st hm hf ?_
              intro hA u hu w hw
              obtain ⟨a, ha, hn, hp⟩ := hI hA w hw
              obtain ⟨f, hf, hfv⟩ := List.mem_filterMap.1 hv
              have hs : SubStruct ts t u := ⟨hk', f, hf, v, hfv, hu⟩
              refine ⟨a, ha, hn, ?_⟩
              rcases hp with rfl | hp
              · exact .edge hs
              · exact hp.snoc hs)
            { st with visited := t.name :: st.visited } hm (by omega)
            (by
              intro hA w hw
              rcases List.mem_cons.1 hw with rfl | hw
              · exact ⟨t, ht, rfl, .inl rfl⟩
              · obtain ⟨a, ha, hn, hp⟩ := habove hA w hw
                exact ⟨a, ha, hn, .inr hp⟩)
          rw [h1]
          refine ⟨b, _, rfl, ?_⟩
          have hB : b = true → HasBig ts t := fun hb => hasBig_iff.2 ⟨hk', h2.hit hb⟩
          have hD : b = false → ¬ HasDirect t := fun hb h => h2.missDirect hb (hasDirect_iff.1 h).2
          have hC : A → b = false → ¬ HasBig ts t := fun hA hb h => h2.miss hA hb (hasBig_iff.1 h).2
          refine ⟨?_, ?_, hB, fun hb h => hD hb h.2, hC⟩
          · intro w
            simp only [List.mem_filter, ne_eq, decide_not, Bool.not_eq_true', decide_eq_false_iff_not]
            rw [h2.vis]
            simp only [List.mem_cons]
            constructor
            · rintro ⟨h | h, h'⟩
              · exact absurd h h'
              · exact h
            · intro h
              exact ⟨.inr h, fun e => hv' (e ▸ h)⟩
          · constructor
            · intro w hw
              simp only [List.lookup_cons] at hw
              split at hw
              · rename_i heq
                have heq : w = t.name := by simpa using heq
                cases hw
                exact ⟨t, ht, heq.symm, hB rfl⟩
              · exact h2.memo.sound w hw
            · intro w hw u hu hn
              simp only [List.lookup_cons] at hw
              split at hw
              · rename_i heq
                have heq : w = t.name := by simpa using heq
                cases hw
                rw [hdist u hu t ht (hn.trans heq)]
                exact hD rfl
              · exact h2.memo.direct w hw u hu hn
            · intro hA w hw u hu hn
              simp only [List.lookup_cons] at hw
              split at hw
              · rename_i heq
                have heq : w = t.name := by simpa using heq
                cases hw
                rw [hdist u hu t ht (hn.trans heq)]
                exact hC hA rfl
              · exact h2.memo.complete hA w hw u hu hn

theorem memoOK_nil (A : Prop) : MemoOK ts A [] := by
  constructor <;> simp

theorem fresh_le (st : BigMemo) : fresh ts st < ts.length + 1 := by
  have := List.length_filter_le (fun t => !st.visited.contains t.name) ts
  unfold fresh
  omega

theorem structHas_spec (A : Prop) (hA : A → ¬ Cyclic (SubStruct ts)) (hdist : OneTypePerName ts) :
    RecHas ts A (structHas ts) (ts.length + 1) := structHasN_spec A hA hdist _

theorem above_nil (E : TypeDecl → TypeDecl → Prop) (t : TypeDecl) {vis : List Str} (h : vis = []) :
    Above ts E t vis := by subst h; intro w hw; cases hw

end Verif.Schema
