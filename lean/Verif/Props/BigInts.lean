import Verif.Schema.BigIntLemmas
import Verif.Compile.Declared
/-!
# Properties of the big-integer helpers (C40, C41)
-/

namespace Verif.Schema
open Verif.Spec
open Verif.Compile (mapSet)

variable {ts : List TypeDecl}

/-! ## Lemmas -/

theorem hasBig_direct {t : TypeDecl} (ht : t ∈ ts) (h : HasBig ts t) : ∃ u ∈ ts, HasDirect u := by
  induction h with
  | direct f v hk hf hv hd => exact ⟨_, ht, hk, f, hf, v, hv, hd⟩
  | nested hs _ ih =>
    obtain ⟨_, _, _, _, _, hi⟩ := hs
    exact ih (isStruct_mem hi)

theorem serviceVars_iff {v : Service} {a : VarType} : a ∈ serviceVars v ↔ ArgOf v a := by
  unfold serviceVars ArgOf
  simp only [List.mem_flatMap, List.mem_filterMap, List.mem_append]

/-- Nothing is being visited. -/
def Idle (st : BigMemo) : Prop := ∀ w, w ∉ st.visited

theorem Result.idle {A B D : Prop} {st st' : BigMemo} {b : Bool} (h : Result ts A st st' b B D) (hi : Idle st) :
    Idle st' := fun w hw => hi w ((h.vis w).1 hw)

theorem idle_above {st : BigMemo} (hi : Idle st) (E : TypeDecl → TypeDecl → Prop) (t : TypeDecl) :
    Above ts E t st.visited := fun w hw => absurd hw (hi w)

/-- What is known about one field or argument after looking at it. -/
structure Entry (ts : List TypeDecl) (A : Prop) (name : Str) (v : VarType) (o : Option BigEntry) : Prop where
  hit : ∀ e, o = some e → Reported ts name v e
  direct : o = none → ¬ DirectBig v
  miss : A → o = none → ∀ e, ¬ Reported ts name v e

theorem bigEntry_spec (A : Prop) (hA : A → ¬ Cyclic (SubStruct ts)) (hdist : OneTypePerName ts)
    (name : Str) (v : VarType) (st : BigMemo) (hm : MemoOK ts A st.memo) (hi : Idle st) :
    ∃ o st', bigEntry ts name v st = some (o, st') ∧ MemoOK ts A st'.memo ∧ Idle st' ∧ Entry ts A name v o := by
  unfold bigEntry
  by_cases hb : isBig v.expr = true
  · rw [if_pos hb]
    exact ⟨_, st, rfl, hm, hi, ⟨fun e he => by cases he; exact .scalar v ((isBig_iff _).1 hb), by simp, by simp⟩⟩
  · rw [if_neg hb]
    have hnb : ¬ ReadsBig v.expr := fun h => hb ((isBig_iff _).2 h)
    have none_case : (∀ e, ¬ Reported ts name v e) → ¬ DirectBig v →
        ∃ o st', (some (none, st) : Option (Option BigEntry × BigMemo)) = some (o, st') ∧
          MemoOK ts A st'.memo ∧ Idle st' ∧ Entry ts A name v o :=
      fun h1 h2 => ⟨none, st, rfl, hm, hi, ⟨by simp, fun _ => h2, fun _ _ => h1⟩⟩
    have ptr_case : ∀ (p : Ptr) (e : BigEntry), ¬ DirectBig v →
        (∀ e', Reported ts name v e' ↔ e' = e ∧ ∃ t, Declares ts p t ∧ HasBig ts t) →
        ∃ o st', ((ptrHas ts (structHas ts) p st).map fun r => (if r.1 then some e else none, r.2)) = some (o, st') ∧
          MemoOK ts A st'.memo ∧ Idle st' ∧ Entry ts A name v o := by
      intro p e hnd hrep
      unfold ptrHas
      cases hd : deref ts p with
      | none =>
        refine ⟨none, st, rfl, hm, hi, ⟨by simp, fun _ => hnd, fun _ _ e' he' => ?_⟩⟩
        obtain ⟨_, t, ht, _⟩ := (hrep e').1 he'
        rw [← deref_iff, hd] at ht; cases ht
      | some t =>
        have ht : Declares ts p t := (deref_iff _ _ _).1 hd
        have htm : t ∈ ts := by obtain ⟨b, a, rfl, _⟩ := ht; simp
        obtain ⟨b, st', h1, h2⟩ := structHas_spec A hA hdist t htm st hm (fresh_le st) (fun _ => idle_above hi _ _)
        dsimp only
        rw [h1]
        refine ⟨_, st', rfl, h2.memo, h2.idle hi, ?_⟩
        cases b with
        | true =>
          exact ⟨fun e' he' => by cases he'; exact (hrep e).2 ⟨rfl, t, ht, h2.hit rfl⟩, by simp, by simp⟩
        | false =>
          refine ⟨by simp, fun _ => hnd, fun hA _ e' he' => ?_⟩
          obtain ⟨_, u, hu, hB⟩ := (hrep e').1 he'
          rw [← deref_iff, hd] at hu
          cases hu
          exact h2.miss hA rfl hB
    cases v with
    | leaf e c =>
      exact none_case (fun e h => by cases h; exact hnb ‹_›) (by rintro (h | ⟨_, _, h, _⟩); exact hnb h; cases h)
    | map e k v =>
      exact none_case (fun e h => by cases h; exact hnb ‹_›) (by rintro (h | ⟨_, _, h, _⟩); exact hnb h; cases h)
    | enum e k v =>
      exact none_case (fun e h => by cases h; exact hnb ‹_›) (by rintro (h | ⟨_, _, h, _⟩); exact hnb h; cases h)
    | alias e k v =>
      exact none_case (fun e h => by cases h; exact hnb ‹_›) (by rintro (h | ⟨_, _, h, _⟩); exact hnb h; cases h)
    | struct e n p =>
      refine ptr_case p (.pair name n) (by rintro (h | ⟨_, _, h, _⟩); exact hnb h; cases h) ?_
      intro e'
      constructor
      · intro h
        cases h with
        | scalar _ h => exact absurd h hnb
        | struct _ _ _ t _ ht hB => exact ⟨rfl, t, ht, hB⟩
      · rintro ⟨rfl, t, ht, hB⟩; exact .struct e n p t hnb ht hB
    | list e el =>
      dsimp only
      by_cases hel : isBig el.expr = true
      · rw [if_pos hel]
        exact ⟨_, st, rfl, hm, hi, ⟨fun e' he' => by cases he'; exact .list e el hnb ((isBig_iff _).1 hel),
          by simp, by simp⟩⟩
      · rw [if_neg hel]
        have hnel : ¬ ReadsBig el.expr := fun h => hel ((isBig_iff _).2 h)
        have hnd : ¬ DirectBig (.list e el) := by
          rintro (h | ⟨_, _, h, h'⟩)
          · exact hnb h
          · cases h; exact hnel h'
        cases el with
        | struct e' n p =>
          refine ptr_case p (.pair name (n ++ S "[]")) hnd ?_
          intro e''
          constructor
          · intro h
            cases h with
            | scalar _ h => exact absurd h hnb
            | list _ _ _ h => exact absurd h hnel
            | structs _ _ _ _ t _ _ ht hB => exact ⟨rfl, t, ht, hB⟩
          · rintro ⟨rfl, t, ht, hB⟩; exact .structs e' e n p t hnb hnel ht hB
        | _ => exact none_case (fun e h => by cases h <;> first | exact hnb ‹_› | exact hnel ‹_›) hnd

/-- What is known about a group after looking at it. -/
inductive Group (ts : List TypeDecl) (A : Prop) : List (Str × VarType) → List BigEntry → Prop
  | nil : Group ts A [] []
  | cons (name : Str) (v : VarType) (o : Option BigEntry) (r : List (Str × VarType)) (es : List BigEntry) :
      Entry ts A name v o → Group ts A r es → Group ts A ((name, v) :: r) (o.toList ++ es)

theorem bigEntries_spec (A : Prop) (hA : A → ¬ Cyclic (SubStruct ts)) (hdist : OneTypePerName ts)
    (vs : List (Str × VarType)) (st : BigMemo) (hm : MemoOK ts A st.memo) (hi : Idle st) :
    ∃ es st', bigEntries ts vs st = some (es, st') ∧ MemoOK ts A st'.memo ∧ Idle st' ∧ Group ts A vs es := by
  induction vs generalizing st with
  | nil => exact ⟨[], st, rfl, hm, hi, .nil⟩
  | cons x r ih =>
    obtain ⟨name, v⟩ := x
    obtain ⟨o, st1, h1, hm1, hi1, he⟩ := bigEntry_spec A hA hdist name v st hm hi
    obtain ⟨es, st2, h2, hm2, hi2, hg⟩ := ih st1 hm1 hi1
    refine ⟨o.toList ++ es, st2, ?_, hm2, hi2, .cons name v o r es he hg⟩
    simp only [bigEntries, h1, h2]

theorem Group.mem {A : Prop} {vs : List (Str × VarType)} {es : List BigEntry} (h : Group ts A vs es)
    {e : BigEntry} (he : e ∈ es) : ∃ name v, (name, v) ∈ vs ∧ Reported ts name v e := by
  induction h with
  | nil => cases he
  | cons name v o r es hn hg ih =>
    rcases List.mem_append.1 he with he | he
    · exact ⟨name, v, by simp, hn.hit e (by simpa using he)⟩
    · obtain ⟨n, v, h1, h2⟩ := ih he; exact ⟨n, v, by simp [h1], h2⟩

theorem Group.direct {A : Prop} {vs : List (Str × VarType)} {es : List BigEntry} (h : Group ts A vs es)
    {name : Str} {v : VarType} (hv : (name, v) ∈ vs) (hd : DirectBig v) : ∃ e ∈ es, Reported ts name v e := by
  induction h with
  | nil => cases hv
  | cons name' v' o r es hn hg ih =>
    rcases List.mem_cons.1 hv with heq | hv
    · cases heq
      cases o with
      | none => exact absurd hd (hn.direct rfl)
      | some e => exact ⟨e, by simp, hn.hit e rfl⟩
    · obtain ⟨e, h1, h2⟩ := ih hv; exact ⟨e, by simp [h1], h2⟩

theorem Group.entries {A : Prop} (hA : A) {vs : List (Str × VarType)} {es : List BigEntry} (h : Group ts A vs es) :
    Entries ts vs es := by
  induction h with
  | nil => exact .nil
  | cons name v o r es hn hg ih =>
    cases o with
    | none => exact .miss name v r es (hn.miss hA rfl) ih
    | some e => exact .hit name v r e es (hn.hit e rfl) ih

theorem reported_unique {name : Str} {v : VarType} {e e' : BigEntry} (h : Reported ts name v e)
    (h' : Reported ts name v e') : e = e' := by
  cases h <;> cases h' <;> first | rfl | (exfalso; contradiction)

theorem entries_unique {vs : List (Str × VarType)} {es es' : List BigEntry} (h : Entries ts vs es)
    (h' : Entries ts vs es') : es = es' := by
  induction h generalizing es' with
  | nil => cases h'; rfl
  | hit name v r e es hr _ ih =>
    cases h' with
    | hit _ _ _ e' es' hr' h' => rw [reported_unique hr hr', ih h']
    | miss _ _ _ _ hr' _ => exact absurd hr (hr' e)
  | miss name v r es hr _ ih =>
    cases h' with
    | hit _ _ _ e' es' hr' h' => exact absurd hr' (hr e')
    | miss _ _ _ _ _ h' => exact ih h'

theorem bigLoop_spec (A : Prop) (hA : A → ¬ Cyclic (SubStruct ts)) (hdist : OneTypePerName ts)
    (src : List (Str × List (Str × VarType))) (st : BigMemo) (out : List (Str × List BigEntry))
    (hm : MemoOK ts A st.memo) (hi : Idle st) :
    ∃ out', bigLoop ts src st out = some out' ∧ ∀ k,
      (∃ vs es, (k, vs) ∈ src ∧ Group ts A vs es ∧ es ≠ [] ∧ out'.lookup k = some es) ∨
      (out'.lookup k = out.lookup k ∧ ∀ vs, (k, vs) ∈ src → Group ts A vs []) := by
  induction src generalizing st out with
  | nil => exact ⟨out, rfl, fun k => .inr ⟨rfl, by simp⟩⟩
  | cons x r ih =>
    obtain ⟨k, vs⟩ := x
    obtain ⟨es, st', h1, hm', hi', hg⟩ := bigEntries_spec A hA hdist vs st hm hi
    unfold bigLoop
    rw [h1]
    cases es with
    | nil =>
      dsimp only
      obtain ⟨out', h2, h3⟩ := ih st' out hm' hi'
      refine ⟨out', h2, fun k' => ?_⟩
      rcases h3 k' with ⟨vs', es', h4, h5, h6, h7⟩ | ⟨h4, h5⟩
      · exact .inl ⟨vs', es', by simp [h4], h5, h6, h7⟩
      · refine .inr ⟨h4, fun vs' h => ?_⟩
        rcases List.mem_cons.1 h with h | h
        · cases h; exact hg
        · exact h5 vs' h
    | cons e es =>
      dsimp only
      obtain ⟨out', h2, h3⟩ := ih st' (mapSet k (e :: es) out) hm' hi'
      refine ⟨out', h2, fun k' => ?_⟩
      rcases h3 k' with ⟨vs', es', h4, h5, h6, h7⟩ | ⟨h4, h5⟩
      · exact .inl ⟨vs', es', by simp [h4], h5, h6, h7⟩
      · rw [Verif.Compile.mapSet_lookup] at h4
        by_cases hk : k' = k
        · subst hk
          rw [if_pos rfl] at h4
          exact .inl ⟨vs, e :: es, by simp, hg, by simp, h4⟩
        · rw [if_neg hk] at h4
          refine .inr ⟨h4, fun vs' h => ?_⟩
          rcases List.mem_cons.1 h with h | h
          · cases h; exact absurd rfl hk
          · exact h5 vs' h

theorem bigSources_iff {s : Schema} {compat : Bool} {k : Str} {vs : List (Str × VarType)} :
    (k, vs) ∈ bigSources s compat ↔ Source s compat k vs := by
  unfold bigSources
  simp only [List.mem_append, List.mem_map, List.mem_filter, decide_eq_true_eq, List.mem_flatMap,
    Bool.not_eq_true', List.mem_cons, List.not_mem_nil, or_false, Prod.mk.injEq]
  constructor
  · rintro (⟨t, ⟨ht, hk⟩, rfl, rfl⟩ | ⟨v, hv, m, ⟨hm, hs⟩, ⟨rfl, rfl⟩ | ⟨rfl, rfl⟩⟩)
    · exact .struct t ht hk
    · exact .request v m hv hm hs
    · exact .response v m hv hm hs
  · intro h
    cases h with
    | struct t ht hk => exact .inl ⟨t, ⟨ht, hk⟩, rfl, rfl⟩
    | request v m hv hm hs => exact .inr ⟨v, hv, m, ⟨hm, hs⟩, .inl ⟨rfl, rfl⟩⟩
    | response v m hv hm hs => exact .inr ⟨v, hv, m, ⟨hm, hs⟩, .inr ⟨rfl, rfl⟩⟩

theorem bigFields_spec (A : Prop) (s : Schema) (compat : Bool) (hA : A → ¬ Cyclic (SubStruct s.types))
    (hdist : OneTypePerName s.types) :
    ∃ out, bigFields s compat = some out ∧ ∀ k,
      (∃ vs es, Source s compat k vs ∧ Group s.types A vs es ∧ es ≠ [] ∧ out.lookup k = some es) ∨
      (out.lookup k = none ∧ ∀ vs, Source s compat k vs → Group s.types A vs []) := by
  obtain ⟨out, h1, h2⟩ := bigLoop_spec A hA hdist (bigSources s compat) {} [] (memoOK_nil A) (by intro w hw; cases hw)
  refine ⟨out, h1, fun k => ?_⟩
  rcases h2 k with ⟨vs, es, h3, h4, h5, h6⟩ | ⟨h3, h4⟩
  · exact .inl ⟨vs, es, bigSources_iff.1 h3, h4, h5, h6⟩
  · exact .inr ⟨by simpa using h3, fun vs hvs => h4 vs (bigSources_iff.2 hvs)⟩

end Verif.Schema

namespace Verif.Props
open Verif.Schema Verif.Spec

/-! ## C40: does the schema use big integers? -/

/-- C40.  With distinct type names, the answer is yes exactly when a field of some declared struct, or an
argument of some method, is `bigint` or a list of `bigint`.  (Missing for the full property: the other places
a `bigint` can occur in, see `C40_map_missed` and `C40_nested_list_missed`, and the types that are merely
called like it, `C40_false_alarm`.) -/
theorem C40_exact_partial (s : Schema) (hdist : OneTypePerName s.types) :
    ∃ b, usesBigInts s = some b ∧
      (b = true ↔ (∃ t ∈ s.types, HasDirect t) ∨ ∃ v ∈ s.services, ∃ a, ArgOf v a ∧ DirectBig a) := by
  have hrec := structHas_spec (ts := s.types) False False.elim hdist
  obtain ⟨b, st, h1, h2⟩ := anyHas_spec (ts := s.types) (A := False) (N := s.types.length + 1)
    (I := fun vis => ∀ w, w ∉ vis) (B := HasBig s.types) (D := HasDirect) (f := structHas s.types)
    (fun a b h hi w hw => hi w ((h w).1 hw))
    (s.types.filter fun t => t.kind = S "struct")
    (by
      intro t ht st hm hf hi
      obtain ⟨b, st', h1, h2⟩ := hrec t (List.mem_filter.1 ht).1 st hm hf (False.elim)
      exact ⟨b, st', h1, h2.vis, h2.memo, h2.hit, fun hb hd => h2.missDirect hb ⟨hi _, hd⟩, h2.miss⟩)
    {} (memoOK_nil _) (fresh_le _) (by intro w hw; cases hw)
  unfold usesBigInts
  rw [h1]
  cases b with
  | true =>
    refine ⟨true, rfl, fun _ => ?_, fun _ => rfl⟩
    obtain ⟨t, ht, hB⟩ := h2.hit rfl
    exact .inl (hasBig_direct (List.mem_filter.1 ht).1 hB)
  | false =>
    have hnone : ¬ ∃ t ∈ s.types, HasDirect t := by
      rintro ⟨t, ht, hd⟩
      exact h2.missDirect rfl ⟨t, List.mem_filter.2 ⟨ht, by simpa using hd.1⟩, hd⟩
    obtain ⟨b, st', h3, h4⟩ := anyHas_spec (ts := s.types) (A := False) (N := s.types.length + 1)
      (I := fun _ => True) (B := VarBig s.types) (D := DirectBig) (f := varHas s.types (structHas s.types))
      (fun a b h hi => trivial)
      (s.services.flatMap serviceVars)
      (fun v _ st hm hf _ => varHas_spec hrec v st hm hf False.elim)
      st h2.memo (fresh_le _) trivial
    dsimp only
    rw [h3]
    refine ⟨b, rfl, ?_, ?_⟩
    · intro hb
      obtain ⟨a, ha, hB⟩ := h4.hit hb
      obtain ⟨v, hv, hva⟩ := List.mem_flatMap.1 ha
      refine .inr ⟨v, hv, a, serviceVars_iff.1 hva, ?_⟩
      rcases hB with hB | ⟨u, hu, hB⟩
      · exact hB
      · exact absurd (hasBig_direct (isStruct_mem hu) hB) hnone
    · rintro (h | ⟨v, hv, a, ha, hd⟩)
      · exact absurd h hnone
      · cases b with
        | true => rfl
        | false =>
          exact absurd ⟨a, List.mem_flatMap.2 ⟨v, hv, serviceVars_iff.2 ha⟩, hd⟩ (h4.missDirect rfl)


/-- C40: the values of a map are not looked at. -/
theorem C40_map_missed : ∃ s : Schema,
    (∃ t ∈ s.types, t.kind = S "struct" ∧ ∃ f ∈ t.fields, ∃ v, f.type = some v ∧ Part v (.leaf (S "bigint") .bigint)) ∧
    usesBigInts s = some false :=
  ⟨{ types := [{ ptr := ⟨[], 1⟩, kind := S "struct", name := S "Account", fields := [{ name := S "balances", type := some (.map (S "map<string,bigint>") (.leaf (S "string") .string) (.leaf (S "bigint") .bigint)) }] }] },
    ⟨_, List.mem_singleton.2 rfl, rfl, _, List.mem_singleton.2 rfl, _, rfl, .value _ _ _ _ (.self _)⟩,
    by decide +kernel⟩

/-- C40: nor are lists of lists. -/
theorem C40_nested_list_missed : ∃ s : Schema,
    (∃ t ∈ s.types, t.kind = S "struct" ∧ ∃ f ∈ t.fields, ∃ v, f.type = some v ∧ Part v (.leaf (S "bigint") .bigint)) ∧
    usesBigInts s = some false :=
  ⟨{ types := [{ ptr := ⟨[], 1⟩, kind := S "struct", name := S "Matrix", fields := [{ name := S "rows", type := some (.list (S "[][]bigint") (.list (S "[]bigint") (.leaf (S "bigint") .bigint))) }] }] },
    ⟨_, List.mem_singleton.2 rfl, rfl, _, List.mem_singleton.2 rfl, _, rfl, .elem _ _ _ (.elem _ _ _ (.self _))⟩,
    by decide +kernel⟩

/-- C40: a struct that is merely called `BigInt` counts as one. -/
theorem C40_false_alarm : ∃ s : Schema,
    (∀ t ∈ s.types, ∀ f ∈ t.fields, ∀ v e, f.type = some v → ¬ Part v (.leaf e .bigint)) ∧ s.services = [] ∧
    usesBigInts s = some true :=
  ⟨{ types := [{ ptr := ⟨[], 1⟩, kind := S "struct", name := S "BigInt", fields := [] },
      { ptr := ⟨[], 2⟩, kind := S "struct", name := S "Box",
        fields := [{ name := S "content", type := some (.struct (S "BigInt") (S "BigInt") ⟨[], 1⟩) }] }] },
    (by
      intro t ht f hf v e hv hp
      simp only [List.mem_cons, List.not_mem_nil, or_false] at ht
      rcases ht with rfl | rfl
      · simp at hf
      · simp only [List.mem_cons, List.not_mem_nil, or_false] at hf
        subst hf
        cases hv
        cases hp),
    rfl, by decide +kernel⟩

/-- A schema with a struct `Account` holding a `bigint`, listed by a struct `Bank`, and a method returning a
`bigint`. -/
def bankSchema : Schema :=
  { webrpcVersion := S "v1", schemaName := S "bank", schemaVersion := S "v1.0.0", basePath := S "/rpc/"
    types := [
      { ptr := ⟨[], 1⟩, kind := S "struct", name := S "Account",
        fields := [{ name := S "id", type := some (.leaf (S "string") .string) },
                   { name := S "balance", type := some (.leaf (S "bigint") .bigint) }] },
      { ptr := ⟨[], 2⟩, kind := S "struct", name := S "Bank",
        fields := [{ name := S "accounts", type := some (.list (S "[]Account") (.struct (S "Account") (S "Account") ⟨[], 1⟩)) }] }],
    services := [{ ptr := ⟨[], 3⟩, name := S "Ledger", methods := [
      { name := S "total", inputs := [{ name := S "id", type := some (.leaf (S "string") .string) }],
        outputs := [{ name := S "sums", type := some (.list (S "[]bigint") (.leaf (S "bigint") .bigint)) }] }] }] }

example : OneTypePerName bankSchema.types ∧ usesBigInts bankSchema = some true ∧
    bigFields bankSchema false = some [(S "Account", [.name (S "balance")]),
      (S "Bank", [.pair (S "accounts") (S "Account[]")]), (S "totalResponse", [.name (S "sums[]")])] := by
  refine ⟨?_, by decide +kernel, by decide +kernel⟩
  intro t ht u hu h
  simp only [bankSchema, List.mem_cons, List.not_mem_nil, or_false] at ht hu
  rcases ht with rfl | rfl <;> rcases hu with rfl | rfl
  · rfl
  · exact absurd h (by decide)
  · exact absurd h (by decide)
  · rfl

/-! ## C41: which fields hold big integers? -/

/-- C41.  Whatever is reported is there: the key names a group of fields or arguments, the list is not empty,
and each entry describes a member of that group that is `bigint`, a list of it, or a struct (list) that
contains one. -/
theorem C41_sound (s : Schema) (compat : Bool) (hdist : OneTypePerName s.types) :
    ∃ out, bigFields s compat = some out ∧ ∀ k es, out.lookup k = some es →
      es ≠ [] ∧ ∃ vs, Source s compat k vs ∧ ∀ e ∈ es, ∃ name v, (name, v) ∈ vs ∧ Reported s.types name v e := by
  obtain ⟨out, h1, h2⟩ := bigFields_spec False s compat False.elim hdist
  refine ⟨out, h1, fun k es hk => ?_⟩
  rcases h2 k with ⟨vs, es', h3, h4, h5, h6⟩ | ⟨h3, _⟩
  · rw [h6] at hk; cases hk
    exact ⟨h5, vs, h3, fun e he => h4.mem he⟩
  · rw [h3] at hk; cases hk

/-- C41.  A member that is itself `bigint` or a list of it is always reported. -/
theorem C41_direct (s : Schema) (compat : Bool) (hdist : OneTypePerName s.types) (hun : Unambiguous s compat) :
    ∃ out, bigFields s compat = some out ∧ ∀ k vs, Source s compat k vs → ∀ name v, (name, v) ∈ vs →
      DirectBig v → ∃ es, out.lookup k = some es ∧ ∃ e ∈ es, Reported s.types name v e := by
  obtain ⟨out, h1, h2⟩ := bigFields_spec False s compat False.elim hdist
  refine ⟨out, h1, fun k vs hs name v hv hd => ?_⟩
  rcases h2 k with ⟨vs', es', h3, h4, h5, h6⟩ | ⟨_, h4⟩
  · rw [hun k vs vs' hs h3] at hv
    exact ⟨es', h6, h4.direct hv hd⟩
  · obtain ⟨e, he, _⟩ := (h4 vs hs).direct hv hd
    cases he

/-- C41.  When no struct contains itself (directly or through others), the report is complete: a key is
present exactly when its group has entries, and it maps to these entries in order.  (Missing for the full
property: structs that contain themselves, see `C41_recursive_missed`, and two groups with one name, see
`C41_overwritten`.) -/
theorem C41_exact_partial (s : Schema) (compat : Bool) (hdist : OneTypePerName s.types) (hun : Unambiguous s compat)
    (hac : ¬ Cyclic (SubStruct s.types)) :
    ∃ out, bigFields s compat = some out ∧ ∀ k es, out.lookup k = some es ↔
      es ≠ [] ∧ ∃ vs, Source s compat k vs ∧ Entries s.types vs es := by
  obtain ⟨out, h1, h2⟩ := bigFields_spec True s compat (fun _ => hac) hdist
  refine ⟨out, h1, fun k es => ?_⟩
  rcases h2 k with ⟨vs, es', h3, h4, h5, h6⟩ | ⟨h3, h4⟩
  · rw [h6]
    constructor
    · intro h; cases h; exact ⟨h5, vs, h3, h4.entries trivial⟩
    · rintro ⟨_, vs', h7, h8⟩
      rw [hun k vs vs' h3 h7] at h4
      rw [entries_unique (h4.entries trivial) h8]
  · rw [h3]
    refine ⟨by simp, ?_⟩
    rintro ⟨h5, vs, h6, h7⟩
    exact absurd (entries_unique h7 ((h4 vs h6).entries trivial)) h5

/-- The hypotheses of `C41_exact_partial` are met. -/
theorem bank_acyclic : ¬ Cyclic (SubStruct bankSchema.types) ∧ Unambiguous bankSchema false := by
  have hedge : ∀ {a b : TypeDecl}, SubStruct bankSchema.types a b → a.name ≠ S "Account" ∨ a ∉ bankSchema.types := by
    rintro a b ⟨_, f, hf, v, hv, _, _, _, h, _⟩
    by_cases ha : a ∈ bankSchema.types
    · left
      simp only [bankSchema, List.mem_cons, List.not_mem_nil, or_false] at ha
      rcases ha with rfl | rfl
      · simp only [List.mem_cons, List.not_mem_nil, or_false] at hf
        rcases hf with rfl | rfl <;> cases hv <;> rcases h with h | ⟨_, h⟩ <;> cases h
      · decide
    · exact .inr ha
  have htgt : ∀ {a b : TypeDecl}, SubStruct bankSchema.types a b → b ∈ bankSchema.types ∧ (a ∈ bankSchema.types → b.name = S "Account") := by
    rintro a b ⟨_, f, hf, v, hv, hs⟩
    refine ⟨isStruct_mem hs, fun ha => ?_⟩
    obtain ⟨e, n, p, h, before, after, h1, h2, h3⟩ := hs
    have hp : p = ⟨[], 1⟩ := by
      simp only [bankSchema, List.mem_cons, List.not_mem_nil, or_false] at ha
      rcases ha with rfl | rfl
      · simp only [List.mem_cons, List.not_mem_nil, or_false] at hf
        rcases hf with rfl | rfl <;> cases hv <;> rcases h with h | ⟨_, h⟩ <;> cases h
      · simp only [List.mem_cons, List.not_mem_nil, or_false] at hf
        subst hf; cases hv
        rcases h with h | ⟨_, h⟩ <;> cases h
        rfl
    subst hp
    have hb : b ∈ bankSchema.types := by rw [h1]; simp
    simp only [bankSchema, List.mem_cons, List.not_mem_nil, or_false] at hb
    rcases hb with rfl | rfl
    · rfl
    · exact absurd h2 (by decide)
  constructor
  · rintro ⟨x, hx⟩
    have h1 : ∀ {a b : TypeDecl}, Path (SubStruct bankSchema.types) a b → b ∈ bankSchema.types ∧
        (a ∈ bankSchema.types → b.name = S "Account") := by
      intro a b h
      induction h with
      | edge h => exact htgt h
      | step h _ ih => exact ⟨ih.1, fun _ => ih.2 (htgt h).1⟩
    have hm := (h1 hx).1
    have hn := (h1 hx).2 hm
    have : x.name ≠ S "Account" ∨ x ∉ bankSchema.types := by
      cases hx with
      | edge h => exact hedge h
      | step h _ => exact hedge h
    rcases this with h | h
    · exact h hn
    · exact h hm
  · have key : ∀ k vs, Source bankSchema false k vs → (k, vs) ∈ bigSources bankSchema false :=
      fun k vs h => bigSources_iff.2 h
    intro k vs vs' h h'
    have h := key k vs h
    have h' := key k vs' h'
    have hb : bigSources bankSchema false = [
        (S "Account", [(S "id", .leaf (S "string") .string), (S "balance", .leaf (S "bigint") .bigint)]),
        (S "Bank", [(S "accounts", .list (S "[]Account") (.struct (S "Account") (S "Account") ⟨[], 1⟩))]),
        (S "totalRequest", [(S "id", .leaf (S "string") .string)]),
        (S "totalResponse", [(S "sums", .list (S "[]bigint") (.leaf (S "bigint") .bigint))])] := rfl
    rw [hb] at h h'
    simp only [List.mem_cons, List.not_mem_nil, or_false, Prod.mk.injEq] at h h'
    rcases h with ⟨rfl, rfl⟩ | ⟨rfl, rfl⟩ | ⟨rfl, rfl⟩ | ⟨rfl, rfl⟩ <;>
      rcases h' with ⟨h, rfl⟩ | ⟨h, rfl⟩ | ⟨h, rfl⟩ | ⟨h, rfl⟩ <;>
      first | rfl | exact absurd h (by decide)

/-- C41: with structs that contain each other, a field can be missed: here `A.b` is a struct that contains a
`bigint` (through `A`), but only `A.n` is reported. -/
theorem C41_recursive_missed : ∃ (s : Schema) (t : TypeDecl) (f : Field) (v : VarType),
    OneTypePerName s.types ∧ t ∈ s.types ∧ t.kind = S "struct" ∧ f ∈ t.fields ∧ f.type = some v ∧
    Reported s.types f.name v (.pair (S "b") (S "B")) ∧
    ∃ out, bigFields s false = some out ∧ out.lookup t.name = some [.name (S "n")] := by
  let A : TypeDecl := { ptr := ⟨[], 1⟩, kind := S "struct", name := S "A", fields := [
    { name := S "b", type := some (.struct (S "B") (S "B") ⟨[], 2⟩) },
    { name := S "n", type := some (.leaf (S "bigint") .bigint) }] }
  let B : TypeDecl := { ptr := ⟨[], 2⟩, kind := S "struct", name := S "B", fields := [
    { name := S "a", type := some (.struct (S "A") (S "A") ⟨[], 1⟩) }] }
  let X : TypeDecl := { ptr := ⟨[], 3⟩, kind := S "struct", name := S "X", fields := [
    { name := S "a", type := some (.struct (S "A") (S "A") ⟨[], 1⟩) }] }
  refine ⟨{ types := [X, A, B] }, A, { name := S "b", type := some (.struct (S "B") (S "B") ⟨[], 2⟩) }, _,
    ?_, by simp, rfl, by simp [A], rfl, ?_, ?_⟩
  · intro t ht u hu h
    simp only [List.mem_cons, List.not_mem_nil, or_false] at ht hu
    rcases ht with rfl | rfl | rfl <;> rcases hu with rfl | rfl | rfl <;>
      first | rfl | exact absurd h (by decide)
  · have dB : Declares [X, A, B] ⟨[], 2⟩ B := ⟨[X, A], [], rfl, rfl, by simp [X, A]⟩
    have dA : Declares [X, A, B] ⟨[], 1⟩ A := ⟨[X], [B], rfl, rfl, by simp [X]⟩
    refine .struct (S "B") (S "B") ⟨[], 2⟩ B ?_ dB ?_
    · rintro ⟨h, _⟩; exact absurd h (by decide)
    · refine .nested (u := A) ⟨rfl, { name := S "a", type := some (.struct (S "A") (S "A") ⟨[], 1⟩) }, by simp [B], _, rfl,
        S "A", S "A", ⟨[], 1⟩, .inl rfl, dA⟩ ?_
      refine .direct { name := S "n", type := some (.leaf (S "bigint") .bigint) } _ rfl (by simp [A]) rfl (.inl ?_)
      exact (isBig_iff _).1 (by decide +kernel)
  · exact ⟨[(S "X", [.pair (S "a") (S "A")]), (S "A", [.name (S "n")]), (S "B", [.pair (S "a") (S "A")])],
      by decide +kernel, by decide +kernel⟩

/-- C41: the implicit request type of a method hides a declared struct of the same name. -/
theorem C41_overwritten : ∃ (s : Schema) (t : TypeDecl),
    OneTypePerName s.types ∧ ¬ Cyclic (SubStruct s.types) ∧ t ∈ s.types ∧ t.kind = S "struct" ∧
    (∃ f ∈ t.fields, f.name = S "amount" ∧ ∃ v, f.type = some v ∧ DirectBig v) ∧
    ∃ out, bigFields s false = some out ∧ out.lookup t.name = some [.name (S "other")] := by
  let P : TypeDecl := { ptr := ⟨[], 1⟩, kind := S "struct", name := S "PayRequest", fields := [
    { name := S "amount", type := some (.leaf (S "bigint") .bigint) }] }
  let M : Method := { name := S "Pay", inputs := [{ name := S "other", type := some (.leaf (S "bigint") .bigint) }] }
  refine ⟨{ types := [P], services := [{ ptr := ⟨[], 2⟩, name := S "Svc", methods := [M] }] }, P, ?_, ?_,
    List.mem_singleton.2 rfl, rfl, ⟨_, List.mem_singleton.2 rfl, rfl, _, rfl, .inl ?_⟩, ?_⟩
  · intro t ht u hu _
    rw [List.mem_singleton.1 ht, List.mem_singleton.1 hu]
  · rintro ⟨x, hx⟩
    have htgt : ∀ {a b : TypeDecl}, Path (SubStruct [P]) a b → b = P := by
      intro a b h
      induction h with
      | edge h => obtain ⟨_, _, _, _, _, h⟩ := h; exact List.mem_singleton.1 (isStruct_mem h)
      | step _ _ ih => exact ih
    have hsrc : ∀ {a b : TypeDecl}, Path (SubStruct [P]) a b → a ≠ P := by
      rintro a b h rfl
      have : ∀ c, ¬ SubStruct [P] P c := by
        rintro c ⟨_, f, hf, v, hv, _, _, _, h, _⟩
        rw [List.mem_singleton.1 hf] at hv
        cases hv
        rcases h with h | ⟨_, h⟩ <;> cases h
      cases h with
      | edge h => exact this _ h
      | step h _ => exact this _ h
    exact hsrc hx (htgt hx)
  · exact (isBig_iff _).1 (by decide +kernel)
  · exact ⟨[(S "PayRequest", [.name (S "other")])], by decide +kernel, by decide +kernel⟩

end Verif.Props
