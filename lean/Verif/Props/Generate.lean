import Verif.Spec.Generate
import Verif.Props.Validation
import Verif.Compile.Declared
/-!
# Properties of the generator's front end (C42, C45, C49, C50)
-/

namespace Verif.Props
open Verif.Schema Verif.Gen Verif.Spec
open Verif.Compile (mapSet mapSet_lookup)

/-! ## C42: the version header -/

theorem not_mem_app {c : Char} {a b : Str} (h1 : c ∉ a) (h2 : c ∉ b) : c ∉ a ++ b := by
  intro h; rcases List.mem_append.1 h with h | h
  · exact h1 h
  · exact h2 h

/-- The middle part of a header. -/
theorem parse_parts {w n v m x : Str} (hn : '@' ∉ n) (hm : '@' ∉ m)
    (h : ∀ p ∈ [w, n, v, m, x], ';' ∉ p) :
    parseHeader (S "webrpc@" ++ w ++ S ";" ++ (n ++ S "@" ++ v) ++ S ";" ++ (m ++ S "@" ++ x)) =
      some ⟨w, n, v, m, x⟩ := by
  have hs : split (S ";") (S "webrpc@" ++ w ++ S ";" ++ (n ++ S "@" ++ v) ++ S ";" ++ (m ++ S "@" ++ x)) =
      [S "webrpc@" ++ w, n ++ S "@" ++ v, m ++ S "@" ++ x] := by
    have := @split_join ';' [S "webrpc@" ++ w, n ++ S "@" ++ v, m ++ S "@" ++ x] (by simp) (by
      have h1 : ';' ∉ S "webrpc@" := by decide
      have h2 : ';' ∉ S "@" := by decide
      intro p hp
      simp only [List.mem_cons, List.not_mem_nil, or_false] at hp h
      rcases hp with rfl | rfl | rfl
      · exact not_mem_app h1 (h _ (by simp))
      · exact not_mem_app (not_mem_app (h _ (by simp)) h2) (h _ (by simp))
      · exact not_mem_app (not_mem_app (h _ (by simp)) h2) (h _ (by simp)))
    rw [← this]
    congr 1
    simp only [join, List.append_assoc]
    rfl
  unfold parseHeader
  rw [hs]
  dsimp only
  have h1 : cut (S "@") (S "webrpc@" ++ w) = some (S "webrpc", w) := by
    rw [show S "@" = ['@'] from rfl, cut_char]; exact ⟨by decide, rfl⟩
  have h2 : ∀ a b : Str, '@' ∉ a → cut (S "@") (a ++ S "@" ++ b) = some (a, b) := by
    intro a b ha
    rw [show S "@" = ['@'] from rfl, cut_char]; exact ⟨ha, by simp⟩
  rw [h1, h2 _ _ hn, h2 _ _ hm]

/-- C42. The header the generator writes is read back by generated code to the same webrpc version, generator
name and version, schema name and version, whenever none of them contains `;` and neither name contains `@`.
A missing generator version reads as `unknown`, a missing schema version as `v0.0.0-` and the schema's hash. -/
theorem C42_round_trip (t : HeaderVars) (hn : '@' ∉ t.codeGenName) (hm : '@' ∉ t.schemaName)
    (h : ∀ p ∈ [t.webrpcGenVersion, t.codeGenName, t.codeGenVersion, t.schemaName, t.schemaVersion, t.schemaHash],
      ';' ∉ p) :
    parseHeader (header t) = some
      { webrpcGenVersion := t.webrpcGenVersion
        codeGenName := t.codeGenName
        codeGenVersion := if t.codeGenVersion = [] then "unknown".toList else t.codeGenVersion
        schemaName := t.schemaName
        schemaVersion := if t.schemaVersion = [] then "v0.0.0-".toList ++ t.schemaHash else t.schemaVersion } := by
  simp only [List.mem_cons, List.not_mem_nil, or_false, forall_eq_or_imp, forall_eq] at h
  obtain ⟨h1, h2, h3, h4, h5, h6⟩ := h
  have e : header t = S "webrpc@" ++ t.webrpcGenVersion ++ S ";" ++
      (t.codeGenName ++ S "@" ++ (if t.codeGenVersion = [] then "unknown".toList else t.codeGenVersion)) ++ S ";" ++
      (t.schemaName ++ S "@" ++ (if t.schemaVersion = [] then "v0.0.0-".toList ++ t.schemaHash else t.schemaVersion)) := by
    unfold header
    dsimp only
    have : ∀ x : Str, S "@v0.0.0-" ++ x = S "@" ++ ("v0.0.0-".toList ++ x) := fun x => rfl
    split <;> split <;> simp only [List.append_assoc, this] <;> rfl
  rw [e]
  refine parse_parts hn hm ?_
  intro p hp
  simp only [List.mem_cons, List.not_mem_nil, or_false] at hp
  rcases hp with rfl | rfl | rfl | rfl | rfl
  · exact h1
  · exact h2
  · split
    · decide
    · exact h3
  · exact h4
  · split
    · exact not_mem_app (by decide) h6
    · exact h5

/-- C42. The generator name computed from a template version never contains `@`; for an embedded generator it is
`gen-` and the generator's name, with the version go.mod asks for. -/
theorem C42_code_gen (tmplVersion : Str) : '@' ∉ (codeGenOf tmplVersion).1 := by
  unfold codeGenOf
  dsimp only
  rw [show S "@" = ['@'] from rfl]
  split
  · rename_i h; exact cut_char_none.1 h
  · rename_i x h; exact ((cut_char (a := x.1) (b := x.2)).1 h).1

@[inherit_doc C42_code_gen]
theorem C42_embedded (name version : Str) (h1 : '/' ∉ name) (h2 : '@' ∉ name) (h3 : '/' ∉ version) :
    codeGenOf (S "github.com/webrpc/gen-" ++ name ++ S "@" ++ version) = (S "gen-" ++ name, version) := by
  unfold codeGenOf
  have hs : split (S "/") (S "github.com/webrpc/gen-" ++ name ++ S "@" ++ version) =
      [S "github.com", S "webrpc", S "gen-" ++ name ++ S "@" ++ version] := by
    have := @split_join '/' [S "github.com", S "webrpc", S "gen-" ++ name ++ S "@" ++ version] (by simp) (by
      intro p hp
      simp only [List.mem_cons, List.not_mem_nil, or_false] at hp
      rcases hp with rfl | rfl | rfl
      · decide
      · decide
      · exact not_mem_app (not_mem_app (not_mem_app (by decide) h1) (by decide)) h3)
    rw [← this]
    rfl
  rw [hs]
  dsimp only [List.getLastD]
  have : cut (S "@") ([S "github.com", S "webrpc", S "gen-" ++ name ++ S "@" ++ version].getLast (by simp)) =
      some (S "gen-" ++ name, version) := by
    rw [show S "@" = ['@'] from rfl, cut_char]
    exact ⟨not_mem_app (by decide) h2, by simp⟩
  simp only [List.getLast_cons_cons, List.getLast_singleton] at this ⊢
  rw [this]

/-- A header as the generator of this commit writes it. -/
example : parseHeader (header ⟨S "v0.31.2", S "gen-golang", S "v0.36.0", S "my-schema", [], S "0abc"⟩) =
    some ⟨S "v0.31.2", S "gen-golang", S "v0.36.0", S "my-schema", S "v0.0.0-0abc"⟩ := by decide +kernel

/-- C42. The conditions are needed: an `@` in the schema's name moves the rest of the name into the version, a `;`
in it hides the version, and the header constant in the generated test server of this commit is not
readable at all. -/
theorem C42_conditions :
    parseHeader (header ⟨S "v1", S "gen-golang", S "v1", S "a@b", S "v2", []⟩) =
      some ⟨S "v1", S "gen-golang", S "v1", S "a", S "b@v2"⟩ ∧
    parseHeader (header ⟨S "v1", S "gen-golang", S "v1", S "a;b", S "v2", []⟩) = none ∧
    parseHeader (S "webrpc;gen-golang;Test@v1.0.0") = none := by decide +kernel

/-! ## C45: built-in errors -/

/-- C45. The codes and the names of the built-in errors are pairwise distinct. -/
theorem C45_builtin_distinct :
    (webrpcErrors.map (·.code)).Pairwise (· ≠ ·) ∧ (webrpcErrors.map (·.name)).Pairwise (· ≠ ·) := by
  decide +kernel

theorem lower_webrpc [GoUnicode] (r : Str) : S "webrpc" <+: toLower (S "Webrpc" ++ r) := by
  refine ⟨toLower r, ?_⟩
  unfold toLower
  rw [List.map_append]
  congr 1

theorem builtin_names : ∀ w ∈ webrpcErrors, w.name = S "Webrpc" ++ w.name.drop 6 ∧ w.code ≤ 0 := by decide +kernel

/-- C45. No error of a schema that validates has the code of a built-in error, or its name (ignoring case). -/
theorem C45_no_clash [GoUnicode] (s s' : Schema) (h : validate s = .ok s') :
    ∀ e ∈ s'.errors, ∀ w ∈ webrpcErrors, e.code ≠ w.code ∧ ¬ SameName e.name w.name := by
  obtain ⟨-, -, h3, -⟩ := C19_errors s s' h
  intro e he w hw
  obtain ⟨q1, -, -, q4, -⟩ := h3 e he
  obtain ⟨b1, b2⟩ := builtin_names w hw
  refine ⟨by omega, fun hs => q4 ?_⟩
  unfold SameName at hs
  rw [hs, b1]
  exact lower_webrpc _

/-- C45. All errors a client can meet, built-in or declared, have distinct codes and distinct names. -/
theorem C45_all_distinct [GoUnicode] (s s' : Schema) (h : validate s = .ok s') :
    ((webrpcErrors ++ s'.errors).map (·.code)).Pairwise (· ≠ ·) ∧
    ((webrpcErrors ++ s'.errors).map (·.name)).Pairwise (· ≠ ·) := by
  obtain ⟨c1, c2⟩ := C45_builtin_distinct
  obtain ⟨d1, d2, -⟩ := C19_errors s s' h
  have hc := C45_no_clash s s' h
  rw [List.map_append, List.map_append, List.pairwise_append, List.pairwise_append]
  refine ⟨⟨c1, d1, ?_⟩, ⟨c2, ?_, ?_⟩⟩
  · intro a ha b hb
    obtain ⟨w, hw, rfl⟩ := List.mem_map.1 ha
    obtain ⟨e, he, rfl⟩ := List.mem_map.1 hb
    exact fun hh => (hc e he w hw).1 hh.symm
  · unfold DistinctNames at d2
    refine d2.imp ?_
    intro a b hab heq
    exact hab (by rw [heq]; exact rfl)
  · intro a ha b hb
    obtain ⟨w, hw, rfl⟩ := List.mem_map.1 ha
    obtain ⟨e, he, rfl⟩ := List.mem_map.1 hb
    exact fun hh => (hc e he w hw).2 (by rw [hh]; exact rfl)

/-! ## C49: the command line -/

theorem lastPair_snoc {l : List (Str × Str)} {k v k' v' : Str} :
    LastPair (l ++ [(k', v')]) k v ↔ (k = k' ∧ v = v') ∨ (k ≠ k' ∧ LastPair l k v) := by
  constructor
  · rintro ⟨l1, l2, h1, h2⟩
    rcases List.eq_nil_or_concat l2 with rfl | ⟨l2', p, rfl⟩
    · have := List.append_inj_right' h1 rfl
      simp only [List.cons.injEq, Prod.mk.injEq, and_true] at this
      exact Or.inl ⟨this.1.symm, this.2.symm⟩
    · rw [List.concat_eq_append, ← List.cons_append, ← List.append_assoc] at h1
      have e1 := List.append_inj_right' h1 rfl
      have e2 := List.append_inj_left' h1 rfl
      cases e1
      exact Or.inr ⟨fun hk => h2 (k', v') (by simp) hk.symm, l1, l2', e2, fun p hp => h2 p (by simp [hp])⟩
  · rintro (⟨rfl, rfl⟩ | ⟨hk, l1, l2, rfl, h2⟩)
    · exact ⟨l, [], rfl, by simp⟩
    · refine ⟨l1, l2 ++ [(k', v')], by simp, ?_⟩
      intro p hp
      rcases List.mem_append.1 hp with hp | hp
      · exact h2 p hp
      · rw [List.mem_singleton.1 hp]; exact fun hh => hk hh.symm

/-- The map holds exactly the last value of each key. -/
def HoldsLast (m l : List (Str × Str)) : Prop := ∀ k v, m.lookup k = some v ↔ LastPair l k v

theorem holdsLast_nil : HoldsLast [] [] := by
  intro k v
  constructor
  · intro h; simp at h
  · rintro ⟨l1, l2, h, -⟩; simp at h

theorem holdsLast_set {m l : List (Str × Str)} (h : HoldsLast m l) (k v : Str) :
    HoldsLast (mapSet k v m) (l ++ [(k, v)]) := by
  intro k' v'
  rw [mapSet_lookup, lastPair_snoc]
  by_cases hk : k' = k
  · rw [if_pos hk]
    constructor
    · intro e; cases e; exact Or.inl ⟨hk, rfl⟩
    · rintro (⟨-, rfl⟩ | ⟨h1, -⟩)
      · rfl
      · exact absurd hk h1
  · rw [if_neg hk, h k' v']
    constructor
    · exact fun e => Or.inr ⟨hk, e⟩
    · rintro (⟨h1, -⟩ | ⟨-, e⟩)
      · exact absurd h1 hk
      · exact e

theorem dash_split (s : Str) : ∃ d, s = d ++ s.dropWhile (· == '-') ∧ (∀ c ∈ d, c = '-') ∧
    (s.dropWhile (· == '-')).head? ≠ some '-' := by
  induction s with
  | nil => exact ⟨[], rfl, by simp, by simp⟩
  | cons c s ih =>
    by_cases hc : c = '-'
    · obtain ⟨d, h1, h2, h3⟩ := ih
      subst hc
      rw [List.dropWhile_cons_of_pos (by simp)]
      refine ⟨'-' :: d, by rw [List.cons_append, ← h1], ?_, h3⟩
      intro x hx
      rcases List.mem_cons.1 hx with rfl | hx
      · rfl
      · exact h2 x hx
    · rw [List.dropWhile_cons_of_neg (by simpa using hc)]
      exact ⟨[], rfl, by simp, by simpa using hc⟩

theorem dash_drop {d n : Str} (hd : ∀ c ∈ d, c = '-') (hn : n.head? ≠ some '-') :
    (d ++ n).dropWhile (· == '-') = n := by
  induction d with
  | nil =>
    cases n with
    | nil => rfl
    | cons c n => exact List.dropWhile_cons_of_neg (by simpa using hn)
  | cons c d ih =>
    rw [List.cons_append, List.dropWhile_cons_of_pos (by simp [hd c (by simp)])]
    exact ih fun x hx => hd x (by simp [hx])

theorem cliArg_iff {a n v : Str} : CliArg a n v ↔ hasPrefix (argParts a).1 (S "-") = true ∧
    (argParts a).1.dropWhile (· == '-') = n ∧ n ≠ [] ∧ (argParts a).2 = v := by
  have hdash : ∀ s : Str, hasPrefix s (S "-") = true ↔ s.head? = some '-' := by
    intro s
    cases s with
    | nil => decide
    | cons c s =>
      rw [show S "-" = ['-'] from rfl]
      simp only [hasPrefix, List.isPrefixOf, Bool.and_true, beq_iff_eq, List.head?_cons, Option.some.injEq]
      exact eq_comm
  rw [hdash]
  constructor
  · intro h
    cases h with
    | plain d n h1 h2 h3 h4 h5 =>
      have he : argParts (d ++ n) = (d ++ n, []) := by
        unfold argParts
        rw [show S "=" = ['='] from rfl, cut_char_none.2 (not_mem_app (fun hc => by cases h2 _ hc) h5)]
      rw [he]
      refine ⟨?_, dash_drop h2 h4, h3, rfl⟩
      cases d with
      | nil => exact absurd rfl h1
      | cons c d => simp [h2 c (by simp)]
    | value d n v h1 h2 h3 h4 h5 =>
      have he : argParts (d ++ n ++ S "=" ++ v) = (d ++ n, v) := by
        unfold argParts
        rw [show S "=" = ['='] from rfl, (cut_char (a := d ++ n) (b := v)).2 ⟨not_mem_app (fun hc => by cases h2 _ hc) h5, by simp⟩]
      rw [he]
      refine ⟨?_, dash_drop h2 h4, h3, rfl⟩
      cases d with
      | nil => exact absurd rfl h1
      | cons c d => simp [h2 c (by simp)]
  · rintro ⟨h1, h2, h3, h4⟩
    obtain ⟨d, e1, e2, e3⟩ := dash_split (argParts a).1
    rw [h2] at e1 e3
    have hd : d ≠ [] := by
      rintro rfl
      rw [e1] at h1
      exact e3 h1
    unfold argParts at e1 h4
    rw [show S "=" = ['='] from rfl] at e1 h4
    cases hc : cut ['='] a with
    | none =>
      rw [hc] at e1 h4
      dsimp only at e1 h4
      subst h4
      have := cut_char_none.1 hc
      rw [e1] at this ⊢
      exact .plain d n hd e2 h3 e3 fun hh => this (by simp [hh])
    | some x =>
      obtain ⟨x1, x2⟩ := x
      rw [hc] at e1 h4
      dsimp only at e1 h4
      subst h4
      obtain ⟨c1, c2⟩ := cut_char.1 hc
      rw [e1] at c1 c2
      have : a = d ++ n ++ S "=" ++ x2 := by rw [c2]; simp [S]
      rw [this]
      exact .value d n x2 hd e2 h3 e3 fun hh => c1 (by simp [hh])

theorem cliArg_unique {a n v n' v' : Str} (h : CliArg a n v) (h' : CliArg a n' v') : n = n' ∧ v = v' := by
  obtain ⟨-, h2, -, h4⟩ := cliArg_iff.1 h
  obtain ⟨-, h2', -, h4'⟩ := cliArg_iff.1 h'
  exact ⟨h2.symm.trans h2', h4.symm.trans h4'⟩

/-- `GoesTo a fl op`: what one argument adds to the flags and to the options. -/
inductive GoesTo : Str → List Str → List (Str × Str) → Prop
  | flag (a n v : Str) : CliArg a n v → OwnFlag n → GoesTo a [a] []
  | help (a n v : Str) : CliArg a n v → HelpFlag n → GoesTo a [a] [(S "help", [])]
  | option (a n v : Str) : CliArg a n v → ¬ OwnFlag n → ¬ HelpFlag n → GoesTo a [] [(n, v)]

theorem ownFlag_iff (n : Str) : flagNames.contains n = true ↔ OwnFlag n := by
  have h : flagNames = ["version", "schema", "schemaVersion", "target", "out", "fmt", "refreshCache", "silent", "service",
    "methodTreeShake", "ignore", "match"].map String.toList := rfl
  unfold OwnFlag
  rw [List.contains_iff_mem, h]

theorem help_not_own {n : Str} (h : HelpFlag n) : ¬ OwnFlag n := by
  rcases h with rfl | rfl <;> (unfold OwnFlag; decide)

theorem collectStep_some {st : List Str × List (Str × Str)} {a n v : Str} (h : CliArg a n v) :
    ∃ fl op, GoesTo a fl op ∧
      collectStep st a = some (st.1 ++ fl, op.foldl (fun m p => mapSet p.1 p.2 m) st.2) := by
  obtain ⟨h1, h2, h3, h4⟩ := cliArg_iff.1 h
  unfold collectStep
  rw [show argParts a = ((argParts a).1, (argParts a).2) from rfl]
  dsimp only
  rw [h1, h2, h4]
  simp only [Bool.not_true, Bool.false_eq_true, if_false, h3]
  by_cases hf : OwnFlag n
  · rw [if_pos ((ownFlag_iff n).2 hf)]
    exact ⟨[a], [], .flag a n v h hf, rfl⟩
  · rw [if_neg (fun hh => hf ((ownFlag_iff n).1 hh))]
    by_cases hh : HelpFlag n
    · rw [if_pos (show n = S "h" ∨ n = S "help" from hh)]
      exact ⟨[a], [(S "help", [])], .help a n v h hh, rfl⟩
    · rw [if_neg (show ¬ (n = S "h" ∨ n = S "help") from hh)]
      exact ⟨[], [(n, v)], .option a n v h hf hh, by simp⟩

theorem collectStep_none {st : List Str × List (Str × Str)} {a : Str} :
    collectStep st a = none ↔ ¬ ∃ n v, CliArg a n v := by
  constructor
  · rintro h ⟨n, v, hc⟩
    obtain ⟨fl, op, -, e⟩ := collectStep_some (st := st) hc
    rw [e] at h; cases h
  · intro h
    cases e : collectStep st a with
    | none => rfl
    | some x =>
      exfalso
      unfold collectStep at e
      rw [show argParts a = ((argParts a).1, (argParts a).2) from rfl] at e
      dsimp only at e
      split at e
      · cases e
      · rename_i hp
        split at e
        · cases e
        · rename_i hn
          exact h ⟨_, _, cliArg_iff.2 ⟨by simpa using hp, rfl, hn, rfl⟩⟩

theorem foldl_set (l : List (Str × Str)) (op m : List (Str × Str)) (h : HoldsLast m l) :
    HoldsLast (op.foldl (fun m p => mapSet p.1 p.2 m) m) (l ++ op) := by
  induction op generalizing m l with
  | nil => simpa using h
  | cons p op ih =>
    rw [List.foldl_cons]
    have := ih (l ++ [p]) _ (holdsLast_set h p.1 p.2)
    simpa using this

/-- What all arguments add, in order. -/
inductive AllGo : List Str → List Str → List (Str × Str) → Prop
  | nil : AllGo [] [] []
  | cons {a : Str} {r fl fl' : List Str} {op op' : List (Str × Str)} : GoesTo a fl op → AllGo r fl' op' →
      AllGo (a :: r) (fl ++ fl') (op ++ op')

theorem goesTo_arg {a : Str} {fl : List Str} {op : List (Str × Str)} (h : GoesTo a fl op) : ∃ n v, CliArg a n v := by
  cases h with
  | flag n v h _ => exact ⟨n, v, h⟩
  | help n v h _ => exact ⟨n, v, h⟩
  | option n v h _ _ => exact ⟨n, v, h⟩

theorem goesTo_unique {a : Str} {fl fl' : List Str} {op op' : List (Str × Str)} (h : GoesTo a fl op)
    (h' : GoesTo a fl' op') : fl = fl' ∧ op = op' := by
  cases h with
  | flag n v h ho =>
    cases h' with
    | flag n' v' h' ho' => exact ⟨rfl, rfl⟩
    | help n' v' h' hh => rw [← (cliArg_unique h h').1] at hh; exact absurd ho (help_not_own hh)
    | option n' v' h' ho' _ => rw [← (cliArg_unique h h').1] at ho'; exact absurd ho ho'
  | help n v h hh =>
    cases h' with
    | flag n' v' h' ho' => rw [← (cliArg_unique h h').1] at ho'; exact absurd ho' (help_not_own hh)
    | help n' v' h' hh => exact ⟨rfl, rfl⟩
    | option n' v' h' _ hh' => rw [← (cliArg_unique h h').1] at hh'; exact absurd hh hh'
  | option n v h ho hh =>
    cases h' with
    | flag n' v' h' ho' => rw [← (cliArg_unique h h').1] at ho'; exact absurd ho' ho
    | help n' v' h' hh' => rw [← (cliArg_unique h h').1] at hh'; exact absurd hh' hh
    | option n' v' h' _ _ =>
      obtain ⟨rfl, rfl⟩ := cliArg_unique h h'
      exact ⟨rfl, rfl⟩

theorem collectLoop_iff (args : List Str) (st out : List Str × List (Str × Str)) :
    collectLoop st args = some out ↔
      ∃ fl op, AllGo args fl op ∧ out = (st.1 ++ fl, op.foldl (fun m p => mapSet p.1 p.2 m) st.2) := by
  induction args generalizing st with
  | nil =>
    unfold collectLoop
    constructor
    · intro h; cases h; exact ⟨[], [], .nil, by simp⟩
    · rintro ⟨fl, op, h, rfl⟩; cases h; simp
  | cons a r ih =>
    rw [collectLoop]
    by_cases hc : ∃ n v, CliArg a n v
    · obtain ⟨n, v, hc⟩ := hc
      obtain ⟨fl, op, hg, e⟩ := collectStep_some (st := st) hc
      rw [e]
      dsimp only
      rw [ih]
      constructor
      · rintro ⟨fl', op', h1, rfl⟩
        exact ⟨fl ++ fl', op ++ op', .cons hg h1, by simp [List.foldl_append]⟩
      · rintro ⟨fl', op', h1, rfl⟩
        cases h1 with
        | cons hg' h1 =>
          obtain ⟨rfl, rfl⟩ := goesTo_unique hg hg'
          exact ⟨_, _, h1, by simp [List.foldl_append]⟩
    · rw [collectStep_none.2 hc]
      constructor
      · intro h; cases h
      · rintro ⟨fl, op, h, -⟩
        cases h with
        | cons hg _ => exact absurd (goesTo_arg hg) hc

/-- C49. The command line is accepted exactly when every argument is `-name` or `-name=value`. -/
theorem C49_accepts (args : List Str) :
    (∃ out, collectCliArgs args = some out) ↔ ∀ a ∈ args, ∃ n v, CliArg a n v := by
  unfold collectCliArgs
  constructor
  · rintro ⟨out, h⟩
    obtain ⟨fl, op, h, -⟩ := (collectLoop_iff _ _ _).1 h
    intro a ha
    rename_i h0; clear h0
    induction h with
    | nil => cases ha
    | cons hg _ ih =>
      rcases List.mem_cons.1 ha with rfl | ha
      · exact goesTo_arg hg
      · exact ih ha
  · intro h
    have : ∃ fl op, AllGo args fl op := by
      induction args with
      | nil => exact ⟨[], [], .nil⟩
      | cons a r ih =>
        obtain ⟨fl, op, h1⟩ := ih fun x hx => h x (by simp [hx])
        obtain ⟨n, v, hc⟩ := h a (by simp)
        obtain ⟨fl', op', hg, -⟩ := collectStep_some (st := ([], [])) hc
        exact ⟨_, _, .cons hg h1⟩
    obtain ⟨fl, op, h1⟩ := this
    exact ⟨_, (collectLoop_iff _ _ _).2 ⟨fl, op, h1, rfl⟩⟩

open Classical in
/-- C49. The flags are, in order and unchanged, the arguments naming one of the program's own flags or asking for
help; none is lost, added or duplicated. -/
theorem C49_flags (args fl : List Str) (opts : List (Str × Str)) (h : collectCliArgs args = some (fl, opts)) :
    fl = args.filter (fun a => decide (∃ n v, CliArg a n v ∧ (OwnFlag n ∨ HelpFlag n))) := by
  obtain ⟨fl', op, h', he⟩ := (collectLoop_iff _ _ _).1 h
  clear h
  have h := h'
  clear h'
  simp only [List.nil_append, Prod.mk.injEq] at he
  obtain ⟨rfl, -⟩ := he
  clear opts
  induction h with
  | nil => rfl
  | @cons a r fl fl' op op' hg _ ih =>
    rw [List.filter_cons, ← ih]
    cases hg with
    | flag n v h ho => rw [if_pos (decide_eq_true ⟨n, v, h, Or.inl ho⟩)]; rfl
    | help n v h hh => rw [if_pos (decide_eq_true ⟨n, v, h, Or.inr hh⟩)]; rfl
    | option n v h ho hh =>
      rw [if_neg]
      · rfl
      · intro hd
        obtain ⟨n', v', h', hor⟩ := of_decide_eq_true hd
        obtain ⟨rfl, -⟩ := cliArg_unique h h'
        rcases hor with hor | hor
        · exact ho hor
        · exact hh hor

/-- C49. The template options: the option `k` (other than `help`) has the value `v` exactly when `v` is the value
of the last argument `-k=v` and `k` is not one of the program's own flags. -/
theorem C49_options (args fl : List Str) (opts : List (Str × Str)) (h : collectCliArgs args = some (fl, opts))
    (k v : Str) (hk : k ≠ S "help") :
    opts.lookup k = some v ↔ ¬ OwnFlag k ∧ ¬ HelpFlag k ∧
      ∃ before arg after, args = before ++ arg :: after ∧ CliArg arg k v ∧ ∀ a ∈ after, ∀ w, ¬ CliArg a k w := by
  obtain ⟨fl', op, h', he⟩ := (collectLoop_iff _ _ _).1 h
  clear h
  have h := h'
  clear h'
  simp only [List.nil_append, Prod.mk.injEq] at he
  obtain ⟨-, rfl⟩ := he
  have hl := foldl_set [] op [] holdsLast_nil k v
  rw [List.nil_append] at hl
  rw [hl]
  clear hl fl
  have hin : ∀ {r fl op}, AllGo r fl op → (∃ w, (k, w) ∈ op) → ¬ OwnFlag k ∧ ¬ HelpFlag k ∧ ∃ a ∈ r, ∃ w, CliArg a k w := by
    intro r fl op h
    induction h with
    | nil => rintro ⟨w, hw⟩; simp at hw
    | @cons a r fl fl' op op' hg _ ih =>
      rintro ⟨w, hw⟩
      rcases List.mem_append.1 hw with hw | hw
      · cases hg with
        | flag => simp at hw
        | help => simp at hw; exact absurd hw.1 hk
        | option n v h ho hh => simp at hw; obtain ⟨rfl, rfl⟩ := hw; exact ⟨ho, hh, a, by simp, w, h⟩
      · obtain ⟨h1, h2, x, hx, y⟩ := ih ⟨w, hw⟩
        exact ⟨h1, h2, x, by simp [hx], y⟩
  have hout : ∀ {r fl op}, AllGo r fl op → ¬ OwnFlag k → ¬ HelpFlag k → (∃ a ∈ r, ∃ w, CliArg a k w) → ∃ w, (k, w) ∈ op := by
    intro r fl op h ho hh
    induction h with
    | nil => rintro ⟨a, ha, -⟩; cases ha
    | @cons a r fl fl' op op' hg _ ih =>
      rintro ⟨x, hx, w, hw⟩
      rcases List.mem_cons.1 hx with rfl | hx
      · cases hg with
        | flag n v h ho' => rw [(cliArg_unique h hw).1] at ho'; exact absurd ho' ho
        | help n v h hh' => rw [(cliArg_unique h hw).1] at hh'; exact absurd hh' hh
        | option n v h _ _ => obtain ⟨rfl, rfl⟩ := cliArg_unique h hw; exact ⟨_, List.mem_append_left _ (List.mem_singleton.2 rfl)⟩
      · obtain ⟨w', hw'⟩ := ih ⟨x, hx, w, hw⟩
        exact ⟨w', by simp [hw']⟩
  have hcons : ∀ (p : List (Str × Str)) (l : List (Str × Str)) (v : Str), p.length ≤ 1 →
      (LastPair (p ++ l) k v ↔ LastPair l k v ∨ ((∀ q ∈ l, q.1 ≠ k) ∧ p = [(k, v)])) := by
    intro p l v hp
    match p, hp with
    | [], _ => simp
    | [q], _ =>
      constructor
      · rintro ⟨l1, l2, h1, h2⟩
        cases l1 with
        | nil => cases h1; exact Or.inr ⟨h2, rfl⟩
        | cons _ l1 => cases h1; exact Or.inl ⟨l1, l2, rfl, h2⟩
      · rintro (⟨l1, l2, rfl, h2⟩ | ⟨h1, h2⟩)
        · exact ⟨q :: l1, l2, rfl, h2⟩
        · cases h2; exact ⟨[], l, rfl, h1⟩
  induction h with
  | nil =>
    constructor
    · rintro ⟨l1, l2, h, -⟩; simp at h
    · rintro ⟨-, -, b, a, c, h, -⟩; simp at h
  | @cons a r fl fl' op op' hg hr ih =>
    have hlen : op.length ≤ 1 := by cases hg <;> simp
    refine (hcons op op' v hlen).trans ((or_congr ih Iff.rfl).trans ?_)
    constructor
    · rintro (⟨h1, h2, b, x, c, rfl, h3, h4⟩ | ⟨h1, rfl⟩)
      · exact ⟨h1, h2, a :: b, x, c, rfl, h3, h4⟩
      · generalize hop : [(k, v)] = o at hg
        cases hg with
        | flag => cases hop
        | help => cases hop; exact absurd rfl hk
        | option n w h ho hh =>
          cases hop
          refine ⟨ho, hh, [], a, r, rfl, h, ?_⟩
          intro x hx w hw
          obtain ⟨w', hw'⟩ := hout hr ho hh ⟨x, hx, w, hw⟩
          exact h1 _ hw' rfl
    · rintro ⟨ho, hh, b, x, c, h1, h3, h4⟩
      cases b with
      | cons y b =>
        cases h1
        exact Or.inl ⟨ho, hh, b, x, c, rfl, h3, h4⟩
      | nil =>
        cases h1
        right
        refine ⟨?_, ?_⟩
        · intro q hq hqk
          obtain ⟨-, -, y, hy, w, hw⟩ := hin hr ⟨q.2, by rw [← hqk]; exact hq⟩
          exact h4 y hy w hw
        · cases hg with
          | flag n v h ho' => rw [(cliArg_unique h h3).1] at ho'; exact absurd ho' ho
          | help n v h hh' => rw [(cliArg_unique h h3).1] at hh'; exact absurd hh' hh
          | option n v h _ _ => obtain ⟨rfl, rfl⟩ := cliArg_unique h h3; rfl

/-- C49. The option `help` is present exactly when an argument asks for help, and is empty. -/
theorem C49_help (args fl : List Str) (opts : List (Str × Str)) (h : collectCliArgs args = some (fl, opts)) (v : Str) :
    opts.lookup (S "help") = some v ↔ v = [] ∧ ∃ a ∈ args, ∃ n w, CliArg a n w ∧ HelpFlag n := by
  obtain ⟨fl', op, h', he⟩ := (collectLoop_iff _ _ _).1 h
  clear h
  have h := h'
  clear h'
  simp only [List.nil_append, Prod.mk.injEq] at he
  obtain ⟨-, rfl⟩ := he
  have hl := foldl_set [] op [] holdsLast_nil (S "help")
  rw [List.nil_append] at hl
  have hv : ∀ w, (S "help", w) ∈ op → w = [] ∧ ∃ a ∈ args, ∃ n w, CliArg a n w ∧ HelpFlag n := by
    clear hl fl
    induction h with
    | nil => intro w hw; simp at hw
    | @cons a r fl fl' op op' hg _ ih =>
      intro w hw
      rcases List.mem_append.1 hw with hw | hw
      · cases hg with
        | flag => simp at hw
        | help n v h hh => simp at hw; exact ⟨hw, a, by simp, n, v, h, hh⟩
        | option n v h ho hh => simp at hw; exact absurd (Or.inr hw.1.symm) hh
      · obtain ⟨h1, x, hx, y⟩ := ih w hw
        exact ⟨h1, x, by simp [hx], y⟩
  have hm : (∃ a ∈ args, ∃ n w, CliArg a n w ∧ HelpFlag n) → (S "help", []) ∈ op := by
    clear hl fl hv
    induction h with
    | nil => rintro ⟨a, ha, -⟩; cases ha
    | @cons a r fl fl' op op' hg _ ih =>
      rintro ⟨x, hx, n, w, hc, hh⟩
      rcases List.mem_cons.1 hx with rfl | hx
      · cases hg with
        | flag n v h ho' => rw [(cliArg_unique h hc).1] at ho'; exact absurd ho' (help_not_own hh)
        | help => simp
        | option n v h _ hh' => rw [(cliArg_unique h hc).1] at hh'; exact absurd hh hh'
      · have := ih ⟨x, hx, n, w, hc, hh⟩
        simp [this]
  rw [hl]
  constructor
  · rintro ⟨l1, l2, rfl, -⟩
    exact hv v (by simp)
  · rintro ⟨rfl, hx⟩
    have hmem := hm hx
    -- a last pair with this key exists and must be empty
    have : ∃ w, LastPair op (S "help") w := by
      clear hl hv hm h fl
      induction op with
      | nil => cases hmem
      | cons q op ih =>
        by_cases hq : ∃ w, (S "help", w) ∈ op
        · obtain ⟨w, hw⟩ := hq
          have : ∀ l : List (Str × Str), (∃ w, (S "help", w) ∈ l) → ∃ w, LastPair l (S "help") w := by
            intro l
            induction l with
            | nil => rintro ⟨w, hw⟩; cases hw
            | cons q l ih =>
              rintro ⟨w, hw⟩
              by_cases hq : ∃ w, (S "help", w) ∈ l
              · obtain ⟨w', l1, l2, rfl, h2⟩ := ih hq
                exact ⟨w', q :: l1, l2, rfl, h2⟩
              · rcases List.mem_cons.1 hw with rfl | hw
                · exact ⟨w, [], l, rfl, fun p hp hpk => hq ⟨p.2, by rw [← hpk]; exact hp⟩⟩
                · exact absurd ⟨w, hw⟩ hq
          exact this _ ⟨w, by simp [hw]⟩
        · rcases List.mem_cons.1 hmem with rfl | hmem
          · exact ⟨[], [], op, rfl, fun p hp hpk => hq ⟨p.2, by rw [← hpk]; exact hp⟩⟩
          · exact absurd ⟨[], hmem⟩ hq
    obtain ⟨w, hw⟩ := this
    obtain ⟨l1, l2, e, h2⟩ := hw
    have := (hv w (by rw [e]; simp)).1
    subst this
    exact ⟨l1, l2, e, h2⟩

/-- A command line with flags, options and a repeated option. -/
example : collectCliArgs [S "-schema=a.ridl", S "-pkg=x", S "--client", S "-pkg=y=z"] =
    some ([S "-schema=a.ridl"], [(S "pkg", S "y=z"), (S "client", [])]) := by decide +kernel

example : CliArg (S "--pkg=y=z") (S "pkg") (S "y=z") :=
  .value (S "--") (S "pkg") (S "y=z") (by decide) (by decide) (by decide) (by decide) (by decide)

theorem annText_iff {a n v : Str} : AnnText a n v ↔ ∃ x full, cut (S "@") a = some (x, full) ∧
    ((cut (S ":") full = none ∧ n = full ∧ v = []) ∨ cut (S ":") full = some (n, v)) := by
  rw [show S "@" = ['@'] from rfl, show S ":" = [':'] from rfl]
  constructor
  · intro h
    cases h with
    | plain pre n h1 h2 => exact ⟨pre, n, cut_char.2 ⟨h1, by simp [S]⟩, Or.inl ⟨cut_char_none.2 h2, rfl, rfl⟩⟩
    | value pre n v h1 h2 =>
      exact ⟨pre, n ++ ':' :: v, cut_char.2 ⟨h1, by simp [S]⟩, Or.inr (cut_char.2 ⟨h2, rfl⟩)⟩
  · rintro ⟨x, full, h1, h2 | h2⟩
    · obtain ⟨h2, rfl, rfl⟩ := h2
      obtain ⟨c1, rfl⟩ := cut_char.1 h1
      have := AnnText.plain x n c1 (cut_char_none.1 h2)
      simpa [S] using this
    · obtain ⟨c1, rfl⟩ := cut_char.1 h1
      obtain ⟨c2, rfl⟩ := cut_char.1 h2
      have := AnnText.value x n v c1 c2
      simpa [S] using this

theorem annLoop_iff (items : List Str) (m l m' : List (Str × Str)) (hm : HoldsLast m l) :
    annLoop m items = some m' → ∃ ps, AnnTexts items ps ∧ HoldsLast m' (l ++ ps) := by
  induction items generalizing m l with
  | nil => intro h; cases h; exact ⟨[], .nil, by simpa using hm⟩
  | cons a r ih =>
    intro h
    rw [annLoop] at h
    split at h
    · cases h
    · rename_i x full hc
      split at h
      · rename_i hn
        obtain ⟨ps, h1, h2⟩ := ih _ _ (holdsLast_set hm full []) h
        exact ⟨(full, []) :: ps, .cons (annText_iff.2 ⟨x, full, hc, Or.inl ⟨hn, rfl, rfl⟩⟩) h1, by simpa using h2⟩
      · rename_i n v hn
        obtain ⟨ps, h1, h2⟩ := ih _ _ (holdsLast_set hm n v) h
        exact ⟨(n, v) :: ps, .cons (annText_iff.2 ⟨x, full, hc, Or.inr hn⟩) h1, by simpa using h2⟩

theorem annLoop_none (items : List Str) (m : List (Str × Str)) :
    annLoop m items = none ↔ ∃ a ∈ items, '@' ∉ a := by
  induction items generalizing m with
  | nil => simp [annLoop]
  | cons a r ih =>
    rw [annLoop]
    split
    · rename_i hc
      simp only [true_iff]
      exact ⟨a, by simp, cut_char_none.1 hc⟩
    · rename_i x full hc
      have ha : '@' ∈ a := by
        obtain ⟨_, rfl⟩ := (cut_char (c := '@')).1 hc
        simp
      have : (∃ b ∈ a :: r, '@' ∉ b) ↔ ∃ b ∈ r, '@' ∉ b := by simp [ha]
      split <;> rw [this, ih]

/-- C49. The values of `-ignore` and `-match`: a comma-separated list is accepted exactly when every item has an
`@`, and the resulting map holds for each annotation name the last value given for it. -/
theorem C49_annotations (items : List Str) (hne : items ≠ []) (hc : ∀ a ∈ items, ',' ∉ a) :
    (makeAnnotationsMap (join (S ",") items) = none ↔ ∃ a ∈ items, '@' ∉ a) ∧
    ∀ m, makeAnnotationsMap (join (S ",") items) = some m →
      ∃ ps, AnnTexts items ps ∧ ∀ k v, m.lookup k = some v ↔ LastPair ps k v := by
  have hs : split (S ",") (join (S ",") items) = items := split_join hne hc
  unfold makeAnnotationsMap
  rw [hs]
  refine ⟨annLoop_none items [], fun m hm => ?_⟩
  obtain ⟨ps, h1, h2⟩ := annLoop_iff items [] [] m holdsLast_nil hm
  exact ⟨ps, h1, by simpa [HoldsLast] using h2⟩

/-- Two annotations; and the two surprises: of two values for one name the last wins, and text before the `@` does
not matter. -/
example : makeAnnotationsMap (S "@acl:admin,@internal") = some [(S "acl", S "admin"), (S "internal", [])] ∧
    makeAnnotationsMap (S "@acl:a,@acl:b") = some [(S "acl", S "b")] ∧
    makeAnnotationsMap (S "not @acl") = some [(S "acl", [])] := by decide +kernel

/-! ## C50: targets -/

theorem supported_iff (n : Str) : embeddedFS.contains n = true ↔ Supported n := by
  have h : embeddedFS = ["golang", "typescript", "javascript", "openapi", "kotlin", "dart"].map String.toList := rfl
  unfold Supported
  rw [List.contains_iff_mem, h]

theorem supported_plain {n : Str} (h : Supported n) : ' ' ∉ n ∧ '@' ∉ n ∧ '/' ∉ n ∧ n ≠ S "json" ∧ n ≠ S "debug" := by
  unfold Supported at h
  revert n
  decide +kernel

theorem modLine_iff {line n v : Str} : modLine line = some (n, v) ↔ Supported n ∧ ' ' ∉ v ∧
    ∃ rest : Str, (rest = [] ∨ rest.head? = some ' ') ∧
      line = S "\tgithub.com/webrpc/gen-" ++ n ++ S " " ++ v ++ rest := by
  generalize hpre : S "\tgithub.com/webrpc/gen-" = pre
  have hsp : S " " = [' '] := rfl
  constructor
  · intro h
    unfold modLine at h
    rw [hpre] at h
    split at h
    · rename_i hp
      obtain ⟨tail, rfl⟩ := List.isPrefixOf_iff_prefix.1 hp
      rw [List.drop_left] at h
      split at h
      · rename_i n' v' parts hs
        split at h
        · rename_i hf
          cases h
          have hj := @join_split (S " ") tail
          rw [hs] at hj
          have hv : ' ' ∉ v := by
            have := @split_free (S " ") tail v (by decide) (by rw [hs]; simp)
            intro hh
            obtain ⟨x, y, rfl⟩ := List.append_of_mem hh
            exact this ⟨x, y, by simp [S]⟩
          refine ⟨(supported_iff n).1 hf, hv, ?_⟩
          cases parts with
          | nil =>
            refine ⟨[], Or.inl rfl, ?_⟩
            rw [← hj]
            simp [join]
          | cons p parts =>
            refine ⟨S " " ++ join (S " ") (p :: parts), Or.inr rfl, ?_⟩
            rw [← hj, join_cons (by simp), join_cons (by simp)]
            simp
        · cases h
      · cases h
    · cases h
  · rintro ⟨h1, h2, rest, h3, rfl⟩
    unfold modLine
    rw [hpre, if_pos (by rw [List.isPrefixOf_iff_prefix]; exact ⟨n ++ S " " ++ v ++ rest, by simp⟩)]
    have hd : (pre ++ n ++ S " " ++ v ++ rest).drop pre.length = n ++ ' ' :: (v ++ rest) := by
      rw [show pre ++ n ++ S " " ++ v ++ rest = pre ++ (n ++ ' ' :: (v ++ rest)) from by simp [S], List.drop_left]
    rw [hd]
    have hs1 : split (S " ") (n ++ ' ' :: (v ++ rest)) = n :: split (S " ") (v ++ rest) :=
      split_some (by decide) (cut_char.2 ⟨(supported_plain h1).1, rfl⟩)
    have hs2 : ∃ parts, split (S " ") (v ++ rest) = v :: parts := by
      rcases h3 with rfl | h3
      · rw [List.append_nil]
        exact ⟨[], split_none (by decide) (cut_char_none.2 h2)⟩
      · cases rest with
        | nil => cases h3
        | cons c rest =>
          simp at h3
          subst h3
          exact ⟨_, split_some (by decide) (cut_char.2 ⟨h2, rfl⟩)⟩
    obtain ⟨parts, hs2⟩ := hs2
    rw [hs1, hs2]
    dsimp only
    rw [if_pos ((supported_iff n).2 h1)]

theorem requires_iff {ml : List Str} {n v : Str} : Requires ml n v ↔ (n, v) ∈ ml.filterMap modLine := by
  rw [List.mem_filterMap]
  constructor
  · rintro ⟨h1, line, hl, rest, h2, h3, h4⟩
    exact ⟨line, hl, modLine_iff.2 ⟨h1, h3, rest, h2, h4⟩⟩
  · rintro ⟨line, hl, h⟩
    obtain ⟨h1, h3, rest, h2, h4⟩ := modLine_iff.1 h
    exact ⟨h1, line, hl, rest, h2, h3, h4⟩

theorem names_iff {n v t : Str} : Names n v t ↔ t ∈ embedKeys n v := by
  unfold embedKeys
  constructor
  · intro h; cases h <;> simp
  · intro h
    simp only [List.mem_cons, List.not_mem_nil, or_false] at h
    rcases h with rfl | rfl | rfl | rfl
    · exact .short
    · exact .shortAt
    · exact .full
    · exact .fullAt

/-- The entry made for a generator. -/
def entry (x : Str × Str) : Embedded :=
  { name := x.1, version := x.2, importTag := S "github.com/webrpc/gen-" ++ x.1 ++ S "@" ++ x.2 }

theorem foldl_keys (ks : List Str) (e : Embedded) (m : List (Str × Embedded)) (t : Str) :
    (ks.foldl (fun m k => mapSet k e m) m).lookup t = if t ∈ ks then some e else m.lookup t := by
  induction ks generalizing m with
  | nil => simp
  | cons k ks ih =>
    rw [List.foldl_cons, ih, mapSet_lookup]
    by_cases h1 : t ∈ ks
    · simp [h1]
    · by_cases h2 : t = k <;> simp [h1, h2]

theorem names_inj {n v n' v' t : Str} (hs : Supported n) (hs' : Supported n') (h : Names n v t) (h' : Names n' v' t) :
    n = n' := by
  have hbase : ∀ {n v t : Str}, Supported n → Names n v t → ∃ r : Str, trimPrefix t (S "github.com/webrpc/gen-") = n ++ r ∧
      (r = [] ∨ r.head? = some '@') := by
    intro n v t hs h
    have hno : ∀ r : Str, trimPrefix (n ++ r) (S "github.com/webrpc/gen-") = n ++ r := by
      intro r
      unfold trimPrefix
      rw [if_neg]
      intro hp
      obtain ⟨x, hx⟩ := List.isPrefixOf_iff_prefix.1 hp
      have : ∀ n, Supported n → ∃ a b n', n = a :: b :: n' ∧ ¬ (a = 'g' ∧ b = 'i') := by
        intro n hn
        unfold Supported at hn
        simp only [List.map_cons, List.map_nil, List.mem_cons, List.not_mem_nil, or_false] at hn
        rcases hn with rfl | rfl | rfl | rfl | rfl | rfl
        · exact ⟨'g', 'o', "lang".toList, rfl, by decide⟩
        · exact ⟨'t', 'y', "pescript".toList, rfl, by decide⟩
        · exact ⟨'j', 'a', "vascript".toList, rfl, by decide⟩
        · exact ⟨'o', 'p', "enapi".toList, rfl, by decide⟩
        · exact ⟨'k', 'o', "tlin".toList, rfl, by decide⟩
        · exact ⟨'d', 'a', "rt".toList, rfl, by decide⟩
      obtain ⟨a, b, n', rfl, hab⟩ := this n hs
      have hx' : 'g' :: 'i' :: (S "thub.com/webrpc/gen-" ++ x) = a :: b :: (n' ++ r) := hx
      simp only [List.cons.injEq] at hx'
      exact hab ⟨hx'.1.symm, hx'.2.1.symm⟩
    cases h with
    | short => exact ⟨[], by have := hno []; simpa using this, Or.inl rfl⟩
    | shortAt => exact ⟨S "@" ++ v, by have := hno (S "@" ++ v); simpa using this, Or.inr rfl⟩
    | full => exact ⟨[], by rw [trimPrefix_append]; simp, Or.inl rfl⟩
    | fullAt =>
      exact ⟨S "@" ++ v, by rw [List.append_assoc, List.append_assoc, trimPrefix_append], Or.inr rfl⟩
  obtain ⟨r, e, hr⟩ := hbase hs h
  obtain ⟨r', e', hr'⟩ := hbase hs' h'
  rw [e] at e'
  have hcut : ∀ {n r : Str}, Supported n → (r = [] ∨ r.head? = some '@') → (n ++ r).takeWhile (· != '@') = n := by
    intro n r hs hr
    have ha := (supported_plain hs).2.1
    rw [List.takeWhile_append_of_pos]
    · rcases hr with rfl | hr
      · simp
      · cases r with
        | nil => simp
        | cons c r => simp at hr; subst hr; simp
    · intro c hc; simp; rintro rfl; exact ha hc
  have := congrArg (List.takeWhile (· != '@')) e'
  rwa [hcut hs hr, hcut hs' hr'] at this

theorem embedded_lookup {ml : List Str} (h1 : OneVersion ml) {t : Str} {e : Embedded} :
    (embeddedTargets ml).lookup t = some e ↔
      ∃ n v, Requires ml n v ∧ Names n v t ∧ e = entry (n, v) := by
  have key : ∀ (xs : List (Str × Str)) (m : List (Str × Embedded)),
      (∀ x ∈ xs, Requires ml x.1 x.2) →
      ((xs.foldl (fun m x => (embedKeys x.1 x.2).foldl (fun m k => mapSet k (entry x) m) m) m).lookup t = some e ↔
        (∃ x ∈ xs, Names x.1 x.2 t ∧ e = entry x) ∨ ((∀ x ∈ xs, ¬ Names x.1 x.2 t) ∧ m.lookup t = some e)) := by
    intro xs
    induction xs with
    | nil => intro m _; simp
    | cons x xs ih =>
      intro m hx
      rw [List.foldl_cons, ih _ (fun y hy => hx y (by simp [hy])), foldl_keys]
      have hxr := hx x (by simp)
      by_cases hn : Names x.1 x.2 t
      · rw [if_pos (names_iff.1 hn)]
        constructor
        · rintro (⟨y, hy, h2, h3⟩ | ⟨-, h3⟩)
          · exact Or.inl ⟨y, by simp [hy], h2, h3⟩
          · cases h3; exact Or.inl ⟨x, by simp, hn, rfl⟩
        · rintro (⟨y, hy, h2, h3⟩ | ⟨h2, -⟩)
          · rcases List.mem_cons.1 hy with rfl | hy
            · by_cases hex : ∃ z ∈ xs, Names z.1 z.2 t
              · obtain ⟨z, hz, hz2⟩ := hex
                have hzr := hx z (by simp [hz])
                have e1 := names_inj hxr.1 hzr.1 hn hz2
                have e2 := h1 y.1 y.2 z.2 hxr (by rw [e1]; exact hzr)
                have : z = y := by rw [← Prod.eta z, ← Prod.eta y, e1, e2]
                exact Or.inl ⟨z, hz, hz2, by rw [this]; exact h3⟩
              · right
                exact ⟨fun z hz hz2 => hex ⟨z, hz, hz2⟩, by rw [h3]⟩
            · exact Or.inl ⟨y, hy, h2, h3⟩
          · exact absurd hn (h2 x (by simp))
      · rw [if_neg (fun hh => hn (names_iff.2 hh))]
        constructor
        · rintro (⟨y, hy, h2, h3⟩ | ⟨h2, h3⟩)
          · exact Or.inl ⟨y, by simp [hy], h2, h3⟩
          · exact Or.inr ⟨fun y hy => by
              rcases List.mem_cons.1 hy with rfl | hy
              · exact hn
              · exact h2 y hy, h3⟩
        · rintro (⟨y, hy, h2, h3⟩ | ⟨h2, h3⟩)
          · rcases List.mem_cons.1 hy with rfl | hy
            · exact absurd h2 hn
            · exact Or.inl ⟨y, hy, h2, h3⟩
          · exact Or.inr ⟨fun y hy => h2 y (by simp [hy]), h3⟩
  unfold embeddedTargets
  have := key (ml.filterMap modLine) [] (fun x hx => requires_iff.2 hx)
  refine Iff.trans (show _ ↔ _ from this) ?_
  constructor
  · rintro (⟨x, hx, h2, h3⟩ | ⟨-, h3⟩)
    · exact ⟨x.1, x.2, requires_iff.2 hx, h2, h3⟩
    · cases h3
  · rintro ⟨n, v, h2, h3, h4⟩
    exact Or.inl ⟨(n, v), requires_iff.1 h2, h3, h4⟩

theorem oldTarget_means {t u : Str} : Means t u ↔ oldTarget t = u := by
  unfold Means oldTarget
  by_cases h1 : t = S "go"
  · subst h1
    rw [if_pos rfl]
    constructor
    · rintro (h | ⟨h, -⟩)
      · cases h; rfl
      · exact absurd OldName.go (h _)
    · rintro rfl; exact Or.inl .go
  · rw [if_neg h1]
    by_cases h2 : t = S "ts"
    · subst h2
      rw [if_pos rfl]
      constructor
      · rintro (h | ⟨h, -⟩)
        · cases h; rfl
        · exact absurd OldName.ts (h _)
      · rintro rfl; exact Or.inl .ts
    · rw [if_neg h2]
      by_cases h3 : t = S "js"
      · subst h3
        rw [if_pos rfl]
        constructor
        · rintro (h | ⟨h, -⟩)
          · cases h; rfl
          · exact absurd OldName.js (h _)
        · rintro rfl; exact Or.inl .js
      · rw [if_neg h3]
        have hno : ∀ w, ¬ OldName t w := by
          intro w hw
          cases hw
          · exact h1 rfl
          · exact h2 rfl
          · exact h3 rfl
        constructor
        · rintro (h | ⟨-, rfl⟩)
          · exact absurd h (hno _)
          · rfl
        · rintro rfl; exact Or.inr ⟨hno, rfl⟩

/-- C50. `json` and `debug`, and only they, are printed by webrpc-gen itself. -/
theorem C50_builtin [GoUnicode] (ml : List Str) (t : Str) :
    (resolve ml t = .json ↔ t = S "json") ∧ (resolve ml t = .debug ↔ t = S "debug") := by
  unfold resolve
  dsimp only
  by_cases h1 : t = S "json"
  · subst h1; rw [if_pos rfl]; exact ⟨by simp, by decide⟩
  · rw [if_neg h1]
    by_cases h2 : t = S "debug"
    · subst h2; rw [if_pos rfl]; exact ⟨by decide, by simp⟩
    · rw [if_neg h2]
      simp only [h1, h2, iff_false]
      split
      · exact ⟨nofun, nofun⟩
      · split
        · exact ⟨nofun, nofun⟩
        · exact ⟨nofun, nofun⟩

/-- C50. When go.mod requires each generator in one version only, a target is answered from the embedded templates
exactly when it is one of the four ways to name a required generator, and then in exactly the required version. -/
theorem C50_embedded [GoUnicode] (ml : List Str) (hv : OneVersion ml) (t : Str) (e : Embedded) :
    resolve ml t = .embedded e ↔ ∃ u n v, Means t u ∧ Requires ml n v ∧ Names n v u ∧
      e = { name := n, version := v, importTag := S "github.com/webrpc/gen-" ++ n ++ S "@" ++ v } := by
  unfold resolve
  dsimp only
  have hplain : ∀ t : Str, t = S "json" ∨ t = S "debug" →
      ¬ ∃ u n v, Means t u ∧ Requires ml n v ∧ Names n v u ∧
        e = { name := n, version := v, importTag := S "github.com/webrpc/gen-" ++ n ++ S "@" ++ v } := by
    rintro t ht ⟨u, n, v, h1, h2, h3, -⟩
    have hu : u = t := by
      rw [← oldTarget_means.1 h1]
      rcases ht with rfl | rfl <;> rfl
    subst hu
    obtain ⟨-, -, -, p4, p5⟩ := supported_plain h2.1
    have hat : '@' ∉ u := by rcases ht with rfl | rfl <;> decide
    have hsl : '/' ∉ u := by rcases ht with rfl | rfl <;> decide
    have hpre : '/' ∈ S "github.com/webrpc/gen-" := by decide
    cases h3 with
    | short => rcases ht with ht | ht
               · exact p4 ht
               · exact p5 ht
    | shortAt => exact hat (List.mem_append_left _ (List.mem_append_right _ (by decide)))
    | full => exact hsl (List.mem_append_left _ hpre)
    | fullAt => exact hsl (List.mem_append_left _ (List.mem_append_left _ (List.mem_append_left _ hpre)))
  by_cases h1 : t = S "json"
  · rw [if_pos h1]
    exact ⟨nofun, fun h => absurd h (hplain t (Or.inl h1))⟩
  · rw [if_neg h1]
    by_cases h2 : t = S "debug"
    · rw [if_pos h2]
      exact ⟨nofun, fun h => absurd h (hplain t (Or.inr h2))⟩
    · rw [if_neg h2]
      have key := @embedded_lookup ml hv (oldTarget t)
      cases hl : (embeddedTargets ml).lookup (oldTarget t) with
      | none =>
        dsimp only
        constructor
        · intro h; split at h <;> cases h
        · rintro ⟨u, n, v, h3, h4, h5, h6⟩
          rw [← oldTarget_means.1 h3] at h5
          have := (key (e := e)).2 ⟨n, v, h4, h5, h6⟩
          rw [hl] at this; cases this
      | some e' =>
        dsimp only
        constructor
        · intro h
          cases h
          obtain ⟨n, v, h3, h4, h5⟩ := key.1 hl
          exact ⟨oldTarget t, n, v, oldTarget_means.2 rfl, h3, h4, h5⟩
        · rintro ⟨u, n, v, h3, h4, h5, h6⟩
          rw [← oldTarget_means.1 h3] at h5
          have := (key (e := e)).2 ⟨n, v, h4, h5, h6⟩
          rw [hl] at this
          cases this; rfl

/-- C50. The unversioned name of a required generator gives the required version. -/
theorem C50_unversioned [GoUnicode] (ml : List Str) (hv : OneVersion ml) (n v : Str) (h : Requires ml n v) :
    resolve ml n = .embedded { name := n, version := v, importTag := S "github.com/webrpc/gen-" ++ n ++ S "@" ++ v } := by
  refine (C50_embedded ml hv n _).2 ⟨n, n, v, Or.inr ⟨?_, rfl⟩, h, .short, rfl⟩
  intro w hw
  have hs := h.1
  unfold Supported at hs
  cases hw <;> revert hs <;> decide

/-- C50. A target that is none of the above is a local directory when it begins with `/` or `.`, and otherwise a
remote repository: the target itself when it has a `/`, else the repository of that name (in lower case) of the
webrpc organisation. -/
theorem C50_elsewhere [GoUnicode] (ml : List Str) (t : Str) (h1 : t ≠ S "json") (h2 : t ≠ S "debug")
    (h3 : ∀ e, resolve ml t ≠ .embedded e) (u : Str) (hu : Means t u) :
    resolve ml t =
      if u.head? = some '/' ∨ u.head? = some '.' then .local_ u
      else if '/' ∈ u then .remote u
      else .remote (S "github.com/webrpc/gen-" ++ toLower u) := by
  have hpre : ∀ (s : Str) (c : Char), hasPrefix s [c] = true ↔ s.head? = some c := by
    intro s c
    cases s with
    | nil => simp [hasPrefix]
    | cons d s =>
      simp only [hasPrefix, List.isPrefixOf, Bool.and_true, beq_iff_eq, List.head?_cons, Option.some.injEq]
      exact eq_comm
  have hl : isLocalDir u = true ↔ (u.head? = some '/' ∨ u.head? = some '.') := by
    unfold isLocalDir
    rw [Bool.or_eq_true, show S "/" = ['/'] from rfl, show S "." = ['.'] from rfl, hpre, hpre]
  have hsplit : (split (S "/") u).length = 1 ↔ '/' ∉ u := by
    cases hc : cut (S "/") u with
    | none =>
      rw [split_none (by decide) hc]
      simp only [List.length_singleton, true_iff]
      exact cut_char_none.1 hc
    | some x =>
      obtain ⟨a, b⟩ := x
      rw [split_some (by decide) hc]
      have hb := @split_ne_nil (S "/") b (by decide)
      have := List.length_pos_iff.2 hb
      obtain ⟨-, rfl⟩ := (cut_char (c := '/')).1 hc
      constructor
      · intro h
        simp only [List.length_cons] at h
        omega
      · intro h; exact absurd (by simp) h
  have ho := oldTarget_means.1 hu
  have hr : resolve ml t = (match (embeddedTargets ml).lookup u with
      | some e => Target.embedded e
      | none => if isLocalDir u then .local_ u else .remote (inferRemote u)) := by
    unfold resolve
    dsimp only
    rw [if_neg h1, if_neg h2, ho]
    rfl
  rw [hr] at h3 ⊢
  cases hk : (embeddedTargets ml).lookup u with
  | some e => rw [hk] at h3; exact absurd rfl (h3 e)
  | none =>
    dsimp only
    by_cases hloc : isLocalDir u = true
    · rw [if_pos hloc, if_pos (hl.1 hloc)]
    · rw [if_neg hloc, if_neg (fun hh => hloc (hl.2 hh))]
      unfold inferRemote
      rw [if_neg hloc]
      by_cases hs : '/' ∈ u
      · rw [if_pos hs, if_neg (fun hh => hsplit.1 hh hs)]
      · rw [if_neg hs, if_pos (hsplit.2 hs)]

/-- The lines of go.mod of this commit that name generators, with one comment. -/
def goMod : List Str :=
  [S "module github.com/webrpc/webrpc", S "require (", S "\tgithub.com/webrpc/gen-dart v0.2.0",
   S "\tgithub.com/webrpc/gen-golang v0.36.0", S "\tgithub.com/webrpc/gen-javascript v0.16.0",
   S "\tgithub.com/webrpc/gen-kotlin v0.3.2", S "\tgithub.com/webrpc/gen-openapi v0.18.0",
   S "\tgithub.com/webrpc/gen-typescript v0.30.0 // comment", S ")"]

theorem goMod_one : OneVersion goMod := by
  intro n v w h h'
  rw [requires_iff] at h h'
  have : ∀ p ∈ goMod.filterMap modLine, ∀ q ∈ goMod.filterMap modLine, p.1 = q.1 → p.2 = q.2 := by decide +kernel
  exact this _ h _ h' rfl

/-- Targets of this commit: an unversioned name, an old name, another version, a directory; and a pre-release tag
that is changed by the lower-casing. -/
example : let _ := asciiOnly
    resolve goMod (S "typescript") =
      .embedded ⟨S "typescript", S "v0.30.0", S "github.com/webrpc/gen-typescript@v0.30.0"⟩ ∧
    resolve goMod (S "ts") = .remote (S "github.com/webrpc/gen-typescript@v0.6.0") ∧
    resolve goMod (S "golang@v0.35.0") = .remote (S "github.com/webrpc/gen-golang@v0.35.0") ∧
    resolve goMod (S "./gen") = .local_ (S "./gen") ∧
    resolve goMod (S "golang@v1.0.0-RC1") = .remote (S "github.com/webrpc/gen-golang@v1.0.0-rc1") := by
  decide +kernel

end Verif.Props
