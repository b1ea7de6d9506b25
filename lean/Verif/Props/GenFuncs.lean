import Verif.Spec.GenFuncs
import Verif.Spec.TypeExpr
import Verif.Schema.ExprLemmas
import Verif.Schema.FilterLemmas
import Verif.Props.Declarations
/-!
# Properties of the template functions (C43, C44, C46, C47)
-/

namespace Verif.Props
open Verif.Schema Verif.Gen Verif.Spec
open Verif.Compile (mapSet decimal? mapSet_lookup)

/-! ## C43: the version gate -/

theorem numeral_digits (n : Nat) : numeral n ≠ [] ∧ ∀ c ∈ numeral n, c ∈ "0123456789".toList := by
  have h0 : numeral n = Nat.toDigits 10 n := by simp [numeral, Nat.repr]
  rw [h0]
  have hd : ∀ d : Fin 10, Nat.digitChar d.val ∈ "0123456789".toList := by decide
  induction n using Nat.strongRecOn with
  | _ n ih =>
    by_cases hn : n < 10
    · rw [Nat.toDigits_of_lt_base hn]
      exact ⟨by simp, fun c hc => by rw [List.mem_singleton.1 hc]; exact hd ⟨n, hn⟩⟩
    · rw [Nat.toDigits_of_base_le (by omega) (by omega)]
      refine ⟨by simp, fun c hc => ?_⟩
      rcases List.mem_append.1 hc with hc | hc
      · exact (ih (n / 10) (by omega) (by simp [Nat.repr, numeral])).2 c hc
      · rw [List.mem_singleton.1 hc]; exact hd ⟨n % 10, by omega⟩

theorem digit_not {c : Char} (h : c ∈ "0123456789".toList) : c ≠ '-' ∧ c ≠ '+' ∧ c ≠ '.' ∧ c ≠ 'v' := by
  have h2 : c ∈ ['0', '1', '2', '3', '4', '5', '6', '7', '8', '9'] := h
  simp only [List.mem_cons, List.not_mem_nil, or_false] at h2
  rcases h2 with rfl | rfl | rfl | rfl | rfl | rfl | rfl | rfl | rfl | rfl <;> decide

theorem atoi_numeral {n : Nat} (h : FitsInt n) : atoi (numeral n) = some (n : Int) := by
  obtain ⟨hne, hd⟩ := numeral_digits n
  have hv : decimal? 0 (numeral n) = some n := by
    rw [decimal_val _ 0 hd]
    exact congrArg some (decimalValue_repr n)
  unfold FitsInt at h
  generalize numeral n = s at hne hd hv
  cases s with
  | nil => exact absurd rfl hne
  | cons c r =>
    obtain ⟨h1, h2, _, _⟩ := digit_not (hd c (by simp))
    unfold atoi
    have hm : unsigned (c :: r) = c :: r := by
      rw [unsigned.eq_def]
      split
      · rename_i heq; cases heq; exact absurd rfl h1
      · rename_i heq; cases heq; exact absurd rfl h2
      · rfl
    rw [hm, if_neg (by simp), hv]
    dsimp only
    rw [if_neg (by simpa using h1), if_pos (by omega)]

theorem numeral_nodot (n : Nat) : '.' ∉ numeral n := fun h => (digit_not ((numeral_digits n).2 _ h)).2.2.1 rfl

theorem trimV {lead s : Str} (hl : lead = [] ∨ lead = S "v") (hs : s.head? ≠ some 'v') :
    trimPrefix (lead ++ s) (S "v") = s := by
  rcases hl with rfl | rfl
  · unfold trimPrefix
    rw [if_neg]
    · rfl
    · rw [List.isPrefixOf_iff_prefix]
      rintro ⟨t, ht⟩
      exact hs (by rw [List.nil_append] at ht; rw [← ht]; rfl)
  · exact trimPrefix_append _ _

theorem numeral_head (n : Nat) (s : Str) : (numeral n ++ s).head? ≠ some 'v' := by
  obtain ⟨hne, hd⟩ := numeral_digits n
  generalize numeral n = d at hne hd
  cases d with
  | nil => exact absurd rfl hne
  | cons c r => intro h; exact (digit_not (hd c (by simp))).2.2.2 (by simpa using h)

/-- C43: versions are read as written. -/
theorem C43_reads (s : Str) (major minor : Nat) (h : VersionText s major minor) (h1 : FitsInt major)
    (h2 : FitsInt minor) : parseMajorMinor s = some ((major : Int), (minor : Int)) := by
  have hdot : S "." = ['.'] := rfl
  unfold parseMajorMinor
  cases h with
  | short lead _ hl =>
    have := numeral_head major []
    rw [List.append_nil] at this
    rw [trimV hl this, hdot, split_none (by simp) (cut_char_none.2 (numeral_nodot major)), ]
    simp only [atoi_numeral h1]; rfl
  | full lead tail _ _ hl ht =>
    rw [List.append_assoc, List.append_assoc, List.append_assoc, trimV hl (numeral_head _ _), hdot]
    have hc : cut ['.'] (numeral major ++ (['.'] ++ (numeral minor ++ tail))) =
        some (numeral major, numeral minor ++ tail) := cut_char.2 ⟨numeral_nodot _, by simp⟩
    rw [split_some (by simp) hc]
    have hsp : ∃ r, split ['.'] (numeral minor ++ tail) = numeral minor :: r := by
      rcases ht with rfl | ht
      · rw [List.append_nil, split_none (by simp) (cut_char_none.2 (numeral_nodot minor))]; exact ⟨[], rfl⟩
      · cases tail with
        | nil => cases ht
        | cons c r =>
          cases ht
          rw [split_some (by simp) (cut_char.2 ⟨numeral_nodot minor, rfl⟩)]
          exact ⟨_, rfl⟩
    obtain ⟨r, hr⟩ := hsp
    rw [hr]
    simp only [atoi_numeral h1, atoi_numeral h2]; rfl

/-- C43: what the gate decides: each part must be at least the required one. -/
theorem C43_decides (v w : Str) (a b c d : Nat) (hv : VersionText v a b) (hw : VersionText w c d)
    (ha : FitsInt a) (hb : FitsInt b) (hc : FitsInt c) (hd : FitsInt d) :
    minVersion v w = some (decide (c ≤ a ∧ d ≤ b)) := by
  unfold minVersion
  rw [C43_reads v a b hv ha hb, C43_reads w c d hw hc hd]
  dsimp only
  by_cases h1 : a < c
  · rw [if_pos (by omega)]; simp; omega
  · rw [if_neg (by omega)]
    by_cases h2 : b < d
    · rw [if_pos (by omega)]; simp; omega
    · rw [if_neg (by omega)]; simp; omega

/-- C43: a version that passes the gate is not older than required, and within one major version the gate is
exact.  (Missing for the full property: a newer major version with a smaller minor one, see
`C43_newer_rejected`.) -/
theorem C43_gate_partial (v w : Str) (a b c d : Nat) (hv : VersionText v a b) (hw : VersionText w c d)
    (ha : FitsInt a) (hb : FitsInt b) (hc : FitsInt c) (hd : FitsInt d) :
    (minVersion v w = some true → NotOlder a b c d) ∧
    ((a = c ∨ b ≥ d) → (minVersion v w = some true ↔ NotOlder a b c d)) ∧
    (minVersion v w = some true ∨ minVersion v w = some false) := by
  rw [C43_decides v w a b c d hv hw ha hb hc hd]
  unfold NotOlder
  refine ⟨?_, ?_, ?_⟩
  · intro h; simp at h; omega
  · intro h; simp; omega
  · by_cases h : c ≤ a ∧ d ≤ b <;> simp [h]

/-- C43 is false of the code: version 1.0 does not pass a gate for 0.7. -/
theorem C43_newer_rejected : NotOlder 1 0 0 7 ∧ VersionText (S "v1.0.0") 1 0 ∧ VersionText (S "v0.7.0") 0 7 ∧
    minVersion (S "v1.0.0") (S "v0.7.0") = some false := by
  refine ⟨.inl (by decide), ?_, ?_, by decide +kernel⟩
  · exact .full (S "v") (S ".0") 1 0 (.inr rfl) (.inr rfl)
  · exact .full (S "v") (S ".0") 0 7 (.inr rfl) (.inr rfl)

example : VersionText (S "v0.31.2") 0 31 ∧ minVersion (S "v0.31.2") (S "v0.7") = some true := by
  exact ⟨.full (S "v") (S ".2") 0 31 (.inr rfl) (.inr rfl), by decide +kernel⟩

/-! ## C44: the type helpers -/

theorem head_eq {n : Str} {a b : Char} {x : Str} (h : n = a :: x) (h' : n.head? = some b) : a = b := by
  subst h; simpa using h'

theorem mapParts_map {k v : Str} (hk : ',' ∉ k) :
    mapParts (S "map<" ++ k ++ S "," ++ v ++ S ">") = some (S "map<" ++ k, v ++ S ">") := by
  unfold mapParts
  have hc : cut (S ",") (S "map<" ++ k ++ S "," ++ v ++ S ">") = some (S "map<" ++ k, v ++ S ">") := by
    have hs : S "," = [','] := rfl
    rw [hs]
    refine cut_char.2 ⟨?_, by simp⟩
    have hm : ',' ∉ S "map<" := by decide
    simp [hm, hk]
  rw [hc]
  dsimp only
  rw [if_pos]
  simp [hasPrefix, hasSuffix, List.isPrefixOf_iff_prefix, List.isSuffixOf_iff_suffix]

theorem mapParts_prefix {s : Str} (h : mapParts s ≠ none) : S "map<" <+: s := by
  unfold mapParts at h
  cases hc : cut (S ",") s with
  | none => rw [hc] at h; exact absurd rfl h
  | some x =>
    obtain ⟨a, b⟩ := x
    rw [hc] at h
    dsimp only at h
    split at h
    · rename_i hp
      simp only [hasPrefix, Bool.and_eq_true, List.isPrefixOf_iff_prefix] at hp
      rw [cut_some hc, List.append_assoc]
      exact hp.1.trans (List.prefix_append _ _)
    · exact absurd rfl h

/-- Which form a type expression has, and what its parts are written like. -/
structure HelpersAgree [GoUnicode] (ts : List TypeDecl) (t : Ty) (vt : VarType) : Prop where
  core : isCoreType (.varType vt) = some true ↔ ∃ n, t = .scalar n
  list : isListType (.varType vt) = some true ↔ ∃ e, t = .list e
  map : isMapType (.varType vt) = some true ↔ ∃ k v, t = .map k v
  struct : isStructType (.varType vt) = true ↔
    ∃ n d, t = .named n ∧ FirstDecl ts (fun d => d.name = n) d ∧ d.kind = S "struct"
  enum : isEnumType ts (.varType vt) = some true ↔
    ∃ n d, t = .named n ∧ FirstDecl ts (fun d => d.name = n) d ∧ d.kind = S "enum"
  alias : isAliasType (.varType vt) = true ↔
    ∃ n d, t = .named n ∧ FirstDecl ts (fun d => d.name = n) d ∧ d.kind = S "alias"
  noPanic : isCoreType (.varType vt) ≠ none ∧ isListType (.varType vt) ≠ none ∧ isMapType (.varType vt) ≠ none ∧
    isEnumType ts (.varType vt) ≠ none

theorem scalar_facts : ∀ p ∈ scalarNames, hasPrefix p.1 (S "[]") = false ∧ mapParts p.1 = none ∧
    (coreFromString p.1).isSome = true ∧ p.2 ≠ .struct ∧ p.2 ≠ .enum ∧ p.2 ≠ .alias := by decide +kernel

theorem firstDecl_mem {ts : List TypeDecl} {p : TypeDecl → Prop} {d : TypeDecl} (h : FirstDecl ts p d) : d ∈ ts ∧ p d := by
  obtain ⟨l, r, rfl, hp, _⟩ := h; simp [hp]

theorem reserved_list : ∀ n ∈ reserved, S "[]" <+: n → n = S "[]" := by decide +kernel
theorem reserved_map : ∀ n ∈ reserved, ¬ S "map<" <+: n := by decide +kernel
theorem scalar_ne : ∀ p ∈ scalarNames, p.1 ≠ [] := by decide +kernel

theorem text_ne_nil [GoUnicode] {ts : List TypeDecl} {t : Ty} {vt : VarType} (h : Denotes ts t vt) (hc : t.Complete) :
    t.text ≠ [] := by
  cases h with
  | omitted => exact hc.elim
  | scalar hn => exact scalar_ne _ hn
  | list h => simp [Ty.text, S]
  | map => simp [Ty.text, S]
  | named hp => exact hp.1

/-- C44: on the tree of a complete type expression exactly one of the six predicates holds, the one for its
form, and none of them panics. -/
theorem C44_predicates [GoUnicode] (ts : List TypeDecl) (hptr : OneTypePerPtr ts) (t : Ty) (vt : VarType)
    (h : Denotes ts t vt) (hc : t.Complete) : HelpersAgree ts t vt := by
  have hexpr : toStr (.varType vt) = some t.text := by
    show some vt.expr = _; rw [denotes_expr h]
  have key : ∀ (a b c s e l : Bool), (coreFromString t.text).isSome = a → hasPrefix t.text (S "[]") = b →
      (mapParts t.text).isSome = c → isStructType (.varType vt) = s → isEnumType ts (.varType vt) = some e →
      isAliasType (.varType vt) = l →
      ((a = true ↔ ∃ n, t = .scalar n) ∧ (b = true ↔ ∃ e, t = .list e) ∧ (c = true ↔ ∃ k v, t = .map k v) ∧
       (s = true ↔ ∃ n d, t = .named n ∧ FirstDecl ts (fun d => d.name = n) d ∧ d.kind = S "struct") ∧
       (e = true ↔ ∃ n d, t = .named n ∧ FirstDecl ts (fun d => d.name = n) d ∧ d.kind = S "enum") ∧
       (l = true ↔ ∃ n d, t = .named n ∧ FirstDecl ts (fun d => d.name = n) d ∧ d.kind = S "alias")) →
      HelpersAgree ts t vt := by
    intro a b c s e l h1 h2 h3 h4 h5 h6 ⟨k1, k2, k3, k4, k5, k6⟩
    refine ⟨?_, ?_, ?_, ?_, ?_, ?_, ?_⟩
    · unfold isCoreType; rw [hexpr]; simp [h1, k1]
    · unfold isListType; rw [hexpr]; simp [h2, k2]
    · unfold isMapType; rw [hexpr]; simp [h3, k3]
    · rw [h4, k4]
    · rw [h5]; simp [k5]
    · rw [h6, k6]
    · unfold isCoreType isListType isMapType; rw [hexpr, h5]; simp
  cases h with
  | omitted => exact hc.elim
  | scalar hn =>
    obtain ⟨f1, f2, f3, f4, f5, f6⟩ := scalar_facts _ hn
    refine key true false false false false false f3 f1 (by simp only [Ty.text]; rw [f2]; rfl) (by simp [isStructType, VarType.type, f4])
      (by simp [isEnumType, VarType.type, f5]) (by simp [isAliasType, VarType.type, f6]) ?_
    simp
  | @list t vt h =>
    refine key false true false false false false ?_ (by simp [hasPrefix, Ty.text, List.isPrefixOf_iff_prefix]) ?_ rfl rfl rfl (by simp)
    · have : coreFromString (Ty.list t).text = none := by
        rw [coreFromString_none]
        intro hm
        have := reserved_list _ hm (by simp [Ty.text])
        simp [Ty.text] at this
        exact text_ne_nil h hc this
      rw [this]; rfl
    · cases hm : mapParts (Ty.list t).text with
      | none => rfl
      | some x =>
        obtain ⟨y, hy⟩ := mapParts_prefix (s := (Ty.list t).text) (by rw [hm]; simp)
        exact absurd hy (by simp [Ty.text, S])
  | @map k v kt vt hk hkt h =>
    refine key false false true false false false ?_ ?_ ?_ rfl rfl rfl (by simp)
    · have : coreFromString (Ty.map k v).text = none := by
        rw [coreFromString_none]
        exact fun hm => reserved_map _ hm (by simp [Ty.text])
      rw [this]; rfl
    · rw [Bool.eq_false_iff]
      intro hp
      rw [hasPrefix, List.isPrefixOf_iff_prefix] at hp
      obtain ⟨y, hy⟩ := hp
      exact absurd hy (by simp [Ty.text, S])
    · simp only [Ty.text]; rw [mapParts_map hk]; rfl
  | @named n d vt hp hd hr =>
    obtain ⟨p1, p2, p3, p4⟩ := hp
    have hdm := (firstDecl_mem hd).1
    have hderef : deref ts d.ptr = some d := by
      rw [deref_iff]
      obtain ⟨l, r, hlr, _⟩ := List.append_of_mem hdm |>.elim fun l h => h.elim fun r h => (⟨l, r, h, trivial⟩ : ∃ l r, ts = l ++ d :: r ∧ True)
      have : ∀ (l r : List TypeDecl), ts = l ++ d :: r → Declares ts d.ptr d := by
        intro l
        induction hl : l.length using Nat.strongRecOn generalizing l with
        | _ m ih =>
          intro r h
          by_cases hex : ∃ x ∈ l, x.ptr = d.ptr
          · obtain ⟨x, hx, hxp⟩ := hex
            have hxd : x = d := hptr x (by rw [h]; simp [hx]) d hdm hxp
            subst hxd
            obtain ⟨l1, l2, hl12⟩ := List.append_of_mem hx
            exact ih l1.length (by rw [← hl, hl12]; simp) l1 rfl (l2 ++ x :: r) (by rw [h, hl12]; simp)
          · exact ⟨l, r, h, rfl, fun x hx hxp => hex ⟨x, hx, hxp⟩⟩
      exact this l r hlr
    have hcore : (coreFromString (Ty.named n).text).isSome = false := by
      simp only [Ty.text]; rw [coreFromString_none.2 p2]; rfl
    have hlist : hasPrefix (Ty.named n).text (S "[]") = false := by
      rw [Bool.eq_false_iff]
      intro hp
      rw [hasPrefix, List.isPrefixOf_iff_prefix] at hp
      exact p3 hp
    have hmap : (mapParts (Ty.named n).text).isSome = false := by
      cases hm : mapParts (Ty.named n).text with
      | none => rfl
      | some x => exact absurd (mapParts_prefix (s := (Ty.named n).text) (by rw [hm]; simp)) p4
    have huniq : ∀ (k : Str), (∃ n' d', Ty.named n = .named n' ∧ FirstDecl ts (fun d => d.name = n') d' ∧ d'.kind = k) ↔
        d.kind = k := by
      intro k
      constructor
      · rintro ⟨n', d', h1, h2, h3⟩
        cases h1
        rw [firstDecl_unique hd h2]; exact h3
      · intro h; exact ⟨n, d, rfl, hd, h⟩
    rcases hr with ⟨hk, rfl⟩ | ⟨hk, rfl⟩ | ⟨hk, rfl⟩
    · refine key false false false true false false hcore hlist hmap rfl rfl rfl ?_
      simp only [huniq, hk]
      refine ⟨by simp, by simp, by simp, by simp, by decide, by decide⟩
    · refine key false false false false true false hcore hlist hmap rfl ?_ rfl ?_
      · simp [isEnumType, hderef, hk]
      · simp only [huniq, hk]
        refine ⟨by simp, by simp, by simp, by decide, by simp, by decide⟩
    · refine key false false false false false true hcore hlist hmap rfl rfl rfl ?_
      simp only [huniq, hk]
      refine ⟨by simp, by simp, by simp, by decide, by decide, by simp⟩

/-- C44: on the text of a map type the accessors give the text of its parts, on its tree too; on anything
else they panic. -/
theorem C44_map_parts [GoUnicode] (ts : List TypeDecl) (k : Str) (v : Ty) (vt : VarType) (h : Denotes ts (.map k v) vt) :
    mapKeyType (.str (Ty.map k v).text) = some k ∧ mapValueType (.str (Ty.map k v).text) = some v.text ∧
    mapKeyType (.varType vt) = some k ∧ mapValueType (.varType vt) = some v.text := by
  cases h with
  | @map _ _ kt vt hk hkt h =>
    have h1 := mapParts_map (v := v.text) hk
    have h2 : trimPrefix (S "map<" ++ k) (S "map<") = k := trimPrefix_append _ _
    have h3 : trimSuffix (v.text ++ S ">") (S ">") = v.text := trimSuffix_append _ _
    refine ⟨?_, ?_, ?_, ?_⟩
    · simp only [mapKeyType, toStr, Ty.text, h1, Option.map_some, h2]
    · simp only [mapValueType, toStr, Ty.text, h1, Option.map_some, h3]
    · simp only [mapKeyType, keyTree_expr hkt]
    · simp only [mapValueType, toStr, VarType.expr, Ty.text, h1, Option.map_some, h3]

/-- C44: the element type of a list, on its text and on its tree. -/
theorem C44_list_elem [GoUnicode] (ts : List TypeDecl) (e : Ty) (vt : VarType) (h : Denotes ts (.list e) vt) :
    listElemType (.str (Ty.list e).text) = some (.str e.text) ∧
    ∃ el, listElemType (.varType vt) = some (.varType el) ∧ Denotes ts e el := by
  cases h with
  | @list _ el h =>
    refine ⟨?_, el, rfl, h⟩
    simp only [listElemType, toStr, Ty.text]
    rw [if_pos (by simp [hasPrefix, List.isPrefixOf_iff_prefix]), trimPrefix_append]

theorem varType_text [GoUnicode] {ts : List TypeDecl} {t : Ty} {vt : VarType} (h : Denotes ts t vt) :
    toStr (.varType vt) = some t.text := by show some vt.expr = _; rw [denotes_expr h]

/-- C44: on a complete type that is no map (no list) the accessors panic instead of giving an answer. -/
theorem C44_wrong_form [GoUnicode] (ts : List TypeDecl) (hptr : OneTypePerPtr ts) (t : Ty) (vt : VarType)
    (h : Denotes ts t vt) (hc : t.Complete) :
    ((∀ k v, t ≠ .map k v) → mapKeyType (.varType vt) = none ∧ mapValueType (.varType vt) = none ∧
      mapKeyType (.str t.text) = none ∧ mapValueType (.str t.text) = none) ∧
    ((∀ e, t ≠ .list e) → listElemType (.varType vt) = none ∧ listElemType (.str t.text) = none) := by
  have ha := C44_predicates ts hptr t vt h hc
  have hx := varType_text h
  constructor
  · intro hm
    have hp : mapParts t.text = none := by
      cases hp : mapParts t.text with
      | none => rfl
      | some x =>
        obtain ⟨k, v, he⟩ := ha.map.1 (by unfold isMapType; rw [hx]; simp [hp])
        exact absurd he (hm k v)
    refine ⟨?_, ?_, ?_, ?_⟩
    · cases h with
      | map => exact absurd rfl (hm _ _)
      | named _ _ hr => rcases hr with ⟨_, rfl⟩ | ⟨_, rfl⟩ | ⟨_, rfl⟩ <;> rfl
      | _ => rfl
    · unfold mapValueType; rw [hx]; simp [hp]
    · simp [mapKeyType, toStr, hp]
    · simp [mapValueType, toStr, hp]
  · intro hl
    have hp : hasPrefix t.text (S "[]") = false := by
      cases hp : hasPrefix t.text (S "[]") with
      | false => rfl
      | true =>
        obtain ⟨e, he⟩ := ha.list.1 (by unfold isListType; rw [hx]; simp [hp])
        exact absurd he (hl e)
    refine ⟨?_, ?_⟩
    · cases h with
      | list => exact absurd rfl (hl _)
      | named _ _ hr => rcases hr with ⟨_, rfl⟩ | ⟨_, rfl⟩ | ⟨_, rfl⟩ <;> rfl
      | _ => rfl
    · simp [listElemType, toStr, hp]

/-- C44: the key of a map may be an alias for an enum; its node satisfies none of the predicates. -/
theorem C44_alias_key : let _ := asciiOnly
    ∃ (ts : List TypeDecl) (k vt : VarType) (e : Str), parseExpr ts (S "map<Key,string>") = .ok vt ∧ vt = .map e k (.leaf (S "string") .string) ∧
      isCoreType (.varType k) = some false ∧ isListType (.varType k) = some false ∧ isMapType (.varType k) = some false ∧
      isStructType (.varType k) = false ∧ isEnumType ts (.varType k) = some false ∧ isAliasType (.varType k) = false := by
  let _ := asciiOnly
  refine ⟨[{ ptr := ⟨[], 1⟩, kind := S "enum", name := S "Color", type := some (.leaf (S "uint8") .uint8) },
    { ptr := ⟨[], 2⟩, kind := S "alias", name := S "Key", type := some (.enum (S "Color") (S "Color") ⟨[], 1⟩) }],
    .enum (S "Key") (S "Key") ⟨[], 2⟩, _, S "map<Key,string>", ?_, rfl, ?_, ?_, ?_, rfl, ?_, rfl⟩ <;> decide +kernel

example : let _ := asciiOnly
    ∃ (ts : List TypeDecl) (vt : VarType), OneTypePerPtr ts ∧
      Denotes ts (.map (S "string") (.list (.named (S "User")))) vt ∧ (Ty.map (S "string") (.list (.named (S "User")))).Complete := by
  let _ := asciiOnly
  let d : TypeDecl := { ptr := ⟨[], 1⟩, kind := S "struct", name := S "User" }
  refine ⟨[d], _, ?_, .map (kt := .leaf (S "string") .string) (by decide) (.inl ⟨by decide, _, ?_, rfl⟩)
    (.list (.named (d := d) (vt := .struct (S "User") (S "User") ⟨[], 1⟩) ?_ ⟨[], [], rfl, rfl, by simp⟩ (.inl ⟨rfl, rfl⟩))), trivial⟩
  · intro t ht u hu _
    rw [List.mem_singleton.1 ht, List.mem_singleton.1 hu]
  · decide
  · unfold Plain; decide

/-! ## C46: list, dictionary and string helpers -/

/-- C46: the first element, or an error if there is none. -/
theorem C46_first (xs : List Val) (ss : List Str) :
    (∀ (a : Val) (r : List Val), xs = a :: r → first (.arr xs) = some (.ok a)) ∧
    (∀ (a : Str) (r : List Str), ss = a :: r → first (.strs ss) = some (.ok (.str a))) ∧
    first (.arr []) = some (.error ()) ∧ first (.strs []) = some (.error ()) := by
  refine ⟨?_, ?_, rfl, rfl⟩ <;> (rintro a r rfl; rfl)

/-- C46: the last element, or an error if there is none; it is the one at `lastIndex`. -/
theorem C46_last (xs : List Val) :
    (∀ (a : Val) (r : List Val), xs = r ++ [a] → last (.arr xs) = some (.ok a)) ∧
    last (.arr []) = some (.error ()) ∧
    (∀ (v : Val), last (.arr xs) = some (.ok v) → ∃ i : Nat, lastIndex (.arr xs) = some (i : Int) ∧ xs[i]? = some v) ∧
    (lastIndex (.arr xs) = some (-1) ↔ xs = []) := by
  refine ⟨?_, rfl, ?_, ?_⟩
  · rintro a r rfl; simp [last]
  · intro v h
    unfold last at h
    cases hl : xs.getLast? with
    | none => simp [hl] at h
    | some w =>
      simp [hl] at h
      subst h
      rw [List.getLast?_eq_getElem?] at hl
      have hx : xs ≠ [] := by rintro rfl; simp at hl
      have := List.length_pos_iff.2 hx
      refine ⟨xs.length - 1, ?_, hl⟩
      simp only [lastIndex]
      congr 1
      omega
  · simp only [lastIndex]
    constructor
    · intro h
      have h := Option.some.inj h
      have : xs.length = 0 := by omega
      exact List.length_eq_zero_iff.1 this
    · rintro rfl; rfl

/-- C46: `in` is membership. -/
theorem C46_in (x : Val) (vs : List Val) : inFn x vs = true ↔ x ∈ vs := by
  induction vs with
  | nil => simp [inFn]
  | cons v vs ih =>
    unfold inFn
    by_cases h : x = v <;> simp [h, ih]

theorem isEmpty_iff (v : Val) : isEmpty v = true ↔ Empty v := by
  constructor
  · intro h
    match v, h with
    | .nil, _ => exact .nil
    | .bool false, _ => exact .false
    | .int i, h => simp [isEmpty] at h; subst h; exact .zero
    | .str s, h => simp [isEmpty] at h; subst h; exact .str
    | .nilVarType, _ => exact .varType
  · intro h; cases h <;> rfl

/-- C46: `coalesce` gives the first value that is not empty, or the empty string. -/
theorem C46_coalesce (vs : List Val) :
    (∀ (before after : List Val) (v : Val), vs = before ++ v :: after → (∀ x ∈ before, Empty x) → ¬ Empty v →
      coalesce vs = v) ∧
    ((∀ x ∈ vs, Empty x) → coalesce vs = .str []) := by
  constructor
  · rintro before after v rfl hb hv
    induction before with
    | nil =>
      have : isEmpty v = false := by rw [Bool.eq_false_iff]; exact fun h => hv ((isEmpty_iff v).1 h)
      simp [coalesce, this]
    | cons x r ih =>
      rw [List.cons_append, coalesce, if_pos ((isEmpty_iff x).2 (hb x (by simp)))]
      exact ih (fun y hy => hb y (by simp [hy]))
  · intro h
    induction vs with
    | nil => rfl
    | cons x r ih =>
      rw [coalesce, if_pos ((isEmpty_iff x).2 (h x (by simp)))]
      exact ih (fun y hy => h y (by simp [hy]))

/-- C46: `default` replaces empty values only. -/
theorem C46_default (v d : Val) : (Empty v → defaultFn v d = d) ∧ (¬ Empty v → defaultFn v d = v) := by
  unfold defaultFn
  constructor
  · intro h; rw [if_pos ((isEmpty_iff v).2 h)]
  · intro h; rw [if_neg (fun h' => h ((isEmpty_iff v).1 h'))]

/-- C46: `ternary` chooses; a condition that is neither a truth value nor its text panics. -/
theorem C46_ternary (x y : Val) :
    ternary (.bool true) x y = some x ∧ ternary (.bool false) x y = some y ∧
    ternary (.str (S "true")) x y = some x ∧ ternary (.str (S "false")) x y = some y ∧
    ∀ s, s ≠ S "true" → s ≠ S "false" → ternary (.str s) x y = none := by
  refine ⟨rfl, rfl, rfl, rfl, ?_⟩
  intro s h1 h2
  unfold ternary Gen.toBool
  simp [h1, h2]

/-! ### Sorting -/

theorem strLt_iff (a b : Str) : strLt a b = true ↔ a < b := by
  induction a generalizing b with
  | nil =>
    cases b with
    | nil => simp [strLt]
    | cons d b => simp [strLt]
  | cons c a ih =>
    cases b with
    | nil => simp [strLt]
    | cons d b =>
      simp only [strLt, Bool.or_eq_true, decide_eq_true_eq, Bool.and_eq_true, beq_iff_eq, ih, List.cons_lt_cons_iff]
      rfl

theorem insertBy_perm (x : Str × Val) (l : List (Str × Val)) : List.Perm (insertBy x l) (x :: l) := by
  induction l with
  | nil => exact .refl _
  | cons y ys ih =>
    unfold insertBy
    split
    · exact (List.Perm.cons y ih).trans (.swap x y ys)
    · exact .refl _

theorem insertBy_sorted (x : Str × Val) (l : List (Str × Val)) (h : l.Pairwise fun a b => a.1 ≤ b.1) :
    (insertBy x l).Pairwise fun a b => a.1 ≤ b.1 := by
  induction l with
  | nil => simp [insertBy]
  | cons y ys ih =>
    rw [List.pairwise_cons] at h
    unfold insertBy
    split
    · rename_i hlt
      rw [List.pairwise_cons]
      refine ⟨?_, ih h.2⟩
      intro z hz
      rcases List.mem_cons.1 ((insertBy_perm x ys).mem_iff.1 hz) with rfl | hz
      · exact List.le_of_lt ((strLt_iff _ _).1 hlt)
      · exact h.1 z hz
    · rename_i hlt
      rw [List.pairwise_cons]
      have hxy : x.1 ≤ y.1 := by
        rw [← List.not_lt]; exact fun h' => hlt ((strLt_iff _ _).2 h')
      refine ⟨?_, List.pairwise_cons.2 h⟩
      intro z hz
      rcases List.mem_cons.1 hz with rfl | hz
      · exact hxy
      · exact List.le_trans hxy (h.1 z hz)

theorem mapM_keys {xs : List Val} {ks : List (Str × Val)}
    (h : xs.mapM (fun x => (toStr x).map (·, x)) = some ks) :
    ks.map (·.2) = xs ∧ ∀ k ∈ ks, toStr k.2 = some k.1 := by
  induction xs generalizing ks with
  | nil => simp at h; subst h; simp
  | cons x xs ih =>
    rw [List.mapM_cons] at h
    simp only [Option.bind_eq_bind, Option.bind_eq_some_iff, Option.map_eq_some_iff, Option.pure_def, Option.some.injEq] at h
    obtain ⟨k, ⟨s, hs, rfl⟩, ks', h1, rfl⟩ := h
    obtain ⟨h2, h3⟩ := ih h1
    refine ⟨by simp [h2], ?_⟩
    intro k hk
    rcases List.mem_cons.1 hk with rfl | hk
    · exact hs
    · exact h3 k hk

theorem foldr_insert (ks : List (Str × Val)) :
    List.Perm (ks.foldr insertBy []) ks ∧ (ks.foldr insertBy []).Pairwise fun a b => a.1 ≤ b.1 := by
  induction ks with
  | nil => exact ⟨.refl _, .nil⟩
  | cons k ks ih =>
    exact ⟨(insertBy_perm k _).trans (ih.1.cons k), insertBy_sorted k _ ih.2⟩

/-- C46: sorting gives the same elements, ordered by their text; it panics only on an element without one. -/
theorem C46_sort (xs : List Val) (hx : ∀ x ∈ xs, ∃ t, toStr x = some t) :
    ∃ ys, sortFn xs = some ys ∧ List.Perm ys xs ∧
      ys.Pairwise fun a b => ∀ s t, toStr a = some s → toStr b = some t → s ≤ t := by
  have hm : ∃ ks, xs.mapM (fun x => (toStr x).map (·, x)) = some ks := by
    induction xs with
    | nil => exact ⟨[], rfl⟩
    | cons x xs ih =>
      obtain ⟨ks, hks⟩ := ih (fun y hy => hx y (by simp [hy]))
      obtain ⟨t, ht⟩ := hx x (by simp)
      exact ⟨(t, x) :: ks, by rw [List.mapM_cons, ht, hks]; rfl⟩
  obtain ⟨ks, hks⟩ := hm
  match xs, hks with
  | [], _ => exact ⟨[], rfl, .refl _, .nil⟩
  | [x], _ => exact ⟨[x], rfl, .refl _, by simp⟩
  | x :: y :: r, hks =>
    obtain ⟨h1, h2⟩ := mapM_keys hks
    obtain ⟨h3, h4⟩ := foldr_insert ks
    refine ⟨(ks.foldr insertBy []).map (·.2), ?_, ?_, ?_⟩
    · show Option.map _ (List.mapM _ (x :: y :: r)) = _
      rw [hks]; rfl
    · rw [← h1]; exact h3.map _
    · rw [List.pairwise_map]
      refine List.Pairwise.imp_of_mem ?_ h4
      intro a b ha hb hab s t hs ht
      rw [h2 a (h3.mem_iff.1 ha)] at hs
      rw [h2 b (h3.mem_iff.1 hb)] at ht
      cases hs; cases ht; exact hab

example : sortFn [.str (S "b"), .str (S "a"), .varType (.leaf (S "B") .unknown)] =
    some [.varType (.leaf (S "B") .unknown), .str (S "a"), .str (S "b")] := rfl

/-! ### Dictionaries -/

theorem dictLoop_spec (m : List (Str × Val)) (ps : List Val) :
    (KeysAreStrings ps → ∃ m', dictLoop m ps = some m' ∧ ∀ k o, LastValue k ps o →
      m'.lookup k = match o with | some v => some v | none => m.lookup k) ∧
    (¬ KeysAreStrings ps → dictLoop m ps = none) := by
  induction hn : ps.length using Nat.strongRecOn generalizing m ps with
  | _ n ih =>
    match ps, hn with
    | [], _ =>
      refine ⟨fun _ => ⟨m, rfl, ?_⟩, fun h => absurd .nil h⟩
      intro k o h; cases h; rfl
    | [x], _ =>
      refine ⟨nofun, fun _ => rfl⟩
    | key :: v :: r, hn =>
      have hlt : r.length < n := by simp at hn; omega
      match key, hn with
      | .str s, hn =>
        obtain ⟨h1, h2⟩ := ih r.length hlt (mapSet s v m) r rfl
        refine ⟨?_, ?_⟩
        · intro h
          cases h with
          | pair _ _ _ h =>
            obtain ⟨m', h3, h4⟩ := h1 h
            refine ⟨m', h3, ?_⟩
            intro k o ho
            cases ho with
            | later _ _ w _ ho => exact h4 k _ ho
            | here _ _ ho =>
              have := h4 s _ ho
              rw [mapSet_lookup, if_pos rfl] at this
              exact this
            | other _ _ _ hne ho =>
              have := h4 k _ ho
              rw [mapSet_lookup, if_neg (fun h => hne (by rw [h]))] at this
              exact this
        · intro h
          exact h2 (fun h' => h (.pair _ _ _ h'))
      | .nil, _ | .bool _, _ | .int _, _ | .strs _, _ | .arr _, _ | .dict _, _ | .type _, _ | .varType _, _
      | .nilVarType, _ => exact ⟨nofun, fun _ => rfl⟩

theorem keys_even {ps : List Val} (h : KeysAreStrings ps) : ps.length % 2 = 0 := by
  induction h with
  | nil => rfl
  | pair k v r _ ih => simp only [List.length_cons]; omega

/-- C46: a dictionary is made from alternating string keys and values, the last value of a key counts, keys
that are not given are absent; every other argument list (odd, or with another key) panics. -/
theorem C46_dict (ps : List Val) :
    (KeysAreStrings ps → ∃ m, dict ps = some m ∧ ∀ k o, LastValue k ps o → m.lookup k = o) ∧
    (¬ KeysAreStrings ps → dict ps = none) := by
  obtain ⟨h1, h2⟩ := dictLoop_spec [] ps
  unfold dict
  constructor
  · intro h
    obtain ⟨m, h3, h4⟩ := h1 h
    refine ⟨m, ?_, ?_⟩
    · rw [if_neg (by have := keys_even h; omega), h3]
    · intro k o ho
      rw [h4 k o ho]
      cases o <;> rfl
  · intro h
    split
    · rfl
    · exact h2 h

/-- C46: each key has a last value or none. -/
theorem C46_dict_total (k : Str) (ps : List Val) (h : KeysAreStrings ps) : ∃ o, LastValue k ps o := by
  induction h with
  | nil => exact ⟨none, .nil⟩
  | pair s v r _ ih =>
    obtain ⟨o, ho⟩ := ih
    cases o with
    | some w => exact ⟨some w, .later _ _ _ _ ho⟩
    | none =>
      by_cases hs : s = k
      · subst hs; exact ⟨some v, .here _ _ ho⟩
      · exact ⟨none, .other _ _ _ (fun h => hs (by cases h; rfl)) ho⟩

/-- C46: `set`, `get` and `exists` behave like a finite map. -/
theorem C46_dict_laws (m : List (Str × Val)) (k k' : Str) (v : Val) :
    getFn (setFn m k v) (.str k) = some (.ok v) ∧
    (k' ≠ k → getFn (setFn m k v) (.str k') = getFn m (.str k')) ∧
    existsFn (setFn m k v) k = true ∧ (k' ≠ k → existsFn (setFn m k v) k' = existsFn m k') ∧
    (existsFn m k = true ↔ ∃ w, getFn m (.str k) = some (.ok w)) ∧
    (existsFn m k = false ↔ getFn m (.str k) = some (.error ())) := by
  unfold getFn existsFn setFn
  simp only [toStr, mapSet_lookup]
  refine ⟨by simp, ?_, by simp, ?_, ?_, ?_⟩
  · intro h; simp [h]
  · intro h; simp [h]
  · cases m.lookup k <;> simp
  · cases m.lookup k <;> simp

example : KeysAreStrings [.str (S "a"), .int 1, .str (S "a"), .int 2] ∧
    dict [.str (S "a"), .int 1, .str (S "a"), .int 2] = some [(S "a", .int 2)] := by
  exact ⟨.pair _ _ _ (.pair _ _ _ .nil), rfl⟩

/-! ### Splitting and joining -/

/-- C46: joining the parts of a split text gives the text back; no part contains the separator. -/
theorem C46_split_join (sep s : Str) :
    ∃ parts, splitFn sep s = .strs parts ∧ joinFn (.strs parts) sep = some s ∧
      (sep ≠ [] → parts ≠ [] ∧ ∀ p ∈ parts, ¬ sep <:+: p) := by
  refine ⟨split sep s, rfl, ?_, ?_⟩
  · simp [joinFn, join_split]
  · exact fun hs => ⟨split_ne_nil hs, fun p hp => split_free hs hp⟩

/-- C46: splitting a joined list at a character that does not occur in its elements gives the list back. -/
theorem C46_join_split (c : Char) (ps : List Str) (hne : ps ≠ []) (hc : ∀ p ∈ ps, c ∉ p) :
    ∃ s, joinFn (.strs ps) [c] = some s ∧ splitFn [c] s = .strs ps :=
  ⟨_, rfl, by rw [splitFn, split_join hne hc]⟩

/-- C46: joining values joins their texts. -/
theorem C46_join_values (xs : List Val) (sep : Str) (ts : List Str)
    (h : xs.length = ts.length ∧ ∀ (i : Nat) (x : Val) (t : Str), xs[i]? = some x → ts[i]? = some t → toStr x = some t) :
    joinFn (.arr xs) sep = joinFn (.strs ts) sep := by
  have : xs.mapM toStr = some ts := by
    induction xs generalizing ts with
    | nil =>
      have : ts = [] := List.length_eq_zero_iff.1 (by simpa using h.1.symm)
      subst this; rfl
    | cons x xs ih =>
      cases ts with
      | nil => simp at h
      | cons t ts =>
        rw [List.mapM_cons, h.2 0 x t rfl rfl,
          ih ts ⟨by simpa using h.1, fun i y u hy hu => h.2 (i + 1) y u (by simpa using hy) (by simpa using hu)⟩]
        rfl
  simp [joinFn, this]

/-! ## C47: lower-casing the first word -/

theorem upper_iff (c : Char) : isUpperAZ c = true ↔ Upper c := by
  unfold Upper isUpperAZ
  constructor
  · intro h
    simp only [Bool.and_eq_true, decide_eq_true_eq] at h
    have h1 : 65 ≤ c.toNat := h.1
    have h2 : c.toNat ≤ 90 := h.2
    have : c = Char.ofNat c.toNat := by simp
    rw [this]
    have key : ∀ n : Fin 26, Char.ofNat (n.val + 65) ∈ "ABCDEFGHIJKLMNOPQRSTUVWXYZ".toList := by decide
    have := key ⟨c.toNat - 65, by omega⟩
    simp only at this
    rwa [Nat.sub_add_cancel h1] at this
  · have key : ∀ c ∈ "ABCDEFGHIJKLMNOPQRSTUVWXYZ".toList, ('A' ≤ c && c ≤ 'Z') = true := by decide
    exact key c

theorem lower_iff (c : Char) : isLowerAZ c = true ↔ Lower c := by
  unfold Lower isLowerAZ
  constructor
  · intro h
    simp only [Bool.and_eq_true, decide_eq_true_eq] at h
    have h1 : 97 ≤ c.toNat := h.1
    have h2 : c.toNat ≤ 122 := h.2
    have : c = Char.ofNat c.toNat := by simp
    rw [this]
    have key : ∀ n : Fin 26, Char.ofNat (n.val + 97) ∈ "abcdefghijklmnopqrstuvwxyz".toList := by decide
    have := key ⟨c.toNat - 97, by omega⟩
    simp only at this
    rwa [Nat.sub_add_cancel h1] at this
  · have key : ∀ c ∈ "abcdefghijklmnopqrstuvwxyz".toList, ('a' ≤ c && c ≤ 'z') = true := by decide
    exact key c

theorem upper_not_lower {c : Char} (h : isUpperAZ c = true) : isLowerAZ c = false ∧ isDigit09 c = false := by
  have key : ∀ c ∈ "ABCDEFGHIJKLMNOPQRSTUVWXYZ".toList, isLowerAZ c = false ∧ isDigit09 c = false := by decide
  exact key c ((upper_iff c).1 h)

theorem lowerChar_upper [GoUnicode] {c : Char} (h : Upper c) : lowerChar c = lowered c := by
  have key : ∀ c ∈ "ABCDEFGHIJKLMNOPQRSTUVWXYZ".toList, c.toNat < 128 ∧ ('A' ≤ c ∧ c ≤ 'Z') ∧ Char.ofNat (c.toNat + 32) = lowered c := by
    decide
  obtain ⟨h0, h1, h2⟩ := key c h
  unfold lowerChar
  rw [if_pos h0, if_pos h1, h2]

theorem lowerChar_other [GoUnicode] {c : Char} (h : (isLowerAZ c || isDigit09 c) = true) : lowerChar c = c := by
  have hn : c.toNat < 128 ∧ ¬ ('A' ≤ c ∧ c ≤ 'Z') := by
    simp only [isLowerAZ, isDigit09, Bool.or_eq_true, Bool.and_eq_true, decide_eq_true_eq] at h
    have e1 : ∀ d : Char, (d ≤ c) = (d.toNat ≤ c.toNat) := fun _ => rfl
    have e2 : ∀ d : Char, (c ≤ d) = (c.toNat ≤ d.toNat) := fun _ => rfl
    simp only [e1, e2] at *
    have a1 : 'a'.toNat = 97 := rfl
    have a2 : 'z'.toNat = 122 := rfl
    have a3 : '0'.toNat = 48 := rfl
    have a4 : '9'.toNat = 57 := rfl
    have a5 : 'A'.toNat = 65 := rfl
    have a6 : 'Z'.toNat = 90 := rfl
    omega
  unfold lowerChar
  rw [if_pos hn.1, if_neg hn.2]

theorem toLower_other [GoUnicode] {s : Str} (h : ∀ c ∈ s, (isLowerAZ c || isDigit09 c) = true) : toLower s = s := by
  unfold toLower
  conv => rhs; rw [← List.map_id s]
  exact List.map_congr_left fun c hc => lowerChar_other (h c hc)

theorem toLower_upper [GoUnicode] {s : Str} (h : ∀ c ∈ s, Upper c) : toLower s = s.map lowered :=
  List.map_congr_left fun c hc => lowerChar_upper (h c hc)

theorem twoLower_iff (r : Str) : ((r[0]?).any isLowerAZ = true ∧ (r[1]?).any isLowerAZ = true) ↔ TwoLower r := by
  constructor
  · rintro ⟨h1, h2⟩
    match r, h1, h2 with
    | a :: b :: r, h1, h2 =>
      exact ⟨a, b, r, rfl, (lower_iff a).1 (by simpa using h1), (lower_iff b).1 (by simpa using h2)⟩
  · rintro ⟨a, b, r, rfl, h1, h2⟩
    exact ⟨by simpa using (lower_iff a).2 h1, by simpa using (lower_iff b).2 h2⟩

/-- C47: `firstWordToLower` lowers exactly the upper-case letters of the first word. -/
theorem C47_first_word [GoUnicode] (s : Str) : FirstWord s (firstWordToLower s) := by
  cases s with
  | nil => exact .none [] (by simp)
  | cons c r =>
    unfold firstWordToLower
    dsimp only
    by_cases hl : isLowerAZ c = true
    · rw [if_pos hl]
      refine .none _ ?_
      intro d hd hu
      cases hd
      have := (upper_not_lower ((upper_iff c).2 hu)).1
      rw [hl] at this; cases this
    · rw [if_neg hl]
      by_cases hu : isUpperAZ c = true
      · -- the run of upper-case letters
        have hsplit := List.takeWhile_append_dropWhile (p := isUpperAZ) (l := c :: r)
        have huall : ∀ d ∈ (c :: r).takeWhile isUpperAZ, isUpperAZ d = true := fun d hd => by
          have := List.all_takeWhile (p := isUpperAZ) (l := c :: r)
          exact List.all_eq_true.1 this d hd
        have hune : (c :: r).takeWhile isUpperAZ ≠ [] := by simp [List.takeWhile_cons, hu]
        have hrest : ∀ d, ((c :: r).dropWhile isUpperAZ).head? = some d → ¬ Upper d := by
          intro d hd hup
          have := List.head?_dropWhile_not isUpperAZ (c :: r)
          rw [hd] at this
          simp only [Option.all_some] at this
          rw [(upper_iff d).2 hup] at this
          simp at this
        unfold firstWordLen
        dsimp only
        rw [if_pos hu]
        generalize hU : (c :: r).takeWhile isUpperAZ = u at hsplit huall hune
        generalize (c :: r).dropWhile isUpperAZ = t at hsplit hrest
        rw [← hsplit]
        have hg0 : (u ++ t)[u.length]? = t[0]? := by
          rw [List.getElem?_append_right (by omega)]; congr 1; omega
        have hg1 : (u ++ t)[u.length + 1]? = t[1]? := by
          rw [List.getElem?_append_right (by omega)]; congr 1; omega
        rw [hg0, hg1]
        by_cases hcond : u.length > 1 ∧ (t[0]?).any isLowerAZ = true ∧ (t[1]?).any isLowerAZ = true
        · rw [if_pos hcond]
          obtain ⟨v, d, rfl⟩ : ∃ v d, u = v ++ [d] := ⟨u.dropLast, u.getLast hune, (List.dropLast_concat_getLast hune).symm⟩
          have hd : isUpperAZ d = true := huall d (by simp)
          have hlen : (v ++ [d]).length - 1 = v.length := by simp
          rw [hlen]
          have hdrop : (v ++ [d] ++ t).drop v.length = d :: t := by simp
          rw [hdrop]
          have htw : (d :: t).takeWhile (fun c => isLowerAZ c || isDigit09 c) = [] := by
            simp [List.takeWhile_cons, upper_not_lower hd]
          rw [htw]
          have htake : (v ++ [d] ++ t).take (v.length + ([] : Str).length) = v := by simp
          have hdrop' : (v ++ [d] ++ t).drop (v.length + ([] : Str).length) = d :: t := by simp
          rw [htake, hdrop', List.append_assoc]
          have hvu : ∀ x ∈ v, Upper x := fun x hx => (upper_iff x).1 (huall x (by simp [hx]))
          rw [toLower_upper hvu]
          refine .acronym v t d ?_ hvu ((upper_iff d).1 hd) ((twoLower_iff t).1 hcond.2)
          rintro rfl; simp at hcond
        · rw [if_neg hcond]
          have hdrop : (u ++ t).drop u.length = t := by simp
          rw [hdrop]
          have htt := List.takeWhile_append_dropWhile (p := fun c => isLowerAZ c || isDigit09 c) (l := t)
          have hxall : ∀ d ∈ t.takeWhile (fun c => isLowerAZ c || isDigit09 c), (isLowerAZ d || isDigit09 d) = true := fun d hd => by
            have := List.all_takeWhile (p := fun c => isLowerAZ c || isDigit09 c) (l := t)
            exact List.all_eq_true.1 this d hd
          generalize t.takeWhile (fun c => isLowerAZ c || isDigit09 c) = x at htt hxall
          generalize t.dropWhile (fun c => isLowerAZ c || isDigit09 c) = y at htt
          have huu : ∀ z ∈ u, Upper z := fun z hz => (upper_iff z).1 (huall z hz)
          have h1 : (u ++ t).take (u.length + x.length) = u ++ x := by rw [← htt, List.take_length_add_append]; simp
          have h2 : (u ++ t).drop (u.length + x.length) = y := by rw [← htt, List.drop_length_add_append]; simp
          have h3 : toLower (u ++ x) = u.map lowered ++ x := by
            have : toLower (u ++ x) = toLower u ++ toLower x := by simp [toLower]
            rw [this, toLower_upper huu, toLower_other hxall]
          rw [h1, h2, h3, List.append_assoc, htt]
          refine .run u t hune huu hrest ?_
          rintro ⟨ha, hb⟩
          exact hcond ⟨by omega, (twoLower_iff t).2 hb⟩
      · unfold firstWordLen
        dsimp only
        rw [if_neg hu]
        have hn : FirstWord (c :: r) (c :: r) := by
          refine .none _ ?_
          intro d hd h
          cases hd
          exact hu ((upper_iff c).2 h)
        have hxall : ∀ d ∈ (c :: r).takeWhile (fun c => isLowerAZ c || isDigit09 c), (isLowerAZ d || isDigit09 d) = true := fun d hd => by
          have := List.all_takeWhile (p := fun c => isLowerAZ c || isDigit09 c) (l := c :: r)
          exact List.all_eq_true.1 this d hd
        have htake : (c :: r).take ((c :: r).takeWhile (fun c => isLowerAZ c || isDigit09 c)).length =
            (c :: r).takeWhile (fun c => isLowerAZ c || isDigit09 c) :=
          (List.prefix_iff_eq_take.1 (List.takeWhile_prefix _)).symm
        have : toLower ((c :: r).take ((c :: r).takeWhile (fun c => isLowerAZ c || isDigit09 c)).length) ++
            (c :: r).drop ((c :: r).takeWhile (fun c => isLowerAZ c || isDigit09 c)).length = c :: r := by
          conv => lhs; lhs; rw [htake, toLower_other hxall, ← htake]
          exact List.take_append_drop _ _
        rw [this]; exact hn

theorem lowered_not_upper {c : Char} (h : Upper c) : ¬ Upper (lowered c) := by
  have key : ∀ c ∈ "ABCDEFGHIJKLMNOPQRSTUVWXYZ".toList, lowered c ∉ "ABCDEFGHIJKLMNOPQRSTUVWXYZ".toList := by decide
  exact key c h

/-- C47: hence the length stays, and doing it twice is doing it once. -/
theorem C47_idempotent [GoUnicode] (s : Str) :
    (firstWordToLower s).length = s.length ∧ firstWordToLower (firstWordToLower s) = firstWordToLower s := by
  have h1 := C47_first_word s
  have hlen : (firstWordToLower s).length = s.length := by
    generalize firstWordToLower s = w at h1
    cases h1 <;> simp
  refine ⟨hlen, ?_⟩
  have hfix : ∀ w, (∀ c, w.head? = some c → ¬ Upper c) → firstWordToLower w = w := by
    intro w hw
    have h2 := C47_first_word w
    generalize firstWordToLower w = w' at h2
    cases h2 with
    | none _ _ => rfl
    | run u r hu hall _ _ =>
      cases u with
      | nil => exact absurd rfl hu
      | cons c u => exact absurd (hall c (by simp)) (hw c rfl)
    | acronym u r c hu hall _ _ =>
      cases u with
      | nil => exact absurd rfl hu
      | cons c u => exact absurd (hall c (by simp)) (hw c rfl)
  refine hfix _ ?_
  generalize firstWordToLower s = w at h1
  cases h1 with
  | none _ h => exact h
  | run u r hu hall _ _ =>
    cases u with
    | nil => exact absurd rfl hu
    | cons c u =>
      intro d hd
      cases hd
      exact lowered_not_upper (hall c (by simp))
  | acronym u r c hu hall _ _ =>
    cases u with
    | nil => exact absurd rfl hu
    | cons c u =>
      intro d hd
      cases hd
      exact lowered_not_upper (hall c (by simp))

example : let _ := asciiOnly
    firstWordToLower (S "HTTPServer") = S "httpServer" ∧ firstWordToLower (S "UserIDs") = S "userIDs" ∧
    firstWordToLower (S "IDs") = S "ids" := by decide +kernel

end Verif.Props
