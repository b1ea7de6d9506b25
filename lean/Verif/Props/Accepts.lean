import Verif.Spec.Accepts
import Verif.Props.BigNum
import Verif.Props.TypedCalls
import Verif.Json.Grammar
/-!
# Properties of decoding: what is accepted, and what can come out (C79)
-/

namespace Verif.Values
open Verif.Schema hiding Json Method
open Verif.Json Verif.Gen Verif.Rpc Verif.RpcSpec Verif.Props Verif.Spec

/-- Induction on JSON values. -/
theorem json_ind {P : Json → Prop} (null : P .null) (bool : ∀ b, P (.bool b)) (num : ∀ x, P (.num x)) (str : ∀ r, P (.str r))
    (arr : ∀ l, (∀ j ∈ l, P j) → P (.arr l)) (obj : ∀ l : List (Str × Json), (∀ p ∈ l, P p.2) → P (.obj l)) (j : Json) : P j := by
  refine Json.rec (motive_1 := P) (motive_2 := fun l => ∀ j ∈ l, P j) (motive_3 := fun l => ∀ p ∈ l, P p.2)
    (motive_4 := fun p => P p.2) null bool num str arr obj ?_ ?_ ?_ ?_ ?_ j
  · intro j hj; cases hj
  · intro j l h1 h2 x hx
    rcases List.mem_cons.1 hx with rfl | hx
    · exact h1
    · exact h2 x hx
  · intro j hj; cases hj
  · intro j l h1 h2 x hx
    rcases List.mem_cons.1 hx with rfl | hx
    · exact h1
    · exact h2 x hx
  · intro a b h; exact h

/-- JSON values that texts stand for. -/
inductive Proper : Json → Prop
  | null : Proper .null
  | bool (b : Bool) : Proper (.bool b)
  | num {x : Str} : NumText x → Proper (.num x)
  | str {raw s : Str} : Chars raw s → Proper (.str raw)
  | arr {l : List Json} : (∀ j ∈ l, Proper j) → Proper (.arr l)
  | obj {l : List (Str × Json)} : (∀ p ∈ l, Proper p.2) → Proper (.obj l)

theorem value_proper {t : Str} {j : Json} (h : ValueText t j) : Proper j := by
  refine ValueText.rec (motive_1 := fun _ j _ => Proper j) (motive_2 := fun _ l _ => ∀ j ∈ l, Proper j)
    (motive_3 := fun _ l _ => ∀ p ∈ l, Proper p.2) ?_ ?_ ?_ ?_ ?_ ?_ ?_ ?_ ?_ ?_ ?_ ?_ ?_ h
  · exact .null
  · exact .bool _
  · exact .bool _
  · intro t h; exact .num h
  · intro t s h; exact .str h
  · intro w _; exact .arr (fun _ h => nomatch h)
  · intro t l _ ih; exact .arr ih
  · intro w _; exact .obj (fun _ h => nomatch h)
  · intro t l _ ih; exact .obj ih
  · intro w t x j _ _ _ ih y hy
    rcases List.mem_cons.1 hy with rfl | hy
    · exact ih
    · cases hy
  · intro w t x j u l _ _ _ _ ih ih2 y hy
    rcases List.mem_cons.1 hy with rfl | hy
    · exact ih
    · exact ih2 y hy
  · intro w q k x y t z j _ _ _ _ _ _ ih p hp
    rcases List.mem_cons.1 hp with rfl | hp
    · exact ih
    · cases hp
  · intro w q k x y t z j u l _ _ _ _ _ _ _ ih ih2 p hp
    rcases List.mem_cons.1 hp with rfl | hp
    · exact ih
    · exact ih2 p hp

theorem text_proper {t : Str} {j : Json} (h : JsonText t j) : Proper j := by
  obtain ⟨_, _, _, -, -, h, -⟩ := h
  exact value_proper h

theorem cook_chars {raw s : Str} (h : Chars raw s) : cook raw = some s := by
  unfold cook
  rw [parseStr_complete h [] (raw.length + 2) (by omega)]

/-! ### Numbers -/

theorem pow63 : (2 : Int) ^ (64 - 1) = 9223372036854775808 := by decide

theorem atoi_iff (s : Str) (i : Int) : atoi s = some i ↔ IntegerText s i ∧ FitsSigned 64 i := by
  have hset := BigNum.setString_iff s i
  have hf : FitsSigned 64 i ↔ -9223372036854775808 ≤ i ∧ i < 9223372036854775808 := by
    unfold FitsSigned
    rw [pow63]
    constructor
    · rintro ⟨-, -, h⟩; exact h
    · intro h; exact ⟨by omega, by omega, h⟩
  rw [hf, ← hset]
  unfold atoi setString10
  by_cases hu : unsigned s = []
  · simp only [hu, if_true]
    constructor
    · intro h; cases h
    · rintro ⟨h, -⟩; cases h
  · simp only [hu, if_false]
    cases hdec : Compile.decimal? 0 (unsigned s) with
    | none => simp
    | some n =>
      dsimp only
      by_cases hm : s.head? = some '-'
      · simp only [hm, if_true, Option.some.injEq]
        split
        · simp only [Option.some.injEq]
          constructor
          · rintro rfl; exact ⟨rfl, by omega, by omega⟩
          · rintro ⟨h, -⟩; exact h
        · constructor
          · intro h; cases h
          · rintro ⟨h, h1, h2⟩; omega
      · simp only [hm, if_false, Option.some.injEq]
        split
        · simp only [Option.some.injEq]
          constructor
          · rintro rfl; exact ⟨rfl, by omega, by omega⟩
          · rintro ⟨h, -⟩; exact h
        · constructor
          · intro h; cases h
          · rintro ⟨h, h1, h2⟩; omega

theorem parseInt_iff (bits : Nat) (s : Str) (i : Int) :
    parseInt bits s = some i ↔ IntegerText s i ∧ FitsSigned 64 i ∧ -(2 ^ (bits - 1)) ≤ i ∧ i < 2 ^ (bits - 1) := by
  unfold parseInt
  rw [← and_assoc, ← atoi_iff]
  cases ha : atoi s with
  | none => simp
  | some k =>
    dsimp only
    split
    · rename_i h
      simp only [Option.some.injEq]
      constructor
      · rintro rfl; exact ⟨rfl, h⟩
      · exact fun h => h.1
    · rename_i h
      simp only [Option.some.injEq]
      constructor
      · intro h; cases h
      · rintro ⟨rfl, h'⟩; exact absurd h' h

theorem parseUint_iff (bits : Nat) (s : Str) (i : Int) :
    parseUint bits s = some i ↔ IntegerText s i ∧ s.head? ≠ some '-' ∧ s.head? ≠ some '+' ∧ i < 2 ^ bits := by
  unfold parseUint
  constructor
  · intro h
    split at h
    · cases h
    rename_i hne
    cases hd : Compile.decimal? 0 s with
    | none => rw [hd] at h; cases h
    | some n =>
      rw [hd] at h
      dsimp only at h
      split at h
      · rename_i hlt
        cases h
        obtain ⟨h1, rfl⟩ := BigNum.decimal_iff.1 hd
        have hh : ∀ c, c ∉ "0123456789".toList → s.head? ≠ some c := by
          intro c hc he
          cases s with
          | nil => cases he
          | cons a s =>
            rw [List.head?_cons] at he
            cases he
            exact hc (h1 _ List.mem_cons_self)
        refine ⟨.plain hne h1, hh _ (by decide), hh _ (by decide), ?_⟩
        exact_mod_cast hlt
      · cases h
  · rintro ⟨h, hm, hp, hlt⟩
    cases h with
    | plain hne hd =>
      rw [if_neg hne, BigNum.decimal_iff.2 ⟨hd, rfl⟩]
      dsimp only
      rw [if_pos (by exact_mod_cast hlt)]
    | plus => exact absurd rfl hp
    | minus => exact absurd rfl hm

theorem numText_head {x : Str} (h : NumText x) : x.head? ≠ some '+' ∧ x ≠ [] ∧ x.head? ≠ some '"' ∧ x ≠ S "null" := by
  have hx : ∃ c r, x = c :: r ∧ c ∈ "-0123456789".toList := by
    obtain ⟨sign, int, frac, exp, rfl, hs, hi, -, -⟩ := h.parts
    rcases hs with rfl | rfl
    · rcases hi with rfl | ⟨hne, hd, -⟩
      · exact ⟨'0', _, rfl, by decide⟩
      · cases int with
        | nil => exact absurd rfl hne
        | cons c int => exact ⟨c, _, rfl, List.mem_cons_of_mem _ (hd c List.mem_cons_self)⟩
    · exact ⟨'-', _, rfl, by decide⟩
  obtain ⟨c, r, rfl, hc⟩ := hx
  have : ∀ k, k ∉ "-0123456789".toList → c ≠ k := by rintro k hk rfl; exact hk hc
  refine ⟨?_, by simp, ?_, ?_⟩
  · rw [List.head?_cons]; intro h; exact this '+' (by decide) (Option.some.inj h)
  · rw [List.head?_cons]; intro h; exact this '"' (by decide) (Option.some.inj h)
  · intro h; rw [show S "null" = ['n', 'u', 'l', 'l'] from rfl] at h; cases h; exact this 'n' (by decide) rfl

theorem isSome_iff' {α : Type} {o : Option α} : o.isSome = true ↔ ∃ a, o = some a := Option.isSome_iff_exists

theorem big_num {x : Str} (h : NumText x) (old i : Int) : bigUnmarshalJSON old x = some i ↔ IntegerText x i := by
  obtain ⟨h1, h2, h3, h4⟩ := numText_head h
  rw [BigNum.C77_reads_json]
  constructor
  · rintro (⟨h | h, -⟩ | ⟨h, -⟩ | ⟨d, rfl, -⟩)
    · exact absurd h h2
    · exact absurd h h4
    · exact h
    · exact absurd rfl h3
  · intro h; exact Or.inr (Or.inl ⟨h, h1⟩)

theorem big_str (raw : Str) (old i : Int) : bigUnmarshalJSON old ('"' :: (raw ++ ['"'])) = some i ↔ IntegerText raw i := by
  rw [BigNum.C77_reads_json]
  constructor
  · rintro (⟨h | h, -⟩ | ⟨h, -⟩ | ⟨d, h, hd⟩)
    · cases h
    · cases h
    · have := (BigNum.integer_chars h).2 '"' List.mem_cons_self
      exact absurd this (by decide)
    · rw [List.cons.injEq] at h
      rwa [List.append_cancel_right h.2]
  · intro h; exact Or.inr (Or.inr ⟨raw, rfl, h⟩)

/-! ### Fields -/

theorem tag_unique {fs : List FieldDecl} (h : (fs.filterMap (·.tag)).Pairwise (· ≠ ·)) {f g : FieldDecl} {tag : Str}
    (hf : f ∈ fs) (hg : g ∈ fs) (h1 : f.tag = some tag) (h2 : g.tag = some tag) : f = g := by
  induction fs with
  | nil => cases hf
  | cons a fs ih =>
    have hnot : ∀ b ∈ fs, a.tag = some tag → b.tag ≠ some tag := by
      intro b hb ha hb'
      rw [List.filterMap_cons_some ha] at h
      exact (List.pairwise_cons.1 h).1 tag (List.mem_filterMap.2 ⟨b, hb, hb'⟩) rfl
    have htl : (fs.filterMap (·.tag)).Pairwise (· ≠ ·) := by
      cases ha : a.tag with
      | none => rwa [List.filterMap_cons_none ha] at h
      | some x => rw [List.filterMap_cons_some ha] at h; exact (List.pairwise_cons.1 h).2
    rcases List.mem_cons.1 hf with rfl | hf'
    · rcases List.mem_cons.1 hg with rfl | hg'
      · rfl
      · exact absurd h2 (hnot g hg' h1)
    · rcases List.mem_cons.1 hg with rfl | hg'
      · exact absurd h1 (hnot f hf' h2)
      · exact ih htl hf' hg'

/-- Splitting a list of fields at a tag. -/
theorem tags_split {fs : List FieldDecl} {a b : List Str} {tag : Str} (h : fs.filterMap (·.tag) = a ++ tag :: b) :
    ∃ pre f post, fs = pre ++ f :: post ∧ f.tag = some tag ∧ pre.filterMap (·.tag) = a := by
  induction fs generalizing a with
  | nil => rw [List.filterMap_nil] at h; cases a <;> cases h
  | cons g fs ih =>
    cases hg : g.tag with
    | none =>
      rw [List.filterMap_cons_none hg] at h
      obtain ⟨pre, f, post, rfl, h1, h2⟩ := ih h
      exact ⟨g :: pre, f, post, rfl, h1, by rw [List.filterMap_cons_none hg]; exact h2⟩
    | some t =>
      rw [List.filterMap_cons_some hg] at h
      cases a with
      | nil =>
        rw [List.nil_append] at h
        injection h with h1 h2
        subst h1
        exact ⟨[], g, fs, rfl, hg, rfl⟩
      | cons x a =>
        injection h with h1 h2
        subst h1
        obtain ⟨pre, f, post, rfl, h3, h4⟩ := ih h2
        exact ⟨g :: pre, f, post, rfl, h3, by rw [List.filterMap_cons_some hg, h4]⟩

theorem findIdx_tag {fs : List FieldDecl} {f : FieldDecl} {tag : Str} (hf : f ∈ fs) (ht : f.tag = some tag) :
    ∃ i g, fs.findIdx? (fun f => f.tag == some tag) = some i ∧ fs[i]? = some g ∧ g ∈ fs ∧ g.tag = some tag := by
  cases h : fs.findIdx? (fun f => f.tag == some tag) with
  | none =>
    rw [List.findIdx?_eq_none_iff] at h
    have := h f hf
    rw [ht] at this
    simp at this
  | some i =>
    rw [List.findIdx?_eq_some_iff_getElem] at h
    obtain ⟨hi, h1, -⟩ := h
    exact ⟨i, fs[i], rfl, List.getElem?_eq_getElem hi, List.getElem_mem hi, by simpa using h1⟩

theorem field_of {fs : List FieldDecl} (h : (fs.filterMap (·.tag)).Pairwise (· ≠ ·)) (key : Str) :
    (fieldIndex fs key = none ∧ ∀ f, ¬ FieldOf fs key f) ∨
    (∃ i f, fieldIndex fs key = some i ∧ fs[i]? = some f ∧ ∀ g, FieldOf fs key g ↔ g = f) := by
  unfold fieldIndex fieldFor
  by_cases hc : (fs.filterMap (·.tag)).contains key = true
  · right
    rw [if_pos hc]
    rw [List.contains_iff_mem, List.mem_filterMap] at hc
    obtain ⟨f, hf, ht⟩ := hc
    obtain ⟨i, g, h1, h2, h3, h4⟩ := findIdx_tag hf ht
    refine ⟨i, g, h1, h2, fun g' => ⟨?_, ?_⟩⟩
    · intro hg
      cases hg with
      | exact hm ht' => exact tag_unique h hm h3 ht' h4
      | folded hn => exact absurd h4 (hn g h3)
    · rintro rfl; exact .exact h3 h4
  · rw [if_neg hc]
    have hn : ∀ g ∈ fs, g.tag ≠ some key := by
      intro g hg ht
      exact hc (List.contains_iff_mem.2 (List.mem_filterMap.2 ⟨g, hg, ht⟩))
    cases hf : (fs.filterMap (·.tag)).find? (fun t => t.map foldChar == key.map foldChar) with
    | none =>
      left
      refine ⟨rfl, ?_⟩
      rw [List.find?_eq_none] at hf
      intro f hfo
      cases hfo with
      | exact hm ht => exact hn f hm ht
      | @folded pre post tag _ he ht hs _ =>
        have := hf tag (List.mem_filterMap.2 ⟨f, by rw [he]; exact List.mem_append_right _ List.mem_cons_self, ht⟩)
        exact this (by unfold SameFold at hs; simpa using hs)
    | some tag =>
      right
      rw [List.find?_eq_some_iff_append] at hf
      obtain ⟨hs, a, b, hab, hno⟩ := hf
      obtain ⟨pre, f, post, hfs, ht, hpre⟩ := tags_split hab
      have hfm : f ∈ fs := by rw [hfs]; exact List.mem_append_right _ List.mem_cons_self
      obtain ⟨i, g, h1, h2, h3, h4⟩ := findIdx_tag hfm ht
      have := tag_unique h h3 hfm h4 ht
      subst this
      have hsf : SameFold tag key := by unfold SameFold; simpa using hs
      have hbef : ∀ x ∈ pre, ∀ t, x.tag = some t → ¬ SameFold t key := by
        intro x hx t hxt hsame
        have := hno t (by rw [← hpre]; exact List.mem_filterMap.2 ⟨x, hx, hxt⟩)
        rw [Bool.not_eq_true', beq_eq_false_iff_ne] at this
        exact this hsame
      refine ⟨i, g, h1, h2, fun g' => ⟨?_, ?_⟩⟩
      · intro hg
        cases hg with
        | exact hm ht' => exact absurd ht' (hn g' hm)
        | @folded pre' post' tag' _ he ht' hs' hb' =>
          rw [hfs, List.append_eq_append_iff] at he
          rcases he with ⟨c, hc1, hc2⟩ | ⟨c, hc1, hc2⟩
          · cases c with
            | nil => injection hc2 with e _; exact e.symm
            | cons x c =>
              injection hc2 with e _
              subst e
              exact absurd hsf (hb' g (by rw [hc1]; exact List.mem_append_right _ List.mem_cons_self) tag ht)
          · cases c with
            | nil => injection hc2 with e _
            | cons x c =>
              injection hc2 with e _
              subst e
              exact absurd hs' (hbef g' (by rw [hc1]; exact List.mem_append_right _ List.mem_cons_self) tag' ht')
      · rintro rfl; exact .folded hn hfs ht hsf hbef

/-! ### Acceptance -/

variable [GoFloat]

theorem base_not_ptr (t s : GoType) : base t ≠ .ptr s := by
  induction t with
  | ptr t ih => rw [base]; exact ih
  | _ => intro h; cases h

theorem accepts_base {d : Decls} (t : GoType) {j : Json} : Accepts d t j ↔ Accepts d (base t) j := by
  induction t with
  | ptr t ih =>
    rw [base, ← ih]
    constructor
    · intro h
      cases h with
      | null => exact .null _
      | ptr h => exact h
    · exact .ptr
  | _ => exact Iff.rfl

theorem isSome_map {α β : Type} {o : Option α} {f : α → β} : (o.map f).isSome = o.isSome := by cases o <;> rfl

theorem norm_isSome {b : Nat} {x : Str} : (GoFloat.norm b x).isSome = true ↔ GoFloat.norm b x ≠ none := by
  cases GoFloat.norm b x <;> simp

theorem decAny_iff {j : Json} (h : Proper j) : (decodeAny j).isSome = true ↔ AnyJson j := by
  induction h with
  | null => exact ⟨fun _ => .null, fun _ => rfl⟩
  | bool b => exact ⟨fun _ => .bool b, fun _ => rfl⟩
  | num hx =>
    rw [decodeAny, isSome_map, norm_isSome]
    exact ⟨.num, fun h => by cases h; assumption⟩
  | str hs => rw [decodeAny, cook_chars hs]; exact ⟨fun _ => .str _, fun _ => rfl⟩
  | @arr l _ ih =>
    rw [decodeAny, isSome_map]
    have : (decodeAnys l).isSome = true ↔ ∀ j ∈ l, AnyJson j := by
      rename_i hall
      clear hall
      induction l with
      | nil => rw [decodeAnys]; simp
      | cons j l ihl =>
        have h1 := ih j List.mem_cons_self
        have h2 := ihl (fun j hj => ih j (List.mem_cons_of_mem _ hj))
        rw [decodeAnys, List.forall_mem_cons, ← h1, ← h2]
        cases decodeAny j <;> cases decodeAnys l <;> simp
    rw [this]
    exact ⟨.arr, fun h => by cases h; assumption⟩
  | @obj l _ ih =>
    rw [decodeAny, isSome_map]
    have : ∀ m, (decodeAnyMembers m l).isSome = true ↔ ∀ p ∈ l, AnyJson p.2 := by
      rename_i hall
      clear hall
      induction l with
      | nil => intro m; rw [decodeAnyMembers]; simp
      | cons p l ihl =>
        intro m
        obtain ⟨k, j⟩ := p
        have h1 := ih (k, j) List.mem_cons_self
        have h2 := ihl (fun j hj => ih j (List.mem_cons_of_mem _ hj))
        rw [decodeAnyMembers, List.forall_mem_cons, ← h1]
        cases decodeAny j with
        | none => simp
        | some v => dsimp only; rw [h2]; simp
    rw [this]
    exact ⟨.obj, fun h => by cases h; assumption⟩

theorem decKey_iff (d : Decls) (k : KeyType) (s : Str) : (decKey d k s).isSome = true ↔ KeyText d k s := by
  cases k with
  | string => exact ⟨fun _ => .str s, fun _ => rfl⟩
  | int bits =>
    rw [decKey, isSome_map, isSome_iff']
    simp only [parseInt_iff]
    exact ⟨fun ⟨i, h1, h2, h3, h4⟩ => .int h1 h2 h3 h4, fun h => by cases h with | int h1 h2 h3 h4 => exact ⟨_, h1, h2, h3, h4⟩⟩
  | uint bits =>
    rw [decKey, isSome_map, isSome_iff']
    simp only [parseUint_iff]
    exact ⟨fun ⟨i, h1, h2, h3, h4⟩ => .uint h1 h2 h3 h4, fun h => by cases h with | uint h1 h2 h3 h4 => exact ⟨_, h1, h2, h3, h4⟩⟩
  | enum n => exact ⟨fun _ => .enum n s, fun _ => rfl⟩

theorem decNum_iff (d : Decls) {x : Str} (hx : NumText x) (old : GoVal) {t : GoType} (ht : ∀ s, t ≠ .ptr s) :
    (decNum old t x).isSome = true ↔ Accepts d t (.num x) := by
  cases t with
  | ptr s => exact absurd rfl (ht s)
  | int bits =>
    rw [decNum, isSome_map, isSome_iff']
    simp only [parseInt_iff]
    exact ⟨fun ⟨i, h1, h2, h3, h4⟩ => .int h1 h2 h3 h4, fun h => by cases h with | int h1 h2 h3 h4 => exact ⟨_, h1, h2, h3, h4⟩⟩
  | uint bits =>
    rw [decNum, isSome_map, isSome_iff']
    simp only [parseUint_iff]
    exact ⟨fun ⟨i, h1, h2, _, h4⟩ => .uint h1 h2 h4, fun h => by
      cases h with | uint h1 h2 h4 => exact ⟨_, h1, h2, (numText_head hx).1, h4⟩⟩
  | float bits =>
    rw [decNum, isSome_map, norm_isSome]
    exact ⟨.float, fun h => by cases h; assumption⟩
  | any =>
    rw [decNum, isSome_map, norm_isSome]
    exact ⟨fun h => .any (.num h), fun h => by cases h with | any h => cases h; assumption⟩
  | big =>
    rw [show decNum old .big x = (bigUnmarshalJSON (match old with | .big i => i | _ => 0) x).map .big from rfl, isSome_map, isSome_iff']
    simp only [big_num hx]
    exact ⟨fun ⟨i, h⟩ => .bigNum h, fun h => by cases h with | bigNum h => exact ⟨_, h⟩⟩
  | _ => exact ⟨fun h => (nomatch h), fun h => (nomatch h)⟩

theorem decString_iff (d : Decls) {raw s : Str} (hs : Chars raw s) (old : GoVal) {t : GoType} (ht : ∀ s, t ≠ .ptr s) :
    (decString d old t raw).isSome = true ↔ Accepts d t (.str raw) := by
  cases t with
  | ptr s => exact absurd rfl (ht s)
  | string => rw [decString, cook_chars hs]; exact ⟨fun _ => .str raw, fun _ => rfl⟩
  | any => rw [decString, cook_chars hs]; exact ⟨fun _ => .any (.str raw), fun _ => rfl⟩
  | enum n => rw [decString, cook_chars hs]; exact ⟨fun _ => .enum n raw, fun _ => rfl⟩
  | big =>
    rw [show decString d old .big raw = (bigUnmarshalJSON (match old with | .big i => i | _ => 0) ('"' :: (raw ++ ['"']))).map .big from rfl,
      isSome_map, isSome_iff']
    simp only [big_str]
    exact ⟨fun ⟨i, h⟩ => .bigStr h, fun h => by cases h with | bigStr h => exact ⟨_, h⟩⟩
  | _ => exact ⟨fun h => (nomatch h), fun h => (nomatch h)⟩

theorem decBool_iff (d : Decls) (b : Bool) {t : GoType} (ht : ∀ s, t ≠ .ptr s) :
    (decBool t b).isSome = true ↔ Accepts d t (.bool b) := by
  cases t with
  | ptr s => exact absurd rfl (ht s)
  | bool => exact ⟨fun _ => .bool b, fun _ => rfl⟩
  | any => exact ⟨fun _ => .any (.bool b), fun _ => rfl⟩
  | _ => exact ⟨fun h => (nomatch h), fun h => (nomatch h)⟩

theorem elems_accept {d : Decls} {t : GoType} {l : List Json}
    (ih : ∀ j ∈ l, ∀ t old, (decode d t old j).isSome = true ↔ Accepts d t j) (olds : List GoVal) :
    (decodeElems d t olds l).isSome = true ↔ ∀ j ∈ l, Accepts d t j := by
  induction l generalizing olds with
  | nil => rw [decodeElems]; simp
  | cons j l ihl =>
    have h1 := ih j List.mem_cons_self t (olds.head?.getD (zero t))
    have h2 := ihl (fun j hj => ih j (List.mem_cons_of_mem _ hj)) olds.tail
    rw [decodeElems, List.forall_mem_cons, ← h1, ← h2]
    cases decode d t (olds.head?.getD (zero t)) j <;> cases decodeElems d t olds.tail l <;> simp

theorem entries_accept {d : Decls} {k : KeyType} {t : GoType} {l : List (Str × Json)}
    (ih : ∀ p ∈ l, ∀ t old, (decode d t old p.2).isSome = true ↔ Accepts d t p.2) (m : List (Key × GoVal)) :
    (decodeEntries d k t m l).isSome = true ↔ (∀ p ∈ l, KeyText d k p.1) ∧ ∀ p ∈ l, Accepts d t p.2 := by
  induction l generalizing m with
  | nil => rw [decodeEntries]; simp
  | cons p l ihl =>
    obtain ⟨x, j⟩ := p
    have h1 := ih (x, j) List.mem_cons_self t (zero t)
    have h2 := ihl (fun j hj => ih j (List.mem_cons_of_mem _ hj))
    have h3 := decKey_iff d k x
    rw [decodeEntries, List.forall_mem_cons, List.forall_mem_cons, ← h1, ← h3]
    cases decKey d k x with
    | none => simp
    | some y =>
      cases decode d t (zero t) j with
      | none => simp
      | some v => dsimp only; rw [h2]; simp

theorem members_accept {d : Decls} {fs : List FieldDecl} (hfs : (fs.filterMap (·.tag)).Pairwise (· ≠ ·)) {l : List (Str × Json)}
    (ih : ∀ p ∈ l, ∀ t old, (decode d t old p.2).isSome = true ↔ Accepts d t p.2) (vals : List GoVal) :
    (decodeMembers d fs vals l).isSome = true ↔ ∀ p ∈ l, ∀ f, FieldOf fs p.1 f → Accepts d f.type p.2 := by
  induction l generalizing vals with
  | nil => rw [decodeMembers]; simp
  | cons p l ihl =>
    obtain ⟨key, j⟩ := p
    have h2 := ihl (fun j hj => ih j (List.mem_cons_of_mem _ hj))
    rw [decodeMembers, List.forall_mem_cons]
    rcases field_of hfs key with ⟨h3, h4⟩ | ⟨i, f, h3, h4, h5⟩
    · rw [h3]
      dsimp only
      rw [h2]
      exact ⟨fun h => ⟨fun f hf => absurd hf (h4 f), h⟩, fun h => h.2⟩
    · have h1 := ih (key, j) List.mem_cons_self f.type (vals[i]?.getD (zero f.type))
      rw [h3]
      dsimp only
      rw [h4]
      dsimp only
      have h6 : (∀ g, FieldOf fs key g → Accepts d g.type j) ↔ Accepts d f.type j :=
        ⟨fun h => h f ((h5 f).2 rfl), fun h g hg => by rw [(h5 g).1 hg]; exact h⟩
      rw [h6, ← h1]
      cases decode d f.type (vals[i]?.getD (zero f.type)) j with
      | none => simp
      | some v => dsimp only; rw [h2]; simp

theorem decode_accepts {d : Decls} (hd : WellDeclared d) {j : Json} (h : Proper j) :
    ∀ t old, (decode d t old j).isSome = true ↔ Accepts d t j := by
  induction h with
  | null => intro t old; rw [decode]; exact ⟨fun _ => .null t, fun _ => rfl⟩
  | bool b => intro t old; rw [decode, isSome_map, accepts_base]; exact decBool_iff d b (base_not_ptr t)
  | num hx => intro t old; rw [decode, isSome_map, accepts_base]; exact decNum_iff d hx _ (base_not_ptr t)
  | str hs => intro t old; rw [decode, isSome_map, accepts_base]; exact decString_iff d hs _ (base_not_ptr t)
  | @arr l hl ih =>
    intro t old
    rw [decode, accepts_base]
    have hp := base_not_ptr t
    generalize inside t old = o
    cases hb : base t with
    | list e =>
      dsimp only
      by_cases he : e = .uint 8
      · rw [if_pos he]
        constructor
        · intro h; cases h
        · intro h; cases h with | list h => exact absurd he h
      · rw [if_neg he, isSome_map, elems_accept ih]
        exact ⟨.list he, fun h => by cases h; assumption⟩
    | any =>
      dsimp only
      rw [isSome_map]
      have := decAny_iff (.arr hl)
      rw [decodeAny, isSome_map] at this
      rw [this]
      exact ⟨.any, fun h => by cases h; assumption⟩
    | ptr s => exact absurd hb (hp s)
    | _ => exact ⟨fun h => (nomatch h), fun h => (nomatch h)⟩
  | @obj l hl ih =>
    intro t old
    rw [decode, accepts_base]
    have hp := base_not_ptr t
    generalize inside t old = o
    cases hb : base t with
    | map k e =>
      dsimp only
      rw [isSome_map, entries_accept ih]
      exact ⟨fun h => .map h.1 h.2, fun h => by cases h with | map h1 h2 => exact ⟨h1, h2⟩⟩
    | ref n =>
      dsimp only
      rw [isSome_map, members_accept (hd.tags n) ih]
      exact ⟨.ref, fun h => by cases h; assumption⟩
    | any =>
      dsimp only
      rw [isSome_map]
      have := decAny_iff (.obj hl)
      rw [decodeAny, isSome_map] at this
      rw [this]
      exact ⟨.any, fun h => by cases h; assumption⟩
    | ptr s => exact absurd hb (hp s)
    | _ => exact ⟨fun h => (nomatch h), fun h => (nomatch h)⟩

theorem payload_accepts {d : Decls} (hd : WellDeclared d) {fs : List FieldDecl} (hfs : (fs.filterMap (·.tag)).Pairwise (· ≠ ·))
    {j : Json} (h : Proper j) : (decodePayload d fs j).isSome = true ↔ AcceptsPayload d fs j := by
  cases h with
  | null => exact ⟨fun _ => .null, fun _ => rfl⟩
  | obj hl =>
    rw [decodePayload, members_accept hfs (fun p hp => decode_accepts hd (hl p hp))]
    exact ⟨.obj, fun h => by cases h; assumption⟩
  | _ => exact ⟨fun h => (nomatch h), fun h => (nomatch h)⟩

/-! ### Type safety -/

theorem zero_typed (d : Decls) (t : GoType) : Typed d t (zero t) := by
  have hp : ∀ n : Nat, (0 : Int) < 2 ^ n := fun n => Int.pow_pos (by decide)
  cases t with
  | bool => exact .bool _
  | int bits => exact .int (by have := hp (bits - 1); omega) (hp _)
  | uint bits => exact .uint (by omega) (hp _)
  | float bits => exact .float (GoFloat.norm_zero bits)
  | string => exact .str _
  | big => exact .big _
  | any => exact .nil .any
  | enum n => exact .enum (Or.inl rfl)
  | ref n => exact .nil (.ref n)
  | ptr t => exact .nil (.ptr t)
  | list t => exact .nil (.list t)
  | map k t => exact .nil (.map k t)

theorem typedFields_iff {d : Decls} {fs : List FieldDecl} {l : List GoVal} :
    TypedFields d fs l ↔ l.length = fs.length ∧ ∀ (i : Nat) (f : FieldDecl) (v : GoVal), fs[i]? = some f → l[i]? = some v → Typed d f.type v := by
  constructor
  · intro h
    induction fs generalizing l with
    | nil => cases h; exact ⟨rfl, fun i f v h => by simp at h⟩
    | cons g fs ih =>
      cases h with
      | cons h1 h2 =>
        obtain ⟨h3, h4⟩ := ih h2
        refine ⟨by simp [h3], fun i f v hf hv => ?_⟩
        cases i with
        | zero =>
          rw [List.getElem?_cons_zero] at hf hv
          cases hf; cases hv; exact h1
        | succ i =>
          rw [List.getElem?_cons_succ] at hf hv
          exact h4 i f v hf hv
  · rintro ⟨h1, h2⟩
    induction fs generalizing l with
    | nil => cases l with
      | nil => exact .nil
      | cons => cases h1
    | cons g fs ih => cases l with
      | nil => cases h1
      | cons v l =>
        refine .cons (h2 0 g v rfl rfl) (ih (by simpa using h1) fun i f v hf hv => h2 (i + 1) f v ?_ ?_)
        · rw [List.getElem?_cons_succ]; exact hf
        · rw [List.getElem?_cons_succ]; exact hv

theorem zeros_typed (d : Decls) (fs : List FieldDecl) : TypedFields d fs (zeros fs) := by
  rw [typedFields_iff]
  unfold zeros
  refine ⟨by simp, fun i f v hf hv => ?_⟩
  rw [List.getElem?_map, hf] at hv
  cases hv
  exact zero_typed d _

theorem wrap_typed {d : Decls} {t : GoType} {v : GoVal} (h : Typed d (base t) v) : Typed d t (wrap t v) := by
  induction t with
  | ptr t ih => rw [wrap]; exact .ptr (ih h)
  | _ => exact h

theorem inside_typed {d : Decls} {t : GoType} {v : GoVal} (h : Typed d t v) : Typed d (base t) (inside t v) := by
  induction t generalizing v with
  | ptr t ih =>
    cases h with
    | nil => exact zero_typed d _
    | ptr h => exact ih h
  | _ => exact h

theorem ofNull_typed {d : Decls} {t : GoType} {v : GoVal} (h : Typed d t v) : Typed d t (ofNull t v) := by
  cases t with
  | any => exact .nil .any
  | ref n => exact .nil (.ref n)
  | ptr t => exact .nil (.ptr t)
  | list t => exact .nil (.list t)
  | map k t => exact .nil (.map k t)
  | _ => exact h

omit [GoFloat] in
theorem enumOf_in (l : List (Str × Nat)) (s : Str) : enumOf l s = 0 ∨ ∃ name, (name, enumOf l s) ∈ l := by
  unfold enumOf
  cases h : l.lookup s with
  | none => exact Or.inl rfl
  | some n => exact Or.inr ⟨s, lookup_mem h⟩

theorem decBool_typed {d : Decls} {t : GoType} {b : Bool} {v : GoVal} (h : decBool t b = some v) : Typed d t v := by
  cases t with
  | bool => cases h; exact .bool b
  | any => cases h; exact .dyn .bool (by intro h; cases h) (.bool b)
  | _ => cases h

theorem decNum_typed {d : Decls} {t : GoType} {x : Str} {old v : GoVal} (h : decNum old t x = some v) : Typed d t v := by
  cases t with
  | int bits =>
    rw [decNum, Option.map_eq_some_iff] at h
    obtain ⟨i, h, rfl⟩ := h
    obtain ⟨-, -, h1, h2⟩ := (parseInt_iff _ _ _).1 h
    exact .int h1 h2
  | uint bits =>
    rw [decNum, Option.map_eq_some_iff] at h
    obtain ⟨i, h, rfl⟩ := h
    obtain ⟨h0, h1, -, h2⟩ := (parseUint_iff _ _ _).1 h
    refine .uint ?_ h2
    cases h0 with
    | plain => omega
    | plus => omega
    | minus => exact absurd rfl h1
  | float bits =>
    rw [decNum, Option.map_eq_some_iff] at h
    obtain ⟨i, h, rfl⟩ := h
    exact .float (GoFloat.norm_idem h)
  | any =>
    rw [decNum, Option.map_eq_some_iff] at h
    obtain ⟨i, h, rfl⟩ := h
    exact .dyn .float (by intro h; cases h) (.float (GoFloat.norm_idem h))
  | big =>
    change Option.map GoVal.big _ = some v at h
    rw [Option.map_eq_some_iff] at h
    obtain ⟨i, h, rfl⟩ := h
    exact .big i
  | _ => cases h

theorem decString_typed {d : Decls} {t : GoType} {x : Str} {old v : GoVal} (h : decString d old t x = some v) : Typed d t v := by
  cases t with
  | string =>
    rw [decString, Option.map_eq_some_iff] at h
    obtain ⟨i, h, rfl⟩ := h
    exact .str _
  | any =>
    rw [decString, Option.map_eq_some_iff] at h
    obtain ⟨i, h, rfl⟩ := h
    exact .dyn .string (by intro h; cases h) (.str _)
  | enum n =>
    rw [decString, Option.map_eq_some_iff] at h
    obtain ⟨i, h, rfl⟩ := h
    exact .enum (enumOf_in _ _)
  | big =>
    change Option.map GoVal.big _ = some v at h
    rw [Option.map_eq_some_iff] at h
    obtain ⟨i, h, rfl⟩ := h
    exact .big i
  | _ => cases h

theorem decKey_typed {d : Decls} {k : KeyType} {s : Str} {x : Key} (h : decKey d k s = some x) : KeyIn d k x := by
  cases k with
  | string => cases h; exact .str s
  | int bits =>
    rw [decKey, Option.map_eq_some_iff] at h
    obtain ⟨i, h, rfl⟩ := h
    obtain ⟨-, -, h1, h2⟩ := (parseInt_iff _ _ _).1 h
    exact .int h1 h2
  | uint bits =>
    rw [decKey, Option.map_eq_some_iff] at h
    obtain ⟨i, h, rfl⟩ := h
    obtain ⟨h0, h1, -, h2⟩ := (parseUint_iff _ _ _).1 h
    refine .uint ?_ h2
    cases h0 with
    | plain => omega
    | plus => omega
    | minus => exact absurd rfl h1
  | enum n => cases h; exact .enum (enumOf_in _ _)

/-- A map whose keys and elements are fine. -/
def MapOk (d : Decls) (k : KeyType) (t : GoType) (l : List (Key × GoVal)) : Prop :=
  (l.map (·.1)).Pairwise (· ≠ ·) ∧ (∀ p ∈ l, KeyIn d k p.1) ∧ (∀ p ∈ l, Typed d t p.2)

theorem mapOk_typed {d : Decls} {k : KeyType} {t : GoType} {l : List (Key × GoVal)} (h : MapOk d k t l) :
    Typed d (.map k t) (.map l) := .map h.1 h.2.1 h.2.2

theorem putKey_keys (x : Key) (v : GoVal) (l : List (Key × GoVal)) : ∀ p ∈ putKey x v l, p = (x, v) ∨ p ∈ l := by
  induction l with
  | nil => intro p hp; exact Or.inl (List.mem_singleton.1 hp)
  | cons q l ih =>
    obtain ⟨k', v'⟩ := q
    intro p hp
    rw [putKey] at hp
    split at hp
    · rcases List.mem_cons.1 hp with rfl | hp
      · exact Or.inl rfl
      · exact Or.inr (List.mem_cons_of_mem _ hp)
    · rcases List.mem_cons.1 hp with rfl | hp
      · exact Or.inr List.mem_cons_self
      · rcases ih p hp with h | h
        · exact Or.inl h
        · exact Or.inr (List.mem_cons_of_mem _ h)

theorem putKey_ok {d : Decls} {k : KeyType} {t : GoType} {l : List (Key × GoVal)} {x : Key} {v : GoVal} (h : MapOk d k t l)
    (hx : KeyIn d k x) (hv : Typed d t v) : MapOk d k t (putKey x v l) := by
  refine ⟨?_, fun p hp => ?_, fun p hp => ?_⟩
  · have := h.1
    clear h
    induction l with
    | nil => exact List.pairwise_singleton _ _
    | cons q l ih =>
      obtain ⟨k', v'⟩ := q
      rw [List.map_cons, List.pairwise_cons] at this
      rw [putKey]
      split
      · rename_i e
        subst e
        rw [List.map_cons, List.pairwise_cons]
        exact this
      · rename_i e
        rw [List.map_cons, List.pairwise_cons]
        refine ⟨fun y hy => ?_, ih this.2⟩
        obtain ⟨p, hp, rfl⟩ := List.mem_map.1 hy
        rcases putKey_keys x v l p hp with rfl | hp
        · exact e
        · exact this.1 _ (List.mem_map_of_mem hp)
  · rcases putKey_keys x v l p hp with rfl | hp
    · exact hx
    · exact h.2.1 p hp
  · rcases putKey_keys x v l p hp with rfl | hp
    · exact hv
    · exact h.2.2 p hp

theorem emptyMap_ok (d : Decls) (k : KeyType) (t : GoType) : MapOk d k t [] :=
  ⟨.nil, (by intro p hp; cases hp), (by intro p hp; cases hp)⟩

theorem decAny_typed (d : Decls) (j : Json) : ∀ v, decodeAny j = some v → Typed d .any v := by
  refine json_ind (P := fun j => ∀ v, decodeAny j = some v → Typed d .any v) ?_ ?_ ?_ ?_ ?_ ?_ j
  · intro v h; cases h; exact .nil .any
  · intro b v h; cases h; exact .dyn .bool (by intro h; cases h) (.bool b)
  · intro x v h; exact decNum_typed (t := .any) (old := .nil) h
  · intro x v h; exact decString_typed (t := .any) (old := .nil) h
  · intro l ih v h
    rw [decodeAny, Option.map_eq_some_iff] at h
    obtain ⟨vs, h, rfl⟩ := h
    refine .dyn .list (by intro h; cases h) (.list ?_)
    induction l generalizing vs with
    | nil => cases h; exact fun _ h => nomatch h
    | cons j l ihl =>
      rw [decodeAnys] at h
      cases h1 : decodeAny j with
      | none => rw [h1] at h; cases h
      | some w =>
        cases h2 : decodeAnys l with
        | none => rw [h1, h2] at h; cases h
        | some ws =>
          rw [h1, h2] at h
          cases h
          rw [List.forall_mem_cons]
          exact ⟨ih j List.mem_cons_self w h1, ihl (fun j hj => ih j (List.mem_cons_of_mem _ hj)) ws h2⟩
  · intro l ih v h
    rw [decodeAny, Option.map_eq_some_iff] at h
    obtain ⟨vs, h, rfl⟩ := h
    refine .dyn .map (by intro h; cases h) (mapOk_typed ?_)
    have hok := emptyMap_ok d .string .any
    generalize ([] : List (Key × GoVal)) = m at h hok
    induction l generalizing vs m with
    | nil => cases h; exact hok
    | cons p l ihl =>
      obtain ⟨k, j⟩ := p
      rw [decodeAnyMembers] at h
      cases h1 : decodeAny j with
      | none => rw [h1] at h; cases h
      | some w =>
        rw [h1] at h
        exact ihl (fun j hj => ih j (List.mem_cons_of_mem _ hj)) vs _ h (putKey_ok hok (.str k) (ih (k, j) List.mem_cons_self w h1))

theorem elems_typed {d : Decls} {t : GoType} {l : List Json}
    (ih : ∀ j ∈ l, ∀ t old v, Typed d t old → decode d t old j = some v → Typed d t v) (olds vs : List GoVal)
    (ho : ∀ v ∈ olds, Typed d t v) (h : decodeElems d t olds l = some vs) : ∀ v ∈ vs, Typed d t v := by
  induction l generalizing olds vs with
  | nil => cases h; exact fun _ h => nomatch h
  | cons j l ihl =>
    rw [decodeElems] at h
    cases h1 : decode d t (olds.head?.getD (zero t)) j with
    | none => rw [h1] at h; cases h
    | some w =>
      cases h2 : decodeElems d t olds.tail l with
      | none => rw [h1, h2] at h; cases h
      | some ws =>
        rw [h1, h2] at h
        cases h
        rw [List.forall_mem_cons]
        refine ⟨ih j List.mem_cons_self t _ w ?_ h1, ihl (fun j hj => ih j (List.mem_cons_of_mem _ hj)) _ ws
          (fun v hv => ho v (List.mem_of_mem_tail hv)) h2⟩
        cases olds with
        | nil => exact zero_typed d t
        | cons o olds => exact ho o List.mem_cons_self

theorem entries_typed {d : Decls} {k : KeyType} {t : GoType} {l : List (Str × Json)}
    (ih : ∀ p ∈ l, ∀ t old v, Typed d t old → decode d t old p.2 = some v → Typed d t v) (m vs : List (Key × GoVal))
    (ho : MapOk d k t m) (h : decodeEntries d k t m l = some vs) : MapOk d k t vs := by
  induction l generalizing m with
  | nil => cases h; exact ho
  | cons p l ihl =>
    obtain ⟨x, j⟩ := p
    rw [decodeEntries] at h
    cases h1 : decKey d k x with
    | none => rw [h1] at h; cases h
    | some y =>
      cases h2 : decode d t (zero t) j with
      | none => rw [h1, h2] at h; cases h
      | some w =>
        rw [h1, h2] at h
        exact ihl (fun j hj => ih j (List.mem_cons_of_mem _ hj)) _
          (putKey_ok ho (decKey_typed h1) (ih (x, j) List.mem_cons_self t _ w (zero_typed d t) h2)) h

theorem members_typed {d : Decls} {fs : List FieldDecl} {l : List (Str × Json)}
    (ih : ∀ p ∈ l, ∀ t old v, Typed d t old → decode d t old p.2 = some v → Typed d t v) (vals vs : List GoVal)
    (ho : TypedFields d fs vals) (h : decodeMembers d fs vals l = some vs) : TypedFields d fs vs := by
  induction l generalizing vals with
  | nil => cases h; exact ho
  | cons p l ihl =>
    obtain ⟨key, j⟩ := p
    have ih' := ihl (fun j hj => ih j (List.mem_cons_of_mem _ hj))
    rw [decodeMembers] at h
    cases h1 : fieldIndex fs key with
    | none => rw [h1] at h; exact ih' _ ho h
    | some i =>
      rw [h1] at h
      dsimp only at h
      cases h2 : fs[i]? with
      | none => rw [h2] at h; cases h
      | some f =>
        rw [h2] at h
        dsimp only at h
        obtain ⟨g1, g2⟩ := typedFields_iff.1 ho
        have hold : Typed d f.type (vals[i]?.getD (zero f.type)) := by
          cases hv : vals[i]? with
          | none => exact zero_typed d _
          | some v => exact g2 i f v h2 hv
        cases h3 : decode d f.type (vals[i]?.getD (zero f.type)) j with
        | none => rw [h3] at h; cases h
        | some w =>
          rw [h3] at h
          refine ih' _ (typedFields_iff.2 ⟨by rw [List.length_set]; exact g1, fun k g v hg hv => ?_⟩) h
          rw [List.getElem?_set] at hv
          split at hv
          · rename_i e
            subst e
            rw [h2] at hg
            cases hg
            split at hv
            · cases hv; exact ih (key, j) List.mem_cons_self f.type _ w hold h3
            · cases hv
          · exact g2 k g v hg hv

theorem decode_typed (d : Decls) (j : Json) : ∀ t old v, Typed d t old → decode d t old j = some v → Typed d t v := by
  refine json_ind (P := fun j => ∀ t old v, Typed d t old → decode d t old j = some v → Typed d t v) ?_ ?_ ?_ ?_ ?_ ?_ j
  · intro t old v ho h; cases h; exact ofNull_typed ho
  · intro b t old v ho h
    rw [decode, Option.map_eq_some_iff] at h
    obtain ⟨w, h, rfl⟩ := h
    exact wrap_typed (decBool_typed h)
  · intro b t old v ho h
    rw [decode, Option.map_eq_some_iff] at h
    obtain ⟨w, h, rfl⟩ := h
    exact wrap_typed (decNum_typed h)
  · intro b t old v ho h
    rw [decode, Option.map_eq_some_iff] at h
    obtain ⟨w, h, rfl⟩ := h
    exact wrap_typed (decString_typed h)
  · intro l ih t old v ho h
    rw [decode] at h
    have hin := inside_typed ho
    generalize inside t old = o at h hin
    cases hb : base t with
    | list e =>
      rw [hb] at h hin
      dsimp only at h
      split at h
      · cases h
      rw [Option.map_eq_some_iff] at h
      obtain ⟨w, h, rfl⟩ := h
      refine wrap_typed ?_
      rw [hb]
      refine .list (elems_typed ih _ _ ?_ h)
      cases hin with
      | nil => intro v hv; cases hv
      | list hall => exact hall
    | any =>
      rw [hb] at h
      dsimp only at h
      rw [Option.map_eq_some_iff] at h
      obtain ⟨w, h, rfl⟩ := h
      refine wrap_typed ?_
      rw [hb]
      exact decAny_typed d (.arr l) _ (by rw [decodeAny, h]; rfl)
    | _ => rw [hb] at h; cases h
  · intro l ih t old v ho h
    rw [decode] at h
    have hin := inside_typed ho
    generalize inside t old = o at h hin
    cases hb : base t with
    | map k e =>
      rw [hb] at h hin
      dsimp only at h
      rw [Option.map_eq_some_iff] at h
      obtain ⟨w, h, rfl⟩ := h
      refine wrap_typed ?_
      rw [hb]
      refine mapOk_typed (entries_typed ih _ _ ?_ h)
      cases hin with
      | nil => exact emptyMap_ok d k e
      | map h1 h2 h3 => exact ⟨h1, h2, h3⟩
    | ref n =>
      rw [hb] at h hin
      dsimp only at h
      rw [Option.map_eq_some_iff] at h
      obtain ⟨w, h, rfl⟩ := h
      refine wrap_typed ?_
      rw [hb]
      refine .ref (members_typed ih _ _ ?_ h)
      cases hin with
      | nil => exact zeros_typed d _
      | ref h1 => exact h1
    | any =>
      rw [hb] at h
      dsimp only at h
      rw [Option.map_eq_some_iff] at h
      obtain ⟨w, h, rfl⟩ := h
      refine wrap_typed ?_
      rw [hb]
      exact decAny_typed d (.obj l) _ (by rw [decodeAny, h]; rfl)
    | _ => rw [hb] at h; cases h

theorem payload_typed (d : Decls) (fs : List FieldDecl) {j : Json} {vals : List GoVal} (h : decodePayload d fs j = some vals) :
    TypedFields d fs vals := by
  cases j with
  | null => cases h; exact zeros_typed d fs
  | obj l => exact members_typed (fun p _ => decode_typed d p.2) _ _ (zeros_typed d fs) h
  | _ => cases h

/-! ### The properties -/

/-- C79. Which JSON a variable of a generated type accepts does not depend on what it held before; it is exactly the
JSON described by `Accepts`. -/
theorem C79_accepts {d : Decls} (hd : WellDeclared d) {text : Str} {j : Json} (h : JsonText text j) (t : GoType) (old : GoVal) :
    (∃ v, decode d t old j = some v) ↔ Accepts d t j := by
  rw [← decode_accepts hd (text_proper h) t old, isSome_iff']

/-- C79. Decoding never makes a value that its type does not have: out of range, outside an enum, with missing fields,
repeated keys or unexpected dynamic types. -/
theorem C79_typed (d : Decls) (t : GoType) (old v : GoVal) (j : Json) (ho : Typed d t old) (h : decode d t old j = some v) :
    Typed d t v := decode_typed d j t old v ho h

/-- C79. For any request to a method of a generated server: the implementation is called, once, exactly if the request
is a `POST` with a JSON content type that the hook lets through and its body is JSON that the arguments accept; and then
it gets proper values of its argument types. -/
theorem C79_called [GoUnicode] (d : Decls) (hd : WellDeclared d) (service header : Str) (methods : List (Str × Signature))
    (impl : Str → List GoVal → TypedOutcome) (onRequest onError) {name : Str} {sig : Signature}
    (h : methods.lookup name = some sig) (ha : (sig.args.filterMap (·.tag)).Pairwise (· ≠ ·)) (r : Request)
    (hp : r.path = S "/rpc/" ++ service ++ S "/" ++ name) :
    let s := typedServer d service header methods impl onRequest onError
    let served := typedCalls d sig (serveHTTP s r).1
    (r.method = S "POST" ∧ JsonType r.contentType ∧ (onRequest = none ∨ onRequest = some (.ok none)) ∧
        (sig.args = [] ∨ ∃ body j, r.body = some body ∧ JsonText body j ∧ AcceptsPayload d sig.args j) →
      ∃ args, served = [(name, args)] ∧ TypedFields d sig.args args) ∧
    (¬ (r.method = S "POST" ∧ JsonType r.contentType ∧ (onRequest = none ∨ onRequest = some (.ok none)) ∧
        (sig.args = [] ∨ ∃ body j, r.body = some body ∧ JsonText body j ∧ AcceptsPayload d sig.args j)) →
      served = []) := by
  intro s served
  have hl := typed_lookup d service header methods impl onRequest onError h
  rw [← hp] at hl
  obtain ⟨c1, c2⟩ := C51_called_iff s r
  have hread : ∀ body j, JsonText body j → ((∃ a, readTyped d sig.args j = some a) ↔ AcceptsPayload d sig.args j) := by
    intro body j hj
    rw [← payload_accepts hd ha (text_proper hj)]
    unfold readTyped
    cases decodePayload d sig.args j <;> simp
  have hread' : ∀ j a, readTyped d sig.args j = some a → a = j ∧ ∃ vals, decodePayload d sig.args j = some vals := by
    intro j a hr
    unfold readTyped at hr
    cases hq : decodePayload d sig.args j with
    | none => rw [hq] at hr; cases hr
    | some vals => rw [hq] at hr; cases hr; exact ⟨rfl, vals, rfl⟩
  constructor
  · rintro ⟨h1, h2, h3, h4⟩
    by_cases he : sig.args = []
    · have hc : Callable s r (rawMethod d impl name sig) .null := by
        refine ⟨⟨hl, h1, h2⟩, h3, ?_⟩
        unfold Arguments
        rw [if_neg (by show ¬ (!sig.args.isEmpty) = true; rw [he]; decide)]
      refine ⟨[], ?_, by rw [he]; exact .nil⟩
      show List.map _ (calls (serveHTTP s r).1) = _
      rw [c1 _ _ hc]
      show [(name, _)] = _
      dsimp only
      rw [he]; rfl
    · rcases h4 with h4 | ⟨body, j, hb, hj, hacc⟩
      · exact absurd h4 he
      obtain ⟨a, hra⟩ := (hread body j hj).2 hacc
      obtain ⟨rfl, vals, hv⟩ := hread' j a hra
      have hc : Callable s r (rawMethod d impl name sig) a := by
        refine ⟨⟨hl, h1, h2⟩, h3, ?_⟩
        unfold Arguments
        rw [if_pos (by show (!sig.args.isEmpty) = true; rw [Bool.not_eq_true', List.isEmpty_eq_false_iff]; exact he)]
        exact ⟨body, a, hb, hj, hra⟩
      refine ⟨vals, ?_, payload_typed d _ hv⟩
      show List.map _ (calls (serveHTTP s r).1) = _
      rw [c1 _ _ hc]
      show [(name, _)] = _
      dsimp only
      rw [hv]; rfl
  · intro hno
    show List.map _ (calls (serveHTTP s r).1) = _
    rw [c2]
    · rfl
    · rintro ⟨m, args, ⟨hl', h1, h2⟩, h3, h4⟩
      rw [hl] at hl'
      cases hl'
      refine hno ⟨h1, h2, h3, ?_⟩
      by_cases he : sig.args = []
      · exact Or.inl he
      · unfold Arguments at h4
        rw [if_pos (by show (!sig.args.isEmpty) = true; rw [Bool.not_eq_true', List.isEmpty_eq_false_iff]; exact he)] at h4
        obtain ⟨body, j, hb, hj, hra⟩ := h4
        exact Or.inr ⟨body, j, hb, hj, (hread body j hj).1 ⟨_, hra⟩⟩

end Verif.Values
