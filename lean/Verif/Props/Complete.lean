import Verif.Spec.WellFormed
import Verif.Props.Validation
/-!
# Validation accepts exactly the valid schemas (C66)
-/

namespace Verif.Props
open Verif.Schema Verif.Spec

/-! ## Pieces -/

theorem leadByte_eq (c : Char) : ∃ b bs, String.utf8EncodeChar c = b :: bs ∧ b.toNat = leadByte c := by
  have hv : c.val.toNat = c.toNat := rfl
  have hlt : c.toNat < 0x110000 := by
    have := c.valid
    simp [UInt32.isValidChar, Nat.isValidChar] at this
    have e : c.val.toNat = c.toNat := rfl
    omega
  unfold String.utf8EncodeChar leadByte
  simp only [hv]
  generalize c.toNat = n at *
  have c1 : (n < 0x80) = (n ≤ 127) := propext (by omega)
  have c2 : (n < 0x800) = (n ≤ 2047) := propext (by omega)
  have c3 : (n < 0x10000) = (n ≤ 65535) := propext (by omega)
  simp only [c1, c2, c3]
  by_cases h1 : n ≤ 127
  · simp only [h1, if_true]
    exact ⟨_, _, rfl, by simp; omega⟩
  · by_cases h2 : n ≤ 2047
    · simp only [h1, h2, if_true, if_false]
      exact ⟨_, _, rfl, by simp; omega⟩
    · by_cases h3 : n ≤ 65535
      · simp only [h1, h2, h3, if_true, if_false]
        exact ⟨_, _, rfl, by simp; omega⟩
      · simp only [h1, h2, h3, if_false]
        exact ⟨_, _, rfl, by simp; omega⟩

theorem capitalised_iff (n : Str) : startsWithUpper n = true ↔ Capitalised n := by
  cases n with
  | nil => simp [startsWithUpper, Capitalised]
  | cons c cs =>
    obtain ⟨b, bs, h1, h2⟩ := leadByte_eq c
    simp only [startsWithUpper, latin1Upper, ← h2, Bool.or_eq_true, Bool.and_eq_true, decide_eq_true_eq]
    constructor
    · intro h
      refine ⟨c, cs, b, bs, rfl, h1, ?_⟩
      omega
    · rintro ⟨c', cs', b', bs', he, h3, h⟩
      cases he
      rw [h1] at h3
      cases h3
      omega

theorem capitalised_ne {n : Str} (h : Capitalised n) : n ≠ [] := by
  rintro rfl
  obtain ⟨_, _, _, _, h, _⟩ := h
  cases h

theorem isHex_iff (c : Char) : isHex c = true ↔ HexDigit c := by
  simp [isHex, HexDigit, or_assoc]

theorem percentOk_iff (b : Str) : percentOk b = true ↔
    ∀ r, '%' :: r <:+ b → ∃ x y r', r = x :: y :: r' ∧ HexDigit x ∧ HexDigit y := by
  induction b with
  | nil => simp [percentOk]
  | cons c cs ih =>
    have hs : ∀ r, ('%' :: r <:+ c :: cs) ↔ ('%' = c ∧ r = cs) ∨ '%' :: r <:+ cs := by
      intro r
      rw [List.suffix_cons_iff]
      simp
    simp only [hs]
    by_cases hc : c = '%'
    · subst hc
      cases cs with
      | nil => simp [percentOk]
      | cons a cs =>
        cases cs with
        | nil => simp [percentOk]
        | cons d cs =>
          rw [percentOk.eq_def]
          simp only [if_true, Bool.and_eq_true, ih, isHex_iff]
          constructor
          · rintro ⟨⟨h1, h2⟩, h3⟩ r (⟨_, rfl⟩ | hr)
            · exact ⟨a, d, cs, rfl, h1, h2⟩
            · exact h3 r hr
          · intro h
            obtain ⟨x, y, r', he, hx, hy⟩ := h _ (.inl ⟨trivial, rfl⟩)
            simp at he
            obtain ⟨rfl, rfl, rfl⟩ := he
            exact ⟨⟨hx, hy⟩, fun r hr => h r (.inr hr)⟩
    · rw [percentOk.eq_def]
      simp only [hc, if_false, ih]
      constructor
      · rintro h r (⟨he, _⟩ | hr)
        · exact absurd he.symm hc
        · exact h r hr
      · intro h r hr
        exact h r (.inr hr)

theorem normBasePath_iff {b b' : Str} :
    normBasePath b = .ok b' ↔ (b ≠ [] → GivenPathOk b) ∧ b' = if b = [] then [] else slashed b := by
  by_cases hb : b = []
  · subst hb
    simp [normBasePath, eq_comm]
  · have hp : hasPrefix b (S "/") = decide (b.head? = some '/') := by
      cases b with
      | nil => exact absurd rfl hb
      | cons c cs =>
        have h1 : hasPrefix (c :: cs) (S "/") = ('/' == c && true) := rfl
        rw [h1, Bool.and_true]
        by_cases hc : c = '/'
        · subst hc; rfl
        · have : ('/' == c) = false := by simpa using fun h => hc h.symm
          rw [this]; simp [hc]
    have hsuf : ∀ p : Str, hasSuffix p (S "/") = decide (p.getLast? = some '/') := by
      intro p
      rw [Bool.eq_iff_iff, decide_eq_true_eq, List.getLast?_eq_some_iff]
      unfold hasSuffix
      rw [List.isSuffixOf_iff_suffix, show S "/" = ['/'] from rfl]
      constructor
      · rintro ⟨t, ht⟩; exact ⟨t, ht.symm⟩
      · rintro ⟨t, ht⟩; exact ⟨t, ht.symm⟩
    have hsl : ∀ x : Str, S "/" ++ x = '/' :: x := fun x => rfl
    have hmid : requestURIOk (if b.head? = some '/' then b else '/' :: b) = requestURIOk b := by
      split
      · rfl
      · unfold requestURIOk
        rw [List.all_cons]
        have : (!(decide ('/'.toNat < 32) || '/'.toNat == 127)) = true := by decide
        have h2 : percentOk ('/' :: b) = percentOk b := by
          rw [percentOk.eq_def]
          exact if_neg (by decide)
        rw [this, Bool.true_and, h2]
    simp only [normBasePath, hb, if_false, Res.bind_ok, Res.failIf_ok, Res.ok.injEq, hp, hsuf, hsl,
      decide_eq_true_eq, hmid]
    have hout : (if (if b.head? = some '/' then b else '/' :: b).getLast? = some '/' then
        (if b.head? = some '/' then b else '/' :: b) else (if b.head? = some '/' then b else '/' :: b) ++ S "/") =
        slashed b := rfl
    rw [hout]
    have hg : GivenPathOk b ↔ (b.any fun c => c == ' ' || c == '\t' || c == '\r' || c == '\n') = false ∧
        (b.any fun c => c == '?' || c == '#') = false ∧ containsSub (S "://") b = false ∧
        (!requestURIOk b) = false := by
      have hcs : containsSub (S "://") b = false ↔ ¬ S "://" <:+: b := by
        rw [← containsSub_iff]; simp
      have hru : (!requestURIOk b) = false ↔ (∀ c ∈ b, 0x20 ≤ c.toNat ∧ c.toNat ≠ 0x7f) ∧
          ∀ r, '%' :: r <:+ b → ∃ x y r', r = x :: y :: r' ∧ HexDigit x ∧ HexDigit y := by
        rw [← percentOk_iff]
        unfold requestURIOk
        simp only [Bool.not_eq_false', Bool.and_eq_true, List.all_eq_true]
        simp
      rw [hcs, hru, List.any_eq_false, List.any_eq_false]
      constructor
      · intro h
        refine ⟨?_, ?_, h.noScheme, fun c hc => (h.chars c hc).2, h.escapes⟩
        · intro c hc
          have := (h.chars c hc).1
          simp at this
          simp [this]
        · intro c hc
          have := (h.chars c hc).1
          simp at this
          simp [this]
      · rintro ⟨h1, h2, h3, h4, h5⟩
        refine ⟨?_, h3, h5⟩
        intro c hc
        have q1 := h1 c hc
        have q2 := h2 c hc
        simp at q1 q2
        refine ⟨?_, h4 c hc⟩
        simp [q1, q2]
    rw [hg]
    constructor
    · rintro ⟨_, h1, _, h2, _, h3, _, h4, rfl⟩
      exact ⟨fun _ => ⟨h1, h2, h3, h4⟩, rfl⟩
    · rintro ⟨h, rfl⟩
      obtain ⟨h1, h2, h3, h4⟩ := h hb
      exact ⟨(), h1, (), h2, (), h3, (), h4, rfl⟩

/-! ## Type expressions -/

theorem build_shown [GoUnicode] {ts : List TypeDecl} {t : Ty} {vt : VarType}
    (h : Denotes ts t vt) : buildExpr vt [] = t.shown := by
  induction h with
  | omitted => rfl
  | @scalar n c hs =>
    have hk := scalar_kind _ hs
    have : buildExpr (.leaf n c) [] = c.str := by
      cases c <;> first | rfl | simp at hk
    rw [this, hk.2.2.2.2.2]; rfl
  | list _ ih => simp [buildExpr, Ty.shown, ih]
  | map _ hk _ ih => simp [buildExpr, Ty.shown, ih, keyTree_expr hk, S]
  | named _ _ hr => rcases hr with ⟨_, rfl⟩ | ⟨_, rfl⟩ | ⟨_, rfl⟩ <;> simp [buildExpr, Ty.shown]

theorem varTypeParse_iff [GoUnicode] {ts : List TypeDecl} {o : Option VarType} {vt : VarType} :
    varTypeParse ts o = .ok vt ↔ TypeBecomes ts o (some vt) := by
  unfold TypeBecomes
  cases o with
  | none => simp [varTypeParse]
  | some v =>
    simp only [varTypeParse, Res.bind_ok, Res.failIf_ok, decide_eq_false_iff_not, Res.ok.injEq]
    constructor
    · rintro ⟨_, h1, w, h2, rfl⟩
      obtain ⟨t, hd, ht⟩ := parseExpr_iff.1 h2
      exact ⟨v, t, w, rfl, h1, ht, hd, by rw [build_shown hd]⟩
    · rintro ⟨v', t, w, he, h1, ht, hd, hv⟩
      cases he
      refine ⟨(), h1, w, parseExpr_iff.2 ⟨t, hd, ht⟩, ?_⟩
      rw [build_shown hd]
      exact (Option.some.inj hv).symm

theorem written_iff [GoUnicode] {ts : List TypeDecl} {o : Option VarType} :
    WrittenType ts o ↔ ∃ vt, TypeBecomes ts o (some vt) := by
  constructor
  · rintro ⟨v, h1, h2, t, h3, w, h4⟩
    exact ⟨_, v, t, w, h1, h2, h3, h4, rfl⟩
  · rintro ⟨_, v, t, w, h1, h2, h3, h4, _⟩
    exact ⟨v, h1, h2, t, h3, w, h4⟩

/-! ## Fields -/

theorem jsonFieldName_iff {acc j : Str} {ms : List Meta} :
    jsonFieldName acc ms = .ok j ↔ j = ((ms.filterMap renames).getLast?).getD acc ∧
      ∀ m ∈ ms, ∀ v, m.lookup (S "json") = some v → ∃ w, v = .str w ∧ (w = S "-" ∨ Identifier w) := by
  induction ms generalizing acc with
  | nil => simp [jsonFieldName, eq_comm]
  | cons m ms ih =>
    have hall : (∀ m' ∈ m :: ms, ∀ v, m'.lookup (S "json") = some v → ∃ w, v = .str w ∧ (w = S "-" ∨ Identifier w)) ↔
        (∀ v, m.lookup (S "json") = some v → ∃ w, v = .str w ∧ (w = S "-" ∨ Identifier w)) ∧
        ∀ m' ∈ ms, ∀ v, m'.lookup (S "json") = some v → ∃ w, v = .str w ∧ (w = S "-" ∨ Identifier w) := by
      simp only [List.mem_cons, forall_eq_or_imp]
    rw [hall]
    simp only [jsonFieldName]
    cases hl : m.lookup (S "json") with
    | none =>
      have : renames m = none := by simp [renames, hl]
      simp only [List.filterMap_cons, this, ih]
      simp
    | some v =>
      cases v with
      | str v =>
        by_cases hd : v = S "-"
        · have : renames m = none := by simp [renames, hl, hd]
          simp only [hd, if_true, List.filterMap_cons, this, ih]
          constructor
          · rintro ⟨h1, h2⟩
            exact ⟨h1, fun v' hv' => ⟨S "-", (Option.some.inj hv').symm, .inl rfl⟩, h2⟩
          · rintro ⟨h1, -, h2⟩
            exact ⟨h1, h2⟩
        · have : renames m = some v := by simp [renames, hl, hd]
          simp only [hd, if_false, List.filterMap_cons, this]
          cases hv : isValidArgName v with
          | false =>
            simp only [Bool.not_false, if_true]
            constructor
            · intro h; cases h
            · rintro ⟨-, h, -⟩
              obtain ⟨w, hw, hw'⟩ := h _ rfl
              cases hw
              rcases hw' with hw' | hw'
              · exact absurd hw' hd
              · rw [(identifier_iff v).2 hw'] at hv; cases hv
          | true =>
            simp only [Bool.not_true, Bool.false_eq_true, if_false, ih]
            constructor
            · rintro ⟨h1, h2⟩
              refine ⟨?_, ?_, h2⟩
              · rw [h1, List.getLast?_cons]; simp
              · intro v' hv'
                exact ⟨v, (Option.some.inj hv').symm, .inr ((identifier_iff v).1 hv)⟩
            · rintro ⟨h1, -, h2⟩
              refine ⟨?_, h2⟩
              rw [h1, List.getLast?_cons]; simp
      | _ =>
        constructor
        · intro h; cases h
        · rintro ⟨-, h, -⟩
          obtain ⟨w, hw, _⟩ := h _ rfl
          cases hw

theorem checkFields_iff [GoUnicode] {seen sj : List Str} {fs : List Field} {u : Unit} :
    checkFields seen sj fs = .ok u ↔
      ValidFields fs ∧ (∀ f ∈ fs, toLower f.name ∉ seen ∧ toLower (jsonNameOf f) ∉ sj) := by
  induction fs generalizing seen sj with
  | nil =>
    simp only [checkFields]
    refine ⟨fun _ => ⟨⟨by simp, ?_, by simp, ?_⟩, by simp⟩, fun _ => by trivial⟩ <;> exact .nil
  | cons f fs ih =>
    simp only [checkFields, Res.bind_ok, Res.failIf_ok, decide_eq_false_iff_not, ih]
    constructor
    · rintro ⟨_, h1, _, h2, _, h3, j, h4, _, h5, ⟨a, b, c, d⟩, h6⟩
      simp at h2 h3 h5
      obtain ⟨hj, hjm⟩ := jsonFieldName_iff.1 h4
      have hj : j = jsonNameOf f := hj
      subst hj
      refine ⟨⟨?_, ?_, ?_, ?_⟩, ?_⟩
      · intro g hg
        rcases List.mem_cons.1 hg with rfl | hg
        · exact (identifier_iff _).1 h2
        · exact a g hg
      · refine List.pairwise_cons.2 ⟨?_, b⟩
        intro n hn he
        obtain ⟨g, hg, rfl⟩ := List.mem_map.1 hn
        have := (h6 g hg).1
        have he : toLower f.name = toLower g.name := he
        simp [he] at this
      · intro g hg
        rcases List.mem_cons.1 hg with rfl | hg
        · exact hjm
        · exact c g hg
      · refine List.pairwise_cons.2 ⟨?_, d⟩
        intro n hn he
        obtain ⟨g, hg, rfl⟩ := List.mem_map.1 hn
        have := (h6 g hg).2
        have he : toLower (jsonNameOf f) = toLower (jsonNameOf g) := he
        simp [he] at this
      · intro g hg
        rcases List.mem_cons.1 hg with rfl | hg
        · exact ⟨h3, h5⟩
        · have := h6 g hg
          simp at this
          exact ⟨this.1.2, this.2.2⟩
    · rintro ⟨⟨a, b, c, d⟩, h⟩
      have hf := h f (by simp)
      obtain ⟨b1, b2⟩ := List.pairwise_cons.1 b
      obtain ⟨d1, d2⟩ := List.pairwise_cons.1 d
      have hid := a f (by simp)
      refine ⟨(), ?_, (), ?_, (), ?_, jsonNameOf f, jsonFieldName_iff.2 ⟨rfl, c f (by simp)⟩, (), ?_,
        ⟨fun g hg => a g (by simp [hg]), b2, fun g hg => c g (by simp [hg]), d2⟩, ?_⟩
      · obtain ⟨x, xs, hx, _⟩ := hid
        rw [hx]; simp
      · rw [(identifier_iff _).2 hid]; rfl
      · simpa using hf.1
      · simpa using hf.2
      · intro g hg
        have q := h g (by simp [hg])
        have q1 : ¬ toLower f.name = toLower g.name := b1 g.name (List.mem_map_of_mem hg)
        have q2 : ¬ toLower (jsonNameOf f) = toLower (jsonNameOf g) := d1 (jsonNameOf g) (List.mem_map_of_mem hg)
        simp only [List.mem_cons, not_or]
        exact ⟨⟨fun z => q1 z.symm, q.1⟩, fun z => q2 z.symm, q.2⟩

theorem checkFields_valid [GoUnicode] {fs : List Field} {u : Unit} :
    checkFields [] [] fs = .ok u ↔ ValidFields fs := by
  rw [checkFields_iff]; simp

/-! ## Types -/

theorem each_unit {α : Type} {f : α → Res Unit} {xs : List α} :
    (∃ us, Pointwise (fun x y => f x = .ok y) xs us) ↔ ∀ x ∈ xs, f x = .ok () := by
  constructor
  · rintro ⟨us, h⟩ x hx
    obtain ⟨u, _, hu⟩ := h.mem_left hx
    exact hu
  · intro h
    induction xs with
    | nil => exact ⟨[], .nil⟩
    | cons x xs ih =>
      obtain ⟨us, hus⟩ := ih fun y hy => h y (by simp [hy])
      exact ⟨() :: us, .cons (h x (by simp)) hus⟩

theorem checkEnum_iff {t : TypeDecl} : checkEnum t = .ok () ↔
    (∀ f ∈ t.fields, f.value ≠ [] ∧ f.type = none) ∧
      ∃ v, t.type = some v ∧ (v.expr ∈ integerNames ∨ v.expr = S "string") := by
  have hnames : ∀ p ∈ coreTable, isValidVarType p.1 (varIntegerCoreTypes ++ [.string]) = true →
      p.1 ∈ integerNames ∨ p.1 = S "string" := by decide +kernel
  have hback : ∀ n ∈ integerNames ++ [S "string"], isValidVarType n (varIntegerCoreTypes ++ [.string]) = true := by
    decide +kernel
  simp only [checkEnum, Res.bind_ok, Res.failIf_ok, each_ok]
  have hm := each_unit (f := fun f : Field =>
    (Res.failIf (decide (f.value = [])) .enumValueMissing >>= fun _ => Res.failIf f.type.isSome .enumFieldType))
    (xs := t.fields)
  have hone : ∀ f : Field, (Res.failIf (decide (f.value = [])) SErr.enumValueMissing >>= fun _ =>
      Res.failIf f.type.isSome SErr.enumFieldType) = Res.ok () ↔ f.value ≠ [] ∧ f.type = none := by
    intro f
    simp only [Res.bind_ok, Res.failIf_ok, decide_eq_false_iff_not]
    simp
  have hty : (!isValidVarType (varTypeString t.type) (varIntegerCoreTypes ++ [.string])) = false ↔
      ∃ v, t.type = some v ∧ (v.expr ∈ integerNames ∨ v.expr = S "string") := by
    cases ht : t.type with
    | none => simp; decide
    | some v =>
      simp only [varTypeString, Bool.not_eq_false', Option.some.injEq, exists_eq_left']
      constructor
      · intro h
        cases hc : coreFromString v.expr with
        | none => simp [isValidVarType, hc] at h
        | some c => exact hnames _ (coreFromString_some.1 hc) h
      · intro h
        exact hback _ (by rcases h with h | h <;> simp [h])
  constructor
  · rintro ⟨us, h1, h2⟩
    refine ⟨?_, hty.1 h2⟩
    intro f hf
    obtain ⟨u, _, _, hu1, hu2⟩ := h1.mem_left hf
    simp at hu1 hu2
    exact ⟨hu1, hu2⟩
  · rintro ⟨h1, h2⟩
    obtain ⟨us, hus⟩ := hm.2 fun f hf => (hone f).2 (h1 f hf)
    refine ⟨us, ?_, hty.2 h2⟩
    refine hus.imp ?_
    intro f y hfy
    simpa only [Res.bind_ok, Res.failIf_ok] using hfy

theorem pointwise_choose {α β : Type} {R : α → β → Prop} {xs : List α} (h : ∀ x ∈ xs, ∃ y, R x y) :
    ∃ ys, Pointwise R xs ys := by
  induction xs with
  | nil => exact ⟨[], .nil⟩
  | cons x xs ih =>
    obtain ⟨y, hy⟩ := h x (by simp)
    obtain ⟨ys, hys⟩ := ih fun z hz => h z (by simp [hz])
    exact ⟨y :: ys, .cons hy hys⟩

theorem Pointwise.imp_mem {α β : Type} {R R' : α → β → Prop} {xs : List α} {ys : List β}
    (h : Pointwise R xs ys) (hi : ∀ x ∈ xs, ∀ y, R x y → R' x y) : Pointwise R' xs ys := by
  induction h with
  | nil => exact .nil
  | cons hr _ ih => exact .cons (hi _ (by simp) _ hr) (ih fun x hx => hi x (by simp [hx]))

theorem structField_iff [GoUnicode] {ts : List TypeDecl} {f f' : Field} :
    structField ts f = .ok f' ↔ f.value = [] ∧ ∃ o, TypeBecomes ts f.type o ∧ f' = { f with type := o } := by
  simp only [structField, Res.bind_ok, Res.failIf_ok, Res.ok.injEq, varTypeParse_iff]
  constructor
  · rintro ⟨vt, h1, _, h2, rfl⟩
    exact ⟨by simpa using h2, some vt, h1, rfl⟩
  · rintro ⟨h2, o, h1, rfl⟩
    obtain ⟨v, t, w, a, b, c, d, rfl⟩ := h1
    exact ⟨_, ⟨v, t, w, a, b, c, d, rfl⟩, (), by simpa using h2, rfl⟩

theorem typeParse_iff [GoUnicode] {ts : List TypeDecl} {t t' : TypeDecl} :
    typeParse ts t = .ok t' ↔ ValidType ts t ∧ TypeDeclBecomes ts t t' := by
  have k1 : S "struct" ≠ S "enum" := by decide
  have k2 : S "struct" ≠ S "alias" := by decide
  have k3 : S "enum" ≠ S "alias" := by decide
  constructor
  · intro h
    obtain ⟨h1, h2, h3, -, h5⟩ := typeParse_ok h
    have hcap := (capitalised_iff _).1 h2
    rcases h5 with ⟨hk, rfl, hn⟩ | ⟨hk, rfl, hc, he⟩ | ⟨hk, hc, fs, rfl, hp⟩
    · refine ⟨⟨hcap, h3, .inl hk, fun _ => hn, ?_, ?_⟩, .inl ⟨?_, rfl⟩⟩
      · intro q; exact absurd (hk.symm.trans q) k3.symm
      · intro q; exact absurd (hk.symm.trans q) k2.symm
      · intro q; exact k2.symm (hk.symm.trans q)
    · refine ⟨⟨hcap, h3, .inr (.inl hk), ?_, fun _ => ?_, ?_⟩, .inl ⟨?_, rfl⟩⟩
      · intro q; exact absurd (hk.symm.trans q) k3
      · exact ⟨checkFields_valid.1 hc, checkEnum_iff.1 he⟩
      · intro q; exact absurd (hk.symm.trans q) k1.symm
      · intro q; exact k1.symm (hk.symm.trans q)
    · refine ⟨⟨hcap, h3, .inr (.inr hk), ?_, ?_, fun _ => ⟨checkFields_valid.1 hc, ?_⟩⟩, .inr ⟨hk, fs, rfl, ?_⟩⟩
      · intro q; exact absurd (hk.symm.trans q) k2
      · intro q; exact absurd (hk.symm.trans q) k1
      · intro f hf
        obtain ⟨f', _, hff⟩ := hp.mem_left hf
        obtain ⟨hv, o, ho, _⟩ := structField_iff.1 hff
        refine ⟨hv, ?_⟩
        obtain ⟨v, t, w, a, b, c, d, _⟩ := ho
        exact ⟨v, a, b, t, c, w, d⟩
      · exact hp.imp fun f f' hff => (structField_iff.1 hff).2
  · rintro ⟨⟨hname, huniq, hkind, halias, henum, hstruct⟩, hb⟩
    have f1 : decide (t.name = []) = false := by simp [capitalised_ne hname]
    have f2 : startsWithUpper t.name = true := (capitalised_iff _).2 hname
    have f3 : (ts.any fun m => decide (m.ptr ≠ t.ptr ∧ toLower t.name = toLower m.name)) = false := by
      rw [List.any_eq_false]
      intro m hm
      simp only [decide_eq_true_eq]
      rintro ⟨a, b⟩
      exact huniq m hm a b
    have f4 : decide (t.kind ≠ S "enum" ∧ t.kind ≠ S "struct" ∧ t.kind ≠ S "alias") = false := by
      rcases hkind with h | h | h <;> simp [h]
    simp only [typeParse, f1, f2, f3, f4, Res.failIf_false, Bool.not_true, Res.ok_bind]
    rcases hkind with hk | hk | hk
    · have hn := halias hk
      have hs : t.type.isNone = false := by
        cases hq : t.type with
        | none => exact absurd hq hn
        | some _ => rfl
      rcases hb with ⟨_, rfl⟩ | ⟨hq, _⟩
      · simp only [hk, if_true, hs, Res.failIf_false, Res.ok_bind]
      · exact absurd (hk.symm.trans hq) k2.symm
    · obtain ⟨hf, hm, hv⟩ := henum hk
      rcases hb with ⟨_, rfl⟩ | ⟨hq, _⟩
      · have hc : checkFields [] [] t'.fields = .ok () := checkFields_valid.2 hf
        simp only [hk, k3, if_false, if_true, hc, checkEnum_iff.2 ⟨hm, hv⟩, Res.ok_bind]
      · exact absurd (hk.symm.trans hq) k1.symm
    · obtain ⟨hf, hm⟩ := hstruct hk
      rcases hb with ⟨hq, _⟩ | ⟨_, fs, rfl, hp⟩
      · exact absurd hk hq
      · have he : Res.each (structField ts) t.fields = .ok fs := by
          rw [each_ok]
          exact Pointwise.imp_mem hp fun f hfm f' hff => structField_iff.2 ⟨(hm f hfm).1, hff⟩
        have hc : checkFields [] [] t.fields = .ok () := checkFields_valid.2 hf
        simp only [hk, k1, k2, if_false, hc, he, Res.ok_bind]

/-! ## Errors -/

theorem trim_lower [GoUnicode] (hcase : CaseKeepsBlanks) (n : Str) :
    trimSpace (toLower n) = toLower (trimSpace n) := by
  have hd : ∀ l : Str, (l.map lowerChar).dropWhile isSpace = (l.dropWhile isSpace).map lowerChar := by
    intro l
    induction l with
    | nil => rfl
    | cons c cs ih =>
      simp only [List.map_cons, List.dropWhile_cons, hcase c]
      split
      · exact ih
      · rfl
  unfold trimSpace toLower
  rw [hd, ← List.map_reverse, hd, List.map_reverse]

theorem errorOk_iff [GoUnicode] {e : ErrorDecl} : ErrorOk e ↔ ValidError e.name e := by
  constructor
  · rintro ⟨h1, h2, h3, h4, h5, h6⟩
    refine ⟨(capitalised_iff _).1 h3, ?_, h2, h5, h6⟩
    intro hp
    have := List.isPrefixOf_iff_prefix.2 hp
    simp [hasPrefix, this] at h4
  · rintro ⟨h1, h2, h3, h4, h5⟩
    refine ⟨capitalised_ne h1, h3, (capitalised_iff _).2 h1, ?_, h4, h5⟩
    cases hh : hasPrefix (toLower e.name) (S "webrpc") with
    | false => rfl
    | true => exact absurd (List.isPrefixOf_iff_prefix.1 hh) h2

theorem errorsParse_complete [GoUnicode] (hcase : CaseKeepsBlanks) {b es : List ErrorDecl}
    (hv : ∀ e ∈ es, ValidError (trimSpace e.name) e)
    (hn : DistinctNames ((b ++ es).map fun e => trimSpace e.name))
    (hc : ((b ++ es).map (·.code)).Nodup) :
    errorsParse b es = .ok (b ++ es.map fun e => { e with name := trimSpace e.name }) := by
  induction es generalizing b with
  | nil => simp [errorsParse]
  | cons e es ih =>
    have hp : errorParse b es e = .ok { e with name := trimSpace e.name } := by
      rw [errorParse_ok]
      refine ⟨rfl, ?_, ?_⟩
      · have := hv e (by simp)
        rw [errorOk_iff]
        exact ⟨this.name, this.notReserved, this.code, this.message, this.status⟩
      · have h1 : (b ++ e :: es).Pairwise (fun x y => ¬ toLower (trimSpace x.name) = toLower (trimSpace y.name)) :=
          List.pairwise_map.1 hn
        have h2 : (b ++ e :: es).Pairwise (fun x y => x.code ≠ y.code) := List.pairwise_map.1 hc
        have h3 := h1.and h2
        have key : ∀ x y : Str, toLower x = toLower y → toLower (trimSpace x) = toLower (trimSpace y) := by
          intro x y hxy
          rw [← trim_lower hcase, ← trim_lower hcase, hxy]
        rw [List.pairwise_append, List.pairwise_cons] at h3 ⊢
        obtain ⟨a1, ⟨a2, a3⟩, a4⟩ := h3
        refine ⟨a1.imp fun h => ⟨fun q => h.1 (key _ _ q), h.2⟩,
          ⟨?_, a3.imp fun h => ⟨fun q => h.1 (key _ _ q), h.2⟩⟩, ?_⟩
        · intro y hy
          refine ⟨fun q => (a2 y hy).1 ?_, (a2 y hy).2⟩
          have := key _ _ q
          rw [trimSpace_idem] at this
          exact this
        · intro x hx y hy
          rcases List.mem_cons.1 hy with rfl | hy
          · have := a4 x hx e (by simp)
            refine ⟨fun q => this.1 ?_, this.2⟩
            have := key _ _ q
            rw [trimSpace_idem] at this
            exact this
          · have := a4 x hx y (by simp [hy])
            exact ⟨fun q => this.1 (key _ _ q), this.2⟩
    simp only [errorsParse, hp, Res.ok_bind]
    refine (ih (fun x hx => hv x (by simp [hx])) ?_ ?_).trans ?_
    · simpa [trimSpace_idem] using hn
    · simpa using hc
    · simp

/-! ## Services -/

theorem becomes_sig [GoUnicode] {ts ts' : List TypeDecl} (hsig : ts.map TypeDecl.sig = ts'.map TypeDecl.sig)
    {o : Option VarType} {vt : VarType} : TypeBecomes ts o (some vt) ↔ TypeBecomes ts' o (some vt) := by
  rw [← varTypeParse_iff, ← varTypeParse_iff, varTypeParse_sig hsig]

theorem argParse_iff [GoUnicode] {ts : List TypeDecl} {a a' : Argument} :
    argParse ts a = .ok a' ↔ (a.name ≠ [] ∧ WrittenType ts a.type) ∧ ArgBecomes ts a a' := by
  rw [argParse_ok]
  constructor
  · rintro ⟨h1, vt, h2, rfl⟩
    have h2 := varTypeParse_iff.1 h2
    exact ⟨⟨h1, written_iff.2 ⟨vt, h2⟩⟩, some vt, h2, rfl⟩
  · rintro ⟨⟨h1, _⟩, o, h2, rfl⟩
    obtain ⟨v, t, w, a, b, c, d, rfl⟩ := h2
    exact ⟨h1, _, varTypeParse_iff.2 ⟨v, t, w, a, b, c, d, rfl⟩, rfl⟩

theorem args_iff [GoUnicode] {ts : List TypeDecl} {as as' : List Argument} :
    Pointwise (fun a b => argParse ts a = .ok b) as as' ↔
      (∀ a ∈ as, a.name ≠ [] ∧ WrittenType ts a.type) ∧ Pointwise (ArgBecomes ts) as as' := by
  constructor
  · intro h
    refine ⟨?_, h.imp fun a b q => (argParse_iff.1 q).2⟩
    intro a ha
    obtain ⟨b, _, hb⟩ := h.mem_left ha
    exact (argParse_iff.1 hb).1
  · rintro ⟨h1, h2⟩
    exact Pointwise.imp_mem h2 fun a ha b hb => argParse_iff.2 ⟨h1 a ha, hb⟩

theorem methodParse_iff [GoUnicode] {ts : List TypeDecl} {es : List ErrorDecl} {m m' : Method} (hn : m.name ≠ []) :
    methodParse ts es m = .ok m' ↔ ValidMethod ts (es.map (·.name)) m ∧ MethodBecomes ts m m' := by
  rw [methodParse_ok]
  constructor
  · rintro ⟨h1, h2, ins, outs, h3, h4, rfl⟩
    obtain ⟨a1, a2⟩ := args_iff.1 h3
    obtain ⟨b1, b2⟩ := args_iff.1 h4
    refine ⟨⟨hn, ?_, ?_, h1⟩, ins, outs, a2, b2, rfl⟩
    · intro a ha
      rcases List.mem_append.1 ha with ha | ha
      · exact a1 a ha
      · exact b1 a ha
    · intro n hn'
      obtain ⟨e, he, rfl⟩ := h2 n hn'
      exact List.mem_map_of_mem he
  · rintro ⟨⟨_, h1, h2, h3⟩, ins, outs, h4, h5, rfl⟩
    refine ⟨h3, ?_, ins, outs, args_iff.2 ⟨fun a ha => h1 a (by simp [ha]), h4⟩,
      args_iff.2 ⟨fun a ha => h1 a (by simp [ha]), h5⟩, rfl⟩
    intro n hn'
    obtain ⟨e, he, rfl⟩ := List.mem_map.1 (h2 n hn')
    exact ⟨e, he, rfl⟩

theorem serviceParse_iff [GoUnicode] {ts : List TypeDecl} {es : List ErrorDecl} {ss : List Service} {v v' : Service} :
    serviceParse ts es ss v = .ok v' ↔ ValidService ts (es.map (·.name)) ss v ∧ ServiceBecomes ts v v' := by
  rw [serviceParse_ok]
  constructor
  · rintro ⟨h1, h2, h3, h4, h5, ms, h6, rfl⟩
    refine ⟨⟨h1, h2, h3, ?_, List.pairwise_map.2 h5⟩, ms, ?_, rfl⟩
    · intro m hm
      obtain ⟨m', _, hm'⟩ := h6.mem_left hm
      exact ((methodParse_iff (h4 m hm)).1 hm').1
    · exact Pointwise.imp_mem h6 fun m hm m' hm' => ((methodParse_iff (h4 m hm)).1 hm').2
  · rintro ⟨⟨h1, h2, h3, h4, h5⟩, ms, h6, rfl⟩
    have h5' : v.methods.Pairwise (fun a b => toLower a.name ≠ toLower b.name) := by
      unfold DistinctNames at h5
      rw [List.pairwise_map] at h5
      exact h5
    refine ⟨h1, h2, h3, fun m hm => (h4 m hm).name, h5', ms, ?_, rfl⟩
    exact Pointwise.imp_mem h6 fun m hm m' hm' => (methodParse_iff (h4 m hm).name).2 ⟨h4 m hm, hm'⟩

theorem serviceParse_sig [GoUnicode] {ts ts' : List TypeDecl} (hsig : ts.map TypeDecl.sig = ts'.map TypeDecl.sig)
    (es : List ErrorDecl) (ss : List Service) (v : Service) :
    serviceParse ts es ss v = serviceParse ts' es ss v := by
  have ha : ∀ a, argParse ts a = argParse ts' a := fun a => by simp only [argParse, varTypeParse_sig hsig]
  have ha' : argParse ts = argParse ts' := funext ha
  have hm : methodParse ts es = methodParse ts' es := funext fun m => by simp only [methodParse, ha']
  simp only [serviceParse, hm]

/-! ## The property -/

/-- C66. Validation succeeds exactly on the valid schemas, and what it returns is then completely
determined: the same schema with slashes around the base path, trimmed error names and the trees of
the types of fields and arguments. -/
theorem C66_validates_exactly [GoUnicode] (hcase : CaseKeepsBlanks) (s s' : Schema) :
    validate s = .ok s' ↔ ValidSchema s ∧ Validated s s' := by
  rw [validate_ok]
  constructor
  · rintro ⟨h1, h2, b, ts, es, ss, h3, h4, h5, h6, rfl⟩
    have hsig : s.types.map TypeDecl.sig = ts.map TypeDecl.sig := types_sig (each_ok.2 h4)
    obtain ⟨p1, p2⟩ := normBasePath_iff.1 h3
    obtain ⟨tl, e1, e2, e3, e4⟩ := errorsParse_ok h5
    simp at e1; subst e1
    have hpw : es.Pairwise (fun a b => toLower a.name ≠ toLower b.name ∧ a.code ≠ b.code) := by
      by_cases hz : s.errors = []
      · simp [hz] at e2; simp [e2]
      · exact e4 hz
    have hen : es.map (·.name) = s.errors.map fun e => trimSpace e.name := by rw [e2]; simp
    have hec : es.map (·.code) = s.errors.map (·.code) := by rw [e2]; simp
    refine ⟨⟨h1, h2, p1, ?_, ?_, ?_, ?_, ?_⟩, ⟨⟨rfl, rfl, rfl⟩, p2, ?_, e2, ?_, rfl⟩⟩
    · intro t ht
      obtain ⟨t', _, htt⟩ := h4.mem_left ht
      exact (typeParse_iff.1 htt).1
    · intro e he
      have := errorOk_iff.1 (e3 { e with name := trimSpace e.name } (by rw [e2]; exact List.mem_map_of_mem he))
      exact ⟨this.name, this.notReserved, this.code, this.message, this.status⟩
    · rw [← hen]; exact List.pairwise_map.2 (hpw.imp fun h => h.1)
    · rw [← hec]; exact List.pairwise_map.2 (hpw.imp fun h => h.2)
    · intro v hv
      obtain ⟨v', _, hvv⟩ := h6.mem_left hv
      rw [← serviceParse_sig hsig] at hvv
      have := (serviceParse_iff.1 hvv).1
      rw [hen] at this
      exact this
    · exact h4.imp fun t t' h => (typeParse_iff.1 h).2
    · refine h6.imp fun v v' hvv => ?_
      rw [← serviceParse_sig hsig] at hvv
      exact (serviceParse_iff.1 hvv).2
  · rintro ⟨⟨h1, h2, h3, h4, h5, h6, h7, h8⟩, ⟨⟨g1, g2, g3⟩, g4, g5, g6, g7, g8⟩⟩
    have ht : Pointwise (fun t t' => typeParse s.types t = .ok t') s.types s'.types :=
      Pointwise.imp_mem g5 fun t hm t' htt => typeParse_iff.2 ⟨h4 t hm, htt⟩
    have hsig : s.types.map TypeDecl.sig = s'.types.map TypeDecl.sig := types_sig (each_ok.2 ht)
    have he := errorsParse_complete hcase (b := []) h5 (by simpa using h6) (by simpa using h7)
    refine ⟨h1, h2, s'.basePath, s'.types, s'.errors, s'.services, normBasePath_iff.2 ⟨h3, g4⟩, ht, ?_, ?_, ?_⟩
    · rw [g6]; simpa using he
    · refine Pointwise.imp_mem g7 fun v hv v' hvv => ?_
      rw [← serviceParse_sig hsig]
      refine serviceParse_iff.2 ⟨?_, hvv⟩
      have := h8 v hv
      rw [g6]
      simpa [List.map_map, Function.comp_def] using this
    · cases s; cases s'; simp_all

theorem becomes_exists [GoUnicode] {ts : List TypeDecl} {o : Option VarType} (h : WrittenType ts o) :
    ∃ o', TypeBecomes ts o o' := by
  obtain ⟨vt, h⟩ := written_iff.1 h
  exact ⟨_, h⟩

/-- C66. A schema is accepted exactly when it is valid: every valid schema is accepted, whatever
it contains, and no other. -/
theorem C66_accepts_exactly [GoUnicode] (hcase : CaseKeepsBlanks) (s : Schema) :
    (∃ s', validate s = .ok s') ↔ ValidSchema s := by
  constructor
  · rintro ⟨s', h⟩
    exact ((C66_validates_exactly hcase s s').1 h).1
  · intro h
    have args : ∀ as : List Argument, (∀ a ∈ as, a.name ≠ [] ∧ WrittenType s.types a.type) →
        ∃ as', Pointwise (ArgBecomes s.types) as as' := by
      intro as ha
      refine pointwise_choose fun a hm => ?_
      obtain ⟨o, ho⟩ := becomes_exists (ha a hm).2
      exact ⟨_, o, ho, rfl⟩
    obtain ⟨ts, hts⟩ : ∃ ts, Pointwise (TypeDeclBecomes s.types) s.types ts := by
      refine pointwise_choose fun t hm => ?_
      by_cases hk : t.kind = S "struct"
      · obtain ⟨fs, hfs⟩ := pointwise_choose (xs := t.fields)
          (R := fun f f' => ∃ o, TypeBecomes s.types f.type o ∧ f' = { f with type := o }) fun f hf => by
            obtain ⟨o, ho⟩ := becomes_exists ((h.types t hm).struct hk |>.2 f hf).2
            exact ⟨_, o, ho, rfl⟩
        exact ⟨_, .inr ⟨hk, fs, rfl, hfs⟩⟩
      · exact ⟨t, .inl ⟨hk, rfl⟩⟩
    obtain ⟨ss, hss⟩ : ∃ ss, Pointwise (ServiceBecomes s.types) s.services ss := by
      refine pointwise_choose fun v hv => ?_
      obtain ⟨ms, hms⟩ := pointwise_choose (xs := v.methods) (R := MethodBecomes s.types) fun m hm => by
        have hmv := (h.services v hv).methods m hm
        obtain ⟨ins, h1⟩ := args m.inputs fun a ha => hmv.args a (by simp [ha])
        obtain ⟨outs, h2⟩ := args m.outputs fun a ha => hmv.args a (by simp [ha])
        exact ⟨_, ins, outs, h1, h2, rfl⟩
      exact ⟨_, ms, hms, rfl⟩
    refine ⟨{ s with
      basePath := if s.basePath = [] then [] else slashed s.basePath, types := ts,
      errors := s.errors.map fun e => { e with name := trimSpace e.name }, services := ss }, ?_⟩
    exact (C66_validates_exactly hcase s _).2 ⟨h, ⟨⟨rfl, rfl, rfl⟩, rfl, hts, rfl, hss, rfl⟩⟩

/-- The hypothesis on case mapping holds in the ASCII instance used for examples. -/
theorem caseKeepsBlanks_ascii : let _ := asciiOnly; CaseKeepsBlanks := by
  intro _ c
  unfold lowerChar
  split
  · split
    · next h1 h2 =>
      have h65 : 65 ≤ c.toNat := h2.1
      have h90 : c.toNat ≤ 90 := h2.2
      have hv : (Char.ofNat (c.toNat + 32)).toNat = c.toNat + 32 := by
        have hvv : (c.toNat + 32).isValidChar := by left; omega
        rw [Char.ofNat, dif_pos hvv]; rfl
      have e1 : isSpace (Char.ofNat (c.toNat + 32)) = false := by
        unfold isSpace
        rw [hv]
        generalize c.toNat = n at *
        simp
        omega
      have e2 : isSpace c = false := by
        unfold isSpace
        generalize c.toNat = n at *
        simp
        omega
      rw [e1, e2]
    · rfl
  · rfl

/-- C66: the example schema meets the conditions, so they are not contradictory. -/
theorem C66_example : let _ := asciiOnly; ValidSchema exSchema := by
  intro _
  exact (C66_accepts_exactly caseKeepsBlanks_ascii exSchema).1 exSchema_valid

end Verif.Props
