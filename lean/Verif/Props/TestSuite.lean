import Verif.Props.TypedCalls
import Verif.Spec.TestSuite
/-!
# Properties of the interoperability test suite (C81)
-/

namespace Verif.Values
open Verif.Schema hiding Json Method
open Verif.Json Verif.Gen Verif.Rpc Verif.RpcSpec Verif.Props

theorem checkCall_nil {m : Str} {r : TypedReturn} : (checkCall m r).1 = [] ↔ Succeeds r := by
  cases r with
  | ok vals => exact ⟨fun _ => ⟨vals, rfl⟩, fun _ => rfl⟩
  | error e => exact ⟨fun h => (nomatch h), fun ⟨_, h⟩ => (nomatch h)⟩

theorem checkPair_nil {m m' : Str} {r : TypedReturn} {f : List GoVal → TypedReturn} :
    ((checkCall m r).1 = [] ∧ (checkCall m' (f (checkCall m r).2)).1 = []) ↔ ∃ vals, r = .ok vals ∧ Succeeds (f vals) := by
  cases r with
  | ok vals =>
    rw [checkCall_nil, checkCall_nil]
    constructor
    · rintro ⟨-, h⟩; exact ⟨vals, rfl, h⟩
    · rintro ⟨v, hv, h⟩; cases hv; exact ⟨⟨vals, rfl⟩, h⟩
  | error e => exact ⟨fun h => (nomatch h.1), fun ⟨_, h, _⟩ => (nomatch h)⟩

theorem checkError_nil {row : RpcError} {r : TypedReturn} :
    checkError row r = [] ↔ ∃ cause, r = .error { row with cause := cause } ∧ (cause = [] ∨ cause = row.cause) := by
  unfold checkError
  cases r with
  | ok vals =>
    constructor
    · intro h
      simp only [List.append_eq_nil_iff] at h
      exact absurd h.1.1.1.1.1 (by simp)
    · rintro ⟨_, h, -⟩; cases h
  | error e =>
    simp only [List.append_eq_nil_iff]
    constructor
    · rintro ⟨⟨⟨⟨⟨h1, h2⟩, h3⟩, h4⟩, h5⟩, h6⟩
      have e2 : e.code = row.code := by
        by_cases h : e.code = row.code
        · exact h
        · rw [if_pos h] at h2; cases h2
      have e3 : e.name = row.name := by
        by_cases h : e.name = row.name
        · exact h
        · rw [if_pos h] at h3; cases h3
      have e4 : e.message = row.message := by
        by_cases h : e.message = row.message
        · exact h
        · rw [if_pos h] at h4; cases h4
      have e5 : e.httpStatus = row.httpStatus := by
        by_cases h : e.httpStatus = row.httpStatus
        · exact h
        · rw [if_pos h] at h5; cases h5
      have e6 : e.cause = [] ∨ e.cause = row.cause := by
        by_cases h : e.cause = []
        · exact Or.inl h
        · by_cases h' : e.cause = row.cause
          · exact Or.inr h'
          · rw [if_pos ⟨h, h'⟩] at h6; cases h6
      refine ⟨e.cause, ?_, e6⟩
      cases e; cases row
      dsimp only at e2 e3 e4 e5
      subst e2 e3 e4 e5
      rfl
    · rintro ⟨cause, h, hc⟩
      cases h
      refine ⟨⟨⟨⟨⟨?_, ?_⟩, ?_⟩, ?_⟩, ?_⟩, ?_⟩
      · rw [if_pos]; simp [RpcError.is]
      · simp
      · simp
      · simp
      · simp
      · rw [if_neg]
        rintro ⟨h1, h2⟩
        rcases hc with hc | hc
        · exact h1 hc
        · exact h2 hc

theorem listLen_two {vals : List GoVal} : listLen vals = 2 ↔ ∃ a b, vals = [.list [a, b]] := by
  constructor
  · intro h
    unfold listLen at h
    split at h
    · rename_i l
      match l, h with
      | [a, b], _ => exact ⟨a, b, rfl⟩
    · cases h
  · rintro ⟨a, b, rfl⟩; rfl

theorem mapLen_two {vals : List GoVal} : mapLen vals = 2 ↔ ∃ a b, vals = [.map [a, b]] := by
  constructor
  · intro h
    unfold mapLen at h
    split at h
    · rename_i l
      match l, h with
      | [a, b], _ => exact ⟨a, b, rfl⟩
    · cases h
  · rintro ⟨a, b, rfl⟩; rfl

theorem checkLen_nil {m : Str} {r : TypedReturn} {len : List GoVal → Nat} {P : List GoVal → Prop} {f : Failure}
    (hz : len (zeros (testSignature m).results) ≠ 2) (h : ∀ vals, len vals = 2 ↔ P vals) :
    ((checkCall m r).1 = [] ∧ (if len (checkCall m r).2 ≠ 2 then [f] else []) = []) ↔ ∃ vals, r = .ok vals ∧ P vals := by
  cases r with
  | ok vals =>
    show (_ ∧ (if len vals ≠ 2 then [f] else []) = []) ↔ _
    constructor
    · rintro ⟨-, h'⟩
      refine ⟨vals, rfl, (h vals).1 ?_⟩
      by_cases hl : len vals = 2
      · exact hl
      · rw [if_pos hl] at h'; cases h'
    · rintro ⟨v, hv, hp⟩
      cases hv
      exact ⟨rfl, by rw [if_neg]; exact fun hn => hn ((h vals).2 hp)⟩
  | error e => exact ⟨fun h => (nomatch h.1), fun ⟨_, h, _⟩ => (nomatch h)⟩

/-- C81. `RunTests` finds nothing to complain about exactly if the client sees what it should. -/
theorem C81_verdict_partial (call : Str → List GoVal → TypedReturn) : runTests call = [] ↔ Passes call := by
  unfold runTests
  dsimp only
  simp only [List.append_eq_nil_iff, List.flatMap_eq_nil_iff]
  have hone := checkPair_nil (m := S "GetOne") (m' := S "SendOne") (r := call (S "GetOne") []) (f := call (S "SendOne"))
  have hmulti := checkPair_nil (m := S "GetMulti") (m' := S "SendMulti") (r := call (S "GetMulti") []) (f := call (S "SendMulti"))
  have hcomplex := checkPair_nil (m := S "GetComplex") (m' := S "SendComplex") (r := call (S "GetComplex") []) (f := call (S "SendComplex"))
  have hlist := fun f => checkLen_nil (m := S "GetEnumList") (r := call (S "GetEnumList") []) (len := listLen) (f := f)
    (by decide +kernel) fun vals => listLen_two (vals := vals)
  have hmap := fun f => checkLen_nil (m := S "GetEnumMap") (r := call (S "GetEnumMap") []) (len := mapLen) (f := f)
    (by decide +kernel) fun vals => mapLen_two (vals := vals)
  constructor
  · rintro ⟨⟨⟨⟨⟨⟨⟨⟨⟨⟨⟨⟨h1, h2⟩, h3⟩, h4⟩, h5⟩, h6⟩, h7⟩, h8⟩, h9⟩, h10⟩, h11⟩, h12⟩, h13⟩
    refine ⟨checkCall_nil.1 h1, ?_, hone.1 ⟨h3, h4⟩, hmulti.1 ⟨h5, h6⟩, hcomplex.1 ⟨h7, h8⟩, ?_, ?_, ?_⟩
    · cases hc : call (S "GetError") [] with
      | ok vals => rw [hc] at h2; cases h2
      | error e => exact ⟨e, rfl⟩
    · obtain ⟨v, hv, a, b, rfl⟩ := (hlist _).1 ⟨h9, h10⟩
      exact ⟨a, b, hv⟩
    · obtain ⟨v, hv, a, b, rfl⟩ := (hmap _).1 ⟨h11, h12⟩
      exact ⟨a, b, hv⟩
    · intro row hr
      exact checkError_nil.1 (h13 row hr)
  · rintro ⟨h1, ⟨e, h2⟩, h3, h4, h5, ⟨a, b, h6⟩, ⟨a', b', h7⟩, h8⟩
    have i3 := hone.2 h3
    have i4 := hmulti.2 h4
    have i5 := hcomplex.2 h5
    have i6 := (hlist (.items (S "GetEnumList") (listLen (checkCall (S "GetEnumList") (call (S "GetEnumList") [])).2))).2
      ⟨_, h6, a, b, rfl⟩
    have i7 := (hmap (.items (S "GetEnumMap") (mapLen (checkCall (S "GetEnumMap") (call (S "GetEnumMap") [])).2))).2
      ⟨_, h7, a', b', rfl⟩
    exact ⟨⟨⟨⟨⟨⟨⟨⟨⟨⟨⟨⟨checkCall_nil.2 h1, by rw [h2]⟩, i3.1⟩, i3.2⟩, i4.1⟩, i4.2⟩, i5.1⟩, i5.2⟩, i6.1⟩, i6.2⟩, i7.1⟩, i7.2⟩,
      fun row hr => checkError_nil.2 (h8 row hr)⟩

/-! ### Servers -/

variable [GoFloat]

/-- A call of the test client to a server around an implementation. -/
theorem test_call [GoUnicode] (impl : Str → List GoVal → TypedOutcome) (onRequest : Option (Ends (Option GoError)))
    (hh : onRequest = none ∨ onRequest = some (.ok none)) (name : Str) (sig : Signature)
    (h : testSignatures.lookup name = some sig) (args : List GoVal) (hc : CarriedFields testDecls sig.args args) :
    ∃ args', deepEqualList args args' = true ∧
      (∀ vals, impl name args' = .results vals → CarriedFields testDecls sig.results vals →
        ∃ vals', testCall (typedApi impl onRequest none) name args = .ok vals' ∧ deepEqualList vals vals' = true ∧
          CarriedFields testDecls sig.results vals') ∧
      (∀ g, impl name args' = .error g → Sendable g.toRpc.httpStatus → g.toRpc.httpStatus ≠ 200 →
        -(2 ^ 63) ≤ g.toRpc.code ∧ g.toRpc.code < 2 ^ 63 →
        testCall (typedApi impl onRequest none) name args = .error g.toRpc) := by
  obtain ⟨e1, e2⟩ := C80_test_service impl onRequest none
  have hs : testSignature name = sig := by unfold testSignature; rw [h]; rfl
  obtain ⟨ha, hr⟩ := e2 _ (lookup_mem h)
  obtain ⟨body, args', -, h2, -, -, h5, h6, h7, -⟩ := C80_typed_call testDecls testDecls_ok (S "TestApi")
    (S "webrpc;gen-golang;Test@v1.0.0") testSignatures impl onRequest hh name sig h ha hr args hc
  have ht : testCall (typedApi impl onRequest none) name args = typedCall testDecls (S "TestApi") name sig
      (typedServer testDecls (S "TestApi") (S "webrpc;gen-golang;Test@v1.0.0") testSignatures impl onRequest none) args := by
    unfold testCall; rw [e1, hs]
  rw [ht]
  refine ⟨args', h2, h5, ?_⟩
  intro g hg hs h200 hcode
  cases g with
  | rpc e => exact h6 e hg hs h200 hcode
  | other text => exact h7 text hg

omit [GoFloat] in
theorem list_one {a : GoVal} {l : List GoVal} (h : deepEqualList [a] l = true) : ∃ b, l = [b] ∧ deepEqual a b = true := by
  match l with
  | [] => simp [deepEqualList] at h
  | [b] => exact ⟨b, rfl, by simpa [deepEqualList] using h⟩
  | b :: c :: r => simp [deepEqualList] at h

omit [GoFloat] in
theorem list_three {a b c : GoVal} {l : List GoVal} (h : deepEqualList [a, b, c] l = true) :
    ∃ x y z, l = [x, y, z] ∧ deepEqual a x = true ∧ deepEqual b y = true ∧ deepEqual c z = true := by
  match l with
  | [] => simp [deepEqualList] at h
  | [_] => simp [deepEqualList] at h
  | [_, _] => simp [deepEqualList] at h
  | [x, y, z] =>
    simp only [deepEqualList, Bool.and_eq_true, and_true] at h
    exact ⟨x, y, z, rfl, h⟩
  | _ :: _ :: _ :: _ :: _ => simp [deepEqualList] at h

omit [GoFloat] in
theorem nil_of {l : List GoVal} (h : deepEqualList [] l = true) : l = [] := by
  cases l with
  | nil => rfl
  | cons _ _ => simp [deepEqualList] at h

omit [GoFloat] in
theorem rows_ok : ∀ row ∈ schemaErrorRows, (200 ≤ row.httpStatus ∧ row.httpStatus ≤ 999 ∧ row.httpStatus ≠ 204 ∧ row.httpStatus ≠ 304) ∧
    row.httpStatus ≠ 200 ∧ -(2 ^ 63) ≤ row.code ∧ row.code < 2 ^ 63 := by decide +kernel

/-- C81. An implementation that returns something of the right types, accepts what it returned, and gives the errors of the
table passes, through the generated server and client. -/
theorem C81_server [GoUnicode] (impl : Str → List GoVal → TypedOutcome) (onRequest : Option (Ends (Option GoError)))
    (hh : onRequest = none ∨ onRequest = some (.ok none)) (h : ServesTests impl) :
    runTests (testCall (typedApi impl onRequest none)) = [] := by
  rw [C81_verdict_partial]
  have none0 : CarriedFields testDecls [] [] := .nil
  refine ⟨?_, ?_, ?_, ?_, ?_, ?_, ?_, ?_⟩
  · obtain ⟨a, h1, h2, -⟩ := test_call impl onRequest hh (S "GetEmpty") _ rfl [] none0
    obtain rfl := nil_of h1
    obtain ⟨v, hv, -⟩ := h2 _ h.empty none0
    exact ⟨v, hv⟩
  · obtain ⟨text, he⟩ := h.error
    obtain ⟨a, h1, -, h3⟩ := test_call impl onRequest hh (S "GetError") _ rfl [] none0
    obtain rfl := nil_of h1
    exact ⟨_, h3 _ he (by show Sendable 400; unfold Sendable; decide) (by show (400 : Int) ≠ 200; decide)
      ⟨by show -(2^63) ≤ (0 : Int); decide, by show (0 : Int) < 2 ^ 63; decide⟩⟩
  · obtain ⟨v, g1, g2, g3⟩ := h.one
    obtain ⟨a, h1, h2, -⟩ := test_call impl onRequest hh (S "GetOne") _ rfl [] none0
    obtain rfl := nil_of h1
    obtain ⟨vals, k1, k2, k3⟩ := h2 _ g1 (plainField g2 .nil)
    obtain ⟨w, rfl, hw⟩ := list_one k2
    refine ⟨_, k1, ?_⟩
    obtain ⟨a, h1, h2, -⟩ := test_call impl onRequest hh (S "SendOne") _ rfl [w] k3
    obtain ⟨x, rfl, hx⟩ := list_one h1
    obtain ⟨r, r1, -⟩ := h2 _ (g3 x (deepEqual_trans _ _ _ hw hx)) none0
    exact ⟨r, r1⟩
  · obtain ⟨v1, v2, v3, g1, c1, c2, c3, g3⟩ := h.multi
    obtain ⟨a, h1, h2, -⟩ := test_call impl onRequest hh (S "GetMulti") _ rfl [] none0
    obtain rfl := nil_of h1
    obtain ⟨vals, k1, k2, k3⟩ := h2 _ g1 (plainField c1 (plainField c2 (plainField c3 .nil)))
    obtain ⟨w1, w2, w3, rfl, e1, e2, e3⟩ := list_three k2
    refine ⟨_, k1, ?_⟩
    obtain ⟨a, h1, h2, -⟩ := test_call impl onRequest hh (S "SendMulti") _ rfl [w1, w2, w3] k3
    obtain ⟨x1, x2, x3, rfl, f1, f2, f3⟩ := list_three h1
    obtain ⟨r, r1, -⟩ := h2 _ (g3 x1 x2 x3 (deepEqual_trans _ _ _ e1 f1) (deepEqual_trans _ _ _ e2 f2)
      (deepEqual_trans _ _ _ e3 f3)) none0
    exact ⟨r, r1⟩
  · obtain ⟨v, g1, g2, g3⟩ := h.complex
    obtain ⟨a, h1, h2, -⟩ := test_call impl onRequest hh (S "GetComplex") _ rfl [] none0
    obtain rfl := nil_of h1
    obtain ⟨vals, k1, k2, k3⟩ := h2 _ g1 (plainField g2 .nil)
    obtain ⟨w, rfl, hw⟩ := list_one k2
    refine ⟨_, k1, ?_⟩
    obtain ⟨a, h1, h2, -⟩ := test_call impl onRequest hh (S "SendComplex") _ rfl [w] k3
    obtain ⟨x, rfl, hx⟩ := list_one h1
    obtain ⟨r, r1, -⟩ := h2 _ (g3 x (deepEqual_trans _ _ _ hw hx)) none0
    exact ⟨r, r1⟩
  · obtain ⟨a, b, g1, g2⟩ := h.list
    obtain ⟨a', h1, h2, -⟩ := test_call impl onRequest hh (S "GetEnumList") _ rfl [] none0
    obtain rfl := nil_of h1
    obtain ⟨vals, k1, k2, k3⟩ := h2 _ g1 (plainField g2 .nil)
    obtain ⟨w, rfl, hw⟩ := list_one k2
    cases w <;> first | (simp [deepEqual] at hw; done) | skip
    rename_i l
    rw [deepEqual] at hw
    match l, hw with
    | [x, y], _ => exact ⟨x, y, k1⟩
    | [], hw => simp [deepEqualList] at hw
    | [_], hw => simp [deepEqualList] at hw
    | _ :: _ :: _ :: _, hw => simp [deepEqualList] at hw
  · obtain ⟨a, b, g1, g2⟩ := h.map
    obtain ⟨a', h1, h2, -⟩ := test_call impl onRequest hh (S "GetEnumMap") _ rfl [] none0
    obtain rfl := nil_of h1
    obtain ⟨vals, k1, k2, k3⟩ := h2 _ g1 (plainField g2 .nil)
    obtain ⟨w, rfl, hw⟩ := list_one k2
    cases w <;> first | (simp [deepEqual] at hw; done) | skip
    rename_i l
    rw [deepEqual, Bool.and_eq_true, beq_iff_eq] at hw
    match l, hw.1 with
    | [x, y], _ => exact ⟨x, y, k1⟩
  · intro row hr
    obtain ⟨g, cause, g1, g2, g3⟩ := h.errors row hr
    obtain ⟨r1, r2, r3⟩ := rows_ok row hr
    obtain ⟨a, h1, -, h3⟩ := test_call impl onRequest hh (S "GetSchemaError") _ rfl [.int row.code]
      (plainField (.int (fits_int _ r3)) .nil)
    obtain ⟨x, rfl, hx⟩ := list_one h1
    have : x = .int row.code := by
      cases x <;> simp_all [deepEqual]
    subst this
    have h4 := h3 g g1 (by rw [g2]; exact r1) (by rw [g2]; exact r2) (by rw [g2]; exact r3)
    rw [g2] at h4
    exact ⟨cause, h4, g3⟩

/-- C81. The reference client passes against the reference server. -/
theorem C81_reference [GoUnicode] (hf : GoFloat.norm 64 (S "24") = some (S "24")) (diff : GoVal → GoVal → Str) :
    runTests (testCall (typedApi (testServer diff) none none)) = [] := by
  apply C81_server _ _ (Or.inl rfl)
  have ex : ∀ {what want got}, deepEqual want got = true → expect diff what want got = none := by
    intro what want got h; unfold expect; rw [if_pos h]
  refine ⟨rfl, ⟨_, rfl⟩, ⟨fixtureOne, rfl, simple_carried _ _, ?_⟩, ⟨fixtureOne, fixtureTwo, fixtureThree, rfl, simple_carried _ _, simple_carried _ _,
    simple_carried _ _, ?_⟩, ⟨fixtureComplex, rfl, complex_carried hf, ?_⟩, ⟨_, _, rfl, enumList_carried⟩, ⟨_, _, rfl, enumMap_carried⟩, ?_⟩
  · intro w hw
    show firstError [expect diff (S "one") fixtureOne w] = _
    rw [ex hw]; rfl
  · intro w1 w2 w3 h1 h2 h3
    show firstError [expect diff (S "one") fixtureOne w1, expect diff (S "two") fixtureTwo w2, expect diff (S "three") fixtureThree w3] = _
    rw [ex h1, ex h2, ex h3]; rfl
  · intro w hw
    show firstError [expect diff (S "complex") fixtureComplex w] = _
    rw [ex hw]; rfl
  · have : ∀ row ∈ schemaErrorRows, (match schemaErrorCases.lookup row.code with
        | some g => decide (g.toRpc = row)
        | none => false) = true := by decide +kernel
    intro row hr
    have h := this row hr
    cases hl : schemaErrorCases.lookup row.code with
    | none => rw [hl] at h; cases h
    | some g =>
      rw [hl] at h
      refine ⟨g, row.cause, ?_, of_decide_eq_true h, Or.inr rfl⟩
      show firstError [schemaErrorCases.lookup row.code] = _
      rw [hl]; rfl

/-- C81. A server that gives another error for a row of the table (another code, name, message or status, or another
cause), or none, does not pass. -/
theorem C81_detects [GoUnicode] (impl : Str → List GoVal → TypedOutcome) (onRequest : Option (Ends (Option GoError)))
    (hh : onRequest = none ∨ onRequest = some (.ok none)) (row : RpcError) (hr : row ∈ schemaErrorRows)
    (h : impl (S "GetSchemaError") [.int row.code] = .results [] ∨
      ∃ g, impl (S "GetSchemaError") [.int row.code] = .error g ∧ Sendable g.toRpc.httpStatus ∧ g.toRpc.httpStatus ≠ 200 ∧
        (-(2 ^ 63) ≤ g.toRpc.code ∧ g.toRpc.code < 2 ^ 63) ∧
        (g.toRpc.code ≠ row.code ∨ g.toRpc.name ≠ row.name ∨ g.toRpc.message ≠ row.message ∨
          g.toRpc.httpStatus ≠ row.httpStatus ∨ (g.toRpc.cause ≠ [] ∧ g.toRpc.cause ≠ row.cause))) :
    runTests (testCall (typedApi impl onRequest none)) ≠ [] := by
  rw [Ne, C81_verdict_partial]
  intro hp
  obtain ⟨cause, hc, hcc⟩ := hp.errors row hr
  obtain ⟨r1, r2, r3⟩ := rows_ok row hr
  obtain ⟨a, h1, h2, h3⟩ := test_call impl onRequest hh (S "GetSchemaError") _ rfl [.int row.code]
    (plainField (.int (fits_int _ r3)) .nil)
  obtain ⟨x, rfl, hx⟩ := list_one h1
  have : x = .int row.code := by cases x <;> simp_all [deepEqual]
  subst this
  rcases h with h | ⟨g, g1, g2, g3, g4, g5⟩
  · obtain ⟨v, hv, -⟩ := h2 _ h .nil
    rw [hv] at hc; cases hc
  · rw [h3 g g1 g2 g3 g4] at hc
    simp only [TypedReturn.error.injEq] at hc
    rw [hc] at g5
    rcases g5 with h | h | h | h | ⟨h, h'⟩
    · exact h rfl
    · exact h rfl
    · exact h rfl
    · exact h rfl
    · rcases hcc with hcc | hcc
      · exact h hcc
      · exact h' hcc

/-- C81. A server that refuses what it returned does not pass. -/
theorem C81_detects_refusal [GoUnicode] (impl : Str → List GoVal → TypedOutcome) (onRequest : Option (Ends (Option GoError)))
    (hh : onRequest = none ∨ onRequest = some (.ok none)) (v : GoVal) (hv : Carried testDecls (.ref (S "Complex")) v)
    (h1 : impl (S "GetComplex") [] = .results [v])
    (h2 : ∀ w, deepEqual v w = true → ∃ text, impl (S "SendComplex") [w] = .error (.other text)) :
    runTests (testCall (typedApi impl onRequest none)) ≠ [] := by
  rw [Ne, C81_verdict_partial]
  intro hp
  obtain ⟨vals, p1, r, p2⟩ := hp.complex
  obtain ⟨a, k1, k2, -⟩ := test_call impl onRequest hh (S "GetComplex") _ rfl [] .nil
  obtain rfl := nil_of k1
  obtain ⟨vals', q1, q2, q3⟩ := k2 _ h1 (plainField hv .nil)
  rw [p1] at q1
  cases q1
  obtain ⟨w, rfl, hw⟩ := list_one q2
  obtain ⟨a, k1, -, k3⟩ := test_call impl onRequest hh (S "SendComplex") _ rfl [w] q3
  obtain ⟨x, rfl, hx⟩ := list_one k1
  obtain ⟨text, ht⟩ := h2 x (deepEqual_trans _ _ _ hw hx)
  have := k3 _ ht (by show Sendable 400; unfold Sendable; decide) (by show (400 : Int) ≠ 200; decide)
      ⟨by show -(2^63) ≤ (0 : Int); decide, by show (0 : Int) < 2 ^ 63; decide⟩
  rw [p2] at this
  cases this

/-- What the reference server says to a value it did not expect. -/
def Unexpected (r : TypedOutcome) : Prop :=
  ∃ cause, r = .error (.rpc ⟨S "UnexpectedValue", 8, S "unexpected value", cause, 400⟩)

omit [GoFloat] in
theorem firstError_unexpected (diff : GoVal → GoVal → Str) (l : List (Str × GoVal × GoVal)) :
    (firstError (l.map fun p => expect diff p.1 p.2.1 p.2.2) = .results [] ↔ ∀ p ∈ l, deepEqual p.2.1 p.2.2 = true) ∧
    ((∃ p ∈ l, deepEqual p.2.1 p.2.2 = false) → Unexpected (firstError (l.map fun p => expect diff p.1 p.2.1 p.2.2))) := by
  induction l with
  | nil => exact ⟨⟨fun _ p hp => (nomatch hp), fun _ => rfl⟩, by rintro ⟨p, hp, _⟩; cases hp⟩
  | cons p l ih =>
    cases hp : deepEqual p.2.1 p.2.2 with
    | true =>
      have e : expect diff p.1 p.2.1 p.2.2 = none := by unfold expect; rw [if_pos hp]
      rw [List.map_cons, e, firstError]
      constructor
      · rw [ih.1]
        constructor
        · intro h q hq
          rcases List.mem_cons.1 hq with rfl | hq
          · exact hp
          · exact h q hq
        · intro h q hq
          exact h q (by simp [hq])
      · rintro ⟨q, hq, hn⟩
        rcases List.mem_cons.1 hq with rfl | hq
        · rw [hp] at hn; cases hn
        · exact ih.2 ⟨q, hq, hn⟩
    | false =>
      have e : ∃ cause, expect diff p.1 p.2.1 p.2.2 = some (.rpc ⟨S "UnexpectedValue", 8, S "unexpected value", cause, 400⟩) := by
        unfold expect; rw [if_neg (by rw [hp]; decide)]; exact ⟨_, rfl⟩
      obtain ⟨cause, e⟩ := e
      rw [List.map_cons, e, firstError]
      refine ⟨⟨fun h => (nomatch h), fun h => ?_⟩, fun _ => ⟨cause, rfl⟩⟩
      have := h p (by simp)
      rw [hp] at this; cases this

omit [GoFloat] in
/-- C81. The reference server accepts what it is sent exactly if each value is the expected one, and otherwise answers
with the error `UnexpectedValue`. -/
theorem C81_refuses (diff : GoVal → GoVal → Str) (a b c : GoVal) :
    (testServer diff (S "SendOne") [a] = .results [] ↔ deepEqual fixtureOne a = true) ∧
    (deepEqual fixtureOne a = false → Unexpected (testServer diff (S "SendOne") [a])) ∧
    (testServer diff (S "SendMulti") [a, b, c] = .results [] ↔
      deepEqual fixtureOne a = true ∧ deepEqual fixtureTwo b = true ∧ deepEqual fixtureThree c = true) ∧
    (deepEqual fixtureOne a = false ∨ deepEqual fixtureTwo b = false ∨ deepEqual fixtureThree c = false →
      Unexpected (testServer diff (S "SendMulti") [a, b, c])) ∧
    (testServer diff (S "SendComplex") [a] = .results [] ↔ deepEqual fixtureComplex a = true) ∧
    (deepEqual fixtureComplex a = false → Unexpected (testServer diff (S "SendComplex") [a])) := by
  have h1 := firstError_unexpected diff [(S "one", fixtureOne, a)]
  have h2 := firstError_unexpected diff [(S "one", fixtureOne, a), (S "two", fixtureTwo, b), (S "three", fixtureThree, c)]
  have h3 := firstError_unexpected diff [(S "complex", fixtureComplex, a)]
  simp only [List.mem_cons, List.not_mem_nil, or_false, forall_eq, exists_eq_left, forall_eq_or_imp, exists_eq_or_imp] at h1 h2 h3
  exact ⟨h1.1, h1.2, h2.1, h2.2, h3.1, h3.2⟩

/-! ### What the suite does not see -/

/-- A server that returns other values than the reference server, accepts everything and never gives a cause. -/
def sloppyServer (name : Str) (args : List GoVal) : TypedOutcome :=
  if name = S "GetError" then .error (.other [])
  else if name = S "GetOne" then .results [simple 7 (S "seven")]
  else if name = S "GetMulti" then .results [.nil, .nil, .nil]
  else if name = S "GetComplex" then .results [.nil]
  else if name = S "GetEnumList" then .results [.list [.enum 0, .enum 0]]
  else if name = S "GetEnumMap" then .results [.map [(.enum 0, .int 0), (.enum 4, .int 0)]]
  else if name = S "GetSchemaError" then
    match args with
    | [.int code] => firstError [(schemaErrorCases.lookup code).map fun g => .rpc { g.toRpc with cause := [] }]
    | _ => .panic []
  else .results []

/-- C81, why the verdict says less than its name: a server that returns other values than the reference server, accepts
any values, and leaves out all causes passes as well. -/
theorem C81_sloppy_passes [GoUnicode] (diff : GoVal → GoVal → Str) :
    runTests (testCall (typedApi sloppyServer none none)) = [] ∧
    (∀ args, sloppyServer (S "SendOne") args = .results [] ∧ sloppyServer (S "SendComplex") args = .results []) ∧
    testServer diff (S "GetOne") [] = .results [fixtureOne] ∧ deepEqual (simple 7 (S "seven")) fixtureOne = false ∧
    sloppyServer (S "GetSchemaError") [.int 1] = .error (.rpc ⟨S "Unauthorized", 1, S "unauthorized", [], 401⟩) ∧
    testServer diff (S "GetSchemaError") [.int 1] =
      .error (.rpc ⟨S "Unauthorized", 1, S "unauthorized", S "failed to verify JWT token", 401⟩) := by
  refine ⟨?_, fun args => ⟨rfl, rfl⟩, rfl, by decide +kernel, rfl, rfl⟩
  apply C81_server _ _ (Or.inl rfl)
  refine ⟨rfl, ⟨_, rfl⟩, ⟨simple 7 (S "seven"), rfl, simple_carried _ _, fun _ _ => rfl⟩,
    ⟨.nil, .nil, .nil, rfl, .nil (.ref _), .nil (.ref _), .nil (.ref _), fun _ _ _ _ _ _ => rfl⟩,
    ⟨.nil, rfl, .nil (.ref _), fun _ _ => rfl⟩, ⟨_, _, rfl, ?_⟩, ⟨_, _, rfl, ?_⟩, ?_⟩
  · refine .list (by decide) ?_
    simp only [List.mem_cons, List.not_mem_nil, or_false]
    rintro p (rfl | rfl) <;> exact .enum (name := S "AVAILABLE") (by decide)
  · refine .map (by decide) ?_ ?_
    · simp only [List.mem_cons, List.not_mem_nil, or_false]
      rintro p (rfl | rfl)
      · exact .enum (name := S "NONE") (by decide)
      · exact .enum (name := S "OWNER") (by decide)
    · simp only [List.mem_cons, List.not_mem_nil, or_false]
      rintro p (rfl | rfl) <;> exact .uint (fits_uint64 0)
  · have : ∀ row ∈ schemaErrorRows, (match schemaErrorCases.lookup row.code with
        | some g => decide ({ g.toRpc with cause := [] } = { row with cause := [] })
        | none => false) = true := by decide +kernel
    intro row hr
    have h := this row hr
    cases hl : schemaErrorCases.lookup row.code with
    | none => rw [hl] at h; cases h
    | some g =>
      rw [hl] at h
      refine ⟨.rpc { g.toRpc with cause := [] }, [], ?_, of_decide_eq_true h, Or.inl rfl⟩
      show firstError [(schemaErrorCases.lookup row.code).map fun g => .rpc { g.toRpc with cause := [] }] = _
      rw [hl]; rfl

/-- C81. The hypotheses can be met: with whole numbers as floating point numbers, `24` is written as `24`. -/
theorem C81_example (diff : GoVal → GoVal → Str) :
    (let _ := wholeFloats
     let _ := asciiOnly
     runTests (testCall (typedApi (testServer diff) none none))) = [] := by
  letI := wholeFloats
  letI := asciiOnly
  exact C81_reference (by decide +kernel) diff

end Verif.Values
