import Verif.Props.Values2
/-!
# Properties of typed calls (C80)
-/

namespace Verif.Values
open Verif.Schema hiding Json Method
open Verif.Json Verif.Gen Verif.Rpc Verif.RpcSpec Verif.Props

variable [GoFloat]

/-- The method of the untyped server. -/
def rawMethod (d : Decls) (impl : Str → List GoVal → TypedOutcome) (name : Str) (sig : Signature) : Method :=
  { name := name, hasArgs := !sig.args.isEmpty, hasResult := !sig.results.isEmpty,
    readArgs := readTyped d sig.args, impl := untyped d sig (impl name) }

theorem typed_lookup (d : Decls) (service header : Str) (methods : List (Str × Signature)) (impl : Str → List GoVal → TypedOutcome)
    (onRequest onError) {name : Str} {sig : Signature} (h : methods.lookup name = some sig) :
    (typedServer d service header methods impl onRequest onError).routes.lookup (S "/rpc/" ++ service ++ S "/" ++ name) =
      some (rawMethod d impl name sig) := by
  unfold typedServer
  dsimp only
  induction methods with
  | nil => cases h
  | cons p l ih =>
    obtain ⟨n, g⟩ := p
    rw [List.lookup_cons] at h
    rw [List.map_cons, List.lookup_cons]
    dsimp only
    by_cases hn : name = n
    · subst hn
      rw [BEq.rfl] at h
      cases h
      rw [BEq.rfl]; rfl
    · have e1 : (name == n) = false := by simpa using hn
      rw [e1] at h
      have e2 : (S "/rpc/" ++ service ++ S "/" ++ name == S "/rpc/" ++ service ++ S "/" ++ n) = false := by
        rw [beq_eq_false_iff_ne]
        intro hh
        exact hn (List.append_cancel_left hh)
      rw [e2]
      exact ih h

/-- What the implementation is called with, as Go values. -/
def typedCalls (d : Decls) (sig : Signature) (effs : List Eff) : List (Str × List GoVal) :=
  (calls effs).map fun p => (p.1, (decodePayload d sig.args p.2).getD [])

theorem isEmpty_nil {α : Type} {l : List α} (h : l.isEmpty = true) : l = [] := List.isEmpty_iff.1 h

theorem carried_nil {d : Decls} {l : List GoVal} (h : CarriedFields d [] l) : l = [] := by cases h; rfl

theorem delivered (d : Decls) (hd : WellDeclared d) (service header : Str) (methods : List (Str × Signature))
    (impl : Str → List GoVal → TypedOutcome) (onRequest onError)
    (hh : onRequest = none ∨ onRequest = some (.ok none)) {name : Str} {sig : Signature} (h : methods.lookup name = some sig)
    (ha : (sig.args.filterMap (·.tag)).Pairwise (· ≠ ·)) {args : List GoVal} (hc : CarriedFields d sig.args args) :
    ∃ body sent args', typedBody d sig args = some body ∧
      Delivers (typedServer d service header methods impl onRequest onError) (S "/rpc/" ++ service ++ S "/" ++ name)
        (rawMethod d impl name sig) body sent ∧
      decodePayload d sig.args sent = some args' ∧ deepEqualList args args' = true ∧ CarriedFields d sig.args args' := by
  have hl := typed_lookup d service header methods impl onRequest onError h
  cases he : sig.args.isEmpty with
  | true =>
    have hn : sig.args = [] := isEmpty_nil he
    rw [hn] at hc
    have := carried_nil hc
    subst this
    refine ⟨none, .null, [], by unfold typedBody; rw [he]; rfl, ⟨hl, hh, trivial, ?_⟩, by rw [hn]; rfl, rfl, by rw [hn]; exact .nil⟩
    show if (!sig.args.isEmpty) = true then _ else _
    rw [he]; rfl
  | false =>
    obtain ⟨j, ws, h1, h2, -, h4, h5, h6⟩ := C78_payload hd ha hc
    refine ⟨some j, j, ws, by unfold typedBody; rw [he, h1]; rfl, ⟨hl, hh, h2, ?_⟩, h4, h5, h6⟩
    show if (!sig.args.isEmpty) = true then readTyped d sig.args j = some j else _
    rw [he]
    show readTyped d sig.args j = some j
    unfold readTyped; rw [h4]

/-- C80. A call with arguments that JSON can carry reaches the implementation exactly once, with equal arguments; and
what the implementation answers comes back: results that JSON can carry come back equal, a webrpc error comes back as
it is (for every status that can carry a body, other than 200), any other error as the endpoint error with its text,
and a panic as the server-panic error. -/
theorem C80_typed_call [GoUnicode] (d : Decls) (hd : WellDeclared d) (service header : Str) (methods : List (Str × Signature))
    (impl : Str → List GoVal → TypedOutcome) (onRequest : Option (Ends (Option GoError)))
    (hh : onRequest = none ∨ onRequest = some (.ok none)) (name : Str) (sig : Signature) (h : methods.lookup name = some sig)
    (ha : (sig.args.filterMap (·.tag)).Pairwise (· ≠ ·)) (hr : (sig.results.filterMap (·.tag)).Pairwise (· ≠ ·))
    (args : List GoVal) (hc : CarriedFields d sig.args args) :
    let s := typedServer d service header methods impl onRequest none
    let path := S "/rpc/" ++ service ++ S "/" ++ name
    ∃ body args', typedBody d sig args = some body ∧ deepEqualList args args' = true ∧ CarriedFields d sig.args args' ∧
      typedCalls d sig (serveHTTP s (requestFor path body)).1 = [(name, args')] ∧
      (∀ vals, impl name args' = .results vals → CarriedFields d sig.results vals →
        ∃ vals', typedCall d service name sig s args = .ok vals' ∧ deepEqualList vals vals' = true ∧
          CarriedFields d sig.results vals') ∧
      (∀ e, impl name args' = .error (.rpc e) → Sendable e.httpStatus → e.httpStatus ≠ 200 →
        -(2 ^ 63) ≤ e.code ∧ e.code < 2 ^ 63 → typedCall d service name sig s args = .error e) ∧
      (∀ text, impl name args' = .error (.other text) →
        typedCall d service name sig s args = .error ⟨S "WebrpcEndpoint", 0, S "endpoint error", text, 400⟩) ∧
      (∀ v, impl name args' = .panic v →
        typedCall d service name sig s args = .error ⟨S "WebrpcServerPanic", -6, S "server panic", v, 500⟩) := by
  intro s path
  obtain ⟨body, sent, args', h1, h2, h3, h4, h5⟩ := delivered d hd service header methods impl onRequest none hh h ha hc
  have hm : ∀ o, impl name args' = o → (rawMethod d impl name sig).impl sent =
      (match o with
        | .results vals => Outcome.result (encodePayload d sig.results vals)
        | .error e => .error e
        | .panic v => .panic v) := by
    intro o ho
    show untyped d sig (impl name) sent = _
    unfold untyped
    rw [h3]
    show (match impl name args' with | .results vals => _ | .error e => _ | .panic v => _) = _
    rw [ho]
  have hcall : ∀ r, callOver s path { hasResult := !sig.results.isEmpty, readResult := readTyped d sig.results } body = r →
      typedCall d service name sig s args = (match r with
        | .error e => .error e
        | .ok j => .ok ((decodePayload d sig.results j).getD [])) := by
    rintro r rfl
    unfold typedCall
    rw [h1]
    show (match callOver s path _ body with | .error e => _ | .ok j => _) = _
    cases callOver s path { hasResult := !sig.results.isEmpty, readResult := readTyped d sig.results } body <;> rfl
  refine ⟨body, args', h1, h4, h5, ?_, ?_, ?_, ?_, ?_⟩
  · unfold typedCalls
    rw [(C51_called_iff s (requestFor path body)).1 _ _ (callable_of h2)]
    show [(name, _)] = _
    dsimp only
    rw [h3]; rfl
  · intro vals hv hcv
    have hi := hm _ hv
    dsimp only at hi
    cases he : sig.results.isEmpty with
    | true =>
      have hn : sig.results = [] := isEmpty_nil he
      rw [hn] at hcv
      have := carried_nil hcv
      subst this
      refine ⟨[], ?_, rfl, by rw [hn]; exact .nil⟩
      rw [hcall _ (C53_no_result s path _ { hasResult := !sig.results.isEmpty, readResult := readTyped d sig.results } body sent h2 _ hi (by show (!sig.results.isEmpty) = false; rw [he]; rfl)
        (by show (!sig.results.isEmpty) = false; rw [he]; rfl))]
      rw [hn]; rfl
    | false =>
      obtain ⟨j, ws, k1, k2, -, k4, k5, k6⟩ := C78_payload hd hr hcv
      rw [k1] at hi
      refine ⟨ws, ?_, k5, k6⟩
      rw [hcall _ (C53_result s path _ { hasResult := !sig.results.isEmpty, readResult := readTyped d sig.results } body sent h2 j j hi k2 (by show (!sig.results.isEmpty) = true; rw [he]; rfl)
        (by show (!sig.results.isEmpty) = true; rw [he]; rfl) (by show readTyped d sig.results j = some j; unfold readTyped; rw [k4]))]
      dsimp only
      rw [k4]; rfl
  · intro e he hs h200 hcode
    rw [hcall _ (C52_round_trip s path _ _ body sent h2 e (hm _ he) rfl hs h200 hcode)]
  · intro text he
    rw [hcall _ (C52_other_error s path _ _ body sent h2 text (hm _ he) rfl)]
  · intro v he
    have hrep : ∀ e, reported s e = e := fun e => rfl
    have ha := (C54_panic s (requestFor path body) _ sent v (callable_of h2) (hm _ he)
      (by rw [hrep]; show Sendable 500; unfold Sendable; decide)).1
    have := callOver_answer (cm := { hasResult := !sig.results.isEmpty, readResult := readTyped d sig.results }) ha
      (by rw [hrep]; show (500 : Int) ≠ 200; decide)
      (by rw [hrep]
          exact ⟨⟨by show -(2^63) ≤ (-6 : Int); decide, by show (-6 : Int) < 2 ^ 63; decide⟩,
            ⟨by show -(2^63) ≤ (500 : Int); decide, by show (500 : Int) < 2 ^ 63; decide⟩⟩)
    rw [hrep] at this
    rw [hcall _ this]
    rfl

/-- C80. The test server and its client are such a server and such a client. -/
theorem C80_test_service (impl : Str → List GoVal → TypedOutcome) (onRequest onError) :
    typedApi impl onRequest onError =
      typedServer testDecls (S "TestApi") (S "webrpc;gen-golang;Test@v1.0.0") testSignatures impl onRequest onError ∧
    (∀ p ∈ testSignatures, (p.2.args.filterMap (·.tag)).Pairwise (· ≠ ·) ∧ (p.2.results.filterMap (·.tag)).Pairwise (· ≠ ·)) := by
  refine ⟨rfl, by decide +kernel⟩

omit [GoFloat] in
/-- C80. The hypotheses hold of the method `SendComplex` of the test service with its fixture. -/
theorem C80_example :
    let _ := wholeFloats
    WellDeclared testDecls ∧ testSignatures.lookup (S "SendComplex") = some (testSignature (S "SendComplex")) ∧
      (testSignature (S "SendComplex")).args ≠ [] ∧
      CarriedFields testDecls (testSignature (S "SendComplex")).args [fixtureComplex] := by
  letI := wholeFloats
  refine ⟨testDecls_ok, rfl, (by intro h; cases h), ?_⟩
  exact plainField (complex_carried (by decide +kernel)) .nil

end Verif.Values
