import Verif.Props.TypedCalls
import Verif.Spec.Services
/-!
# Properties of generated services in general (C82, C83)
-/

namespace Verif.Values
open Verif.Schema hiding Json Method
open Verif.Json Verif.Gen Verif.Rpc Verif.RpcSpec Verif.Props

variable [GoFloat]

/-- The method of the untyped server. -/
def svcMethod (d : Decls) (impl : Impl) (m : MethodCode) : Method :=
  { name := m.name, hasArgs := m.sig.args.some, hasResult := m.sig.results.some,
    readArgs := accepted (m.sig.args.readArgs d), impl := m.sig.untyped d (impl m.name) }

theorem svc_lookup (d : Decls) (header : Str) (v : ServiceCode) (impl : Impl) (hooks : Hooks) (r : Request) (name : Str) :
    (v.server d header impl hooks r).routes.lookup (v.path ++ name) =
      (v.methods.find? (fun m => m.name = name)).map (svcMethod d impl) := by
  show (v.methods.map fun m => (v.path ++ m.name, svcMethod d impl m)).lookup (v.path ++ name) = _
  generalize v.methods = l
  induction l with
  | nil => rfl
  | cons m l ih =>
    rw [List.map_cons, List.lookup_cons, List.find?_cons]
    by_cases hn : m.name = name
    · subst hn
      rw [BEq.rfl]
      simp
    · have e2 : (v.path ++ name == v.path ++ m.name) = false := by
        rw [beq_eq_false_iff_ne]
        intro hh
        exact hn (List.append_cancel_left hh).symm
      rw [e2, show decide (m.name = name) = false from by simpa using hn]
      exact ih

theorem args_trip {d : Decls} (hd : WellDeclared d) {sh : Shape} (hs : Shape.Distinct sh) {vals : List GoVal}
    (h : CarriedArgs d sh vals) :
    ∃ j ws, sh.writeArgs d vals = some j ∧ Nums j ∧ sh.readArgs d j = some ws ∧ deepEqualList vals ws = true ∧
      CarriedArgs d sh ws := by
  cases sh with
  | list fs =>
    obtain ⟨j, ws, h1, h2, -, h4, h5, h6⟩ := C78_payload hd hs h
    exact ⟨j, ws, h1, h2, h4, h5, h6⟩
  | whole n =>
    obtain ⟨l, rfl, h⟩ := h
    obtain ⟨j, ws, h1, h2, -, h4, h5, h6⟩ := C78_payload hd (hd.tags n) h
    refine ⟨j, [.struct ws], h1, h2, ?_, ?_, ⟨ws, rfl, h6⟩⟩
    · show (decodePayload d (d.fields n) j).map _ = _
      rw [h4]; rfl
    · show (deepEqualList l ws && true) = true
      rw [h5]; rfl

theorem results_trip {d : Decls} (hd : WellDeclared d) {sh : Shape} (hs : Shape.Distinct sh) {vals : List GoVal}
    (h : CarriedResults d sh vals) :
    ∃ j ws, sh.writeResults d vals = some j ∧ Nums j ∧ sh.readResults d j = some ws ∧ deepEqualList vals ws = true ∧
      CarriedResults d sh ws := by
  cases sh with
  | list fs =>
    obtain ⟨j, ws, h1, h2, -, h4, h5, h6⟩ := C78_payload hd hs h
    exact ⟨j, ws, h1, h2, h4, h5, h6⟩
  | whole n =>
    obtain ⟨v, rfl, h⟩ := h
    obtain ⟨j, h1, h2, -, w, h3, h4, h5⟩ := (trip hd).1 _ v h
    refine ⟨j, [w], h1, h2, ?_, ?_, ⟨w, rfl, h5⟩⟩
    · show (decode d (.ref n) .nil j).map _ = _
      rw [show decode d (.ref n) .nil j = some w from h3]; rfl
    · show (deepEqual v w && true) = true
      rw [h4]; rfl

theorem list_empty {fs : List FieldDecl} (h : (Shape.list fs).some = false) : fs = [] := by
  cases fs with
  | nil => rfl
  | cons f fs => cases h

/-- What a client sends. -/
def sentBody (d : Decls) (m : MethodCode) (args : List GoVal) : Option (Option Json) :=
  if m.sig.args.some then (m.sig.args.writeArgs d args).map some else some none

omit [GoFloat] in
theorem lets_passes {hooks : Hooks} {r : Request} (h : Lets hooks r) :
    hooks.onRequest.map (· r) = none ∨ hooks.onRequest.map (· r) = some (.ok none) := by
  cases hf : hooks.onRequest with
  | none => exact .inl rfl
  | some f => right; rw [Option.map_some, h f hf]

/-- Everything about the request a client sends. -/
theorem sends {d : Decls} (hd : WellDeclared d) (v : ServiceCode) {m : MethodCode} (ha : Shape.Distinct m.sig.args)
    {args : List GoVal} (hc : CarriedArgs d m.sig.args args) :
    ∃ body sent args', v.request d m args = some (requestFor (v.path ++ m.name) body) ∧
      (m.sig.args.readArgs d sent).getD [] = args' ∧ Nums (body.getD .null) ∧
      (if m.sig.args.some then accepted (m.sig.args.readArgs d) (body.getD .null) = some sent else sent = .null) ∧
      deepEqualList args args' = true ∧ CarriedArgs d m.sig.args args' := by
  cases hs : m.sig.args.some with
  | true =>
    obtain ⟨j, ws, h1, h2, h3, h4, h5⟩ := args_trip hd ha hc
    refine ⟨some j, j, ws, ?_, by rw [h3]; rfl, h2, ?_, h4, h5⟩
    · unfold ServiceCode.request
      rw [hs, h1]; rfl
    · rw [if_pos rfl]
      show accepted _ j = some j
      unfold accepted
      rw [h3]
  | false =>
    refine ⟨none, .null, [], ?_, ?_, trivial, by rw [if_neg (by simp)], ?_, ?_⟩
    · unfold ServiceCode.request; rw [hs]; rfl
    all_goals
      cases hsh : m.sig.args with
      | whole n => rw [hsh] at hs; cases hs
      | list fs =>
        rw [hsh] at hs hc
        have := list_empty hs
        subst this
        first
          | rfl
          | (have := carried_nil hc; subst this; first | rfl | exact .nil)

/-- The server when it treats a request. -/
theorem handler_eq [GoUnicode] (d : Decls) (header : Str) (v : ServiceCode) (impl : Impl) (hooks : Hooks) (r : Request) :
    v.handler d header impl hooks r = serveHTTP (v.server d header impl hooks r) r := rfl

omit [GoFloat] in
theorem reported_seen [GoFloat] (d : Decls) (header : Str) (v : ServiceCode) (impl : Impl) (hooks : Hooks) (r : Request) (e : RpcError) :
    reported (v.server d header impl hooks r) e = seen hooks r e := by
  unfold reported seen ServiceCode.server
  cases hooks.onError <;> rfl

/-- What a client makes of a response. -/
def returned (d : Decls) (m : MethodCode) : Returned → TypedReturn
  | .error e => .error e
  | .ok j => .ok (if m.sig.results.some then (m.sig.results.readResults d j).getD [] else [])

theorem call_eq [GoUnicode] (d : Decls) (header : Str) (v : ServiceCode) (m : MethodCode) (impl : Impl) (hooks : Hooks)
    (args : List GoVal) (body : Option Json) (h : v.request d m args = some (requestFor (v.path ++ m.name) body)) (ret : Returned)
    (hr : callOver (v.server d header impl hooks (requestFor (v.path ++ m.name) body)) (v.path ++ m.name)
      { hasResult := m.sig.results.some, readResult := accepted (m.sig.results.readResults d) } body = ret) :
    v.call d m (v.handler d header impl hooks) args = returned d m ret := by
  subst hr
  unfold ServiceCode.call
  rw [h]
  dsimp only
  rw [handler_eq]
  unfold callOver requestFor returned
  dsimp only
  generalize readResponse _ _ = x
  cases x <;> rfl

/-- C82. A method of the client called with arguments that JSON can carry sends one request, to its path; if the hook of
the server lets it through, the implementation of that method is called exactly once, with equal arguments; and what it
answers comes back: results that JSON can carry come back equal, errors come back as the error hook leaves them (a webrpc
error is that error, another one the endpoint error with its text, a panic the server-panic error with its text). -/
theorem C82_typed_call [GoUnicode] (d : Decls) (hd : WellDeclared d) (header : Str) (v : ServiceCode) (m : MethodCode)
    (hm : v.methods.find? (fun x => x.name = m.name) = some m)
    (ha : Shape.Distinct m.sig.args) (hr : Shape.Distinct m.sig.results) (impl : Impl) (hooks : Hooks)
    (args : List GoVal) (hc : CarriedArgs d m.sig.args args) :
    ∃ r args', v.request d m args = some r ∧ r.method = S "POST" ∧ r.path = v.path ++ m.name ∧
      deepEqualList args args' = true ∧ CarriedArgs d m.sig.args args' ∧
      (Lets hooks r →
        let h := v.handler d header impl hooks
        served d v (h r).1 = [(m.name, args')] ∧
        (∀ vals, impl m.name args' = .results vals → CarriedResults d m.sig.results vals →
          ∃ vals', v.call d m h args = .ok vals' ∧ deepEqualList vals vals' = true ∧ CarriedResults d m.sig.results vals') ∧
        (∀ e, impl m.name args' = .error (.rpc e) → Tellable (seen hooks r e) → v.call d m h args = .error (seen hooks r e)) ∧
        (∀ text, impl m.name args' = .error (.other text) →
          let e := seen hooks r ⟨S "WebrpcEndpoint", 0, S "endpoint error", text, 400⟩
          Tellable e → v.call d m h args = .error e) ∧
        (∀ x, impl m.name args' = .panic x →
          let e := seen hooks r ⟨S "WebrpcServerPanic", -6, S "server panic", x, 500⟩
          Tellable e → v.call d m h args = .error e)) := by
  obtain ⟨body, sent, args', h1, h2, h3, h4, h5, h6⟩ := sends hd v ha hc
  refine ⟨requestFor (v.path ++ m.name) body, args', h1, rfl, rfl, h5, h6, fun hl => ?_⟩
  intro h
  have hlook := svc_lookup d header v impl hooks (requestFor (v.path ++ m.name) body) m.name
  rw [hm, Option.map_some] at hlook
  have hdel : Delivers (v.server d header impl hooks (requestFor (v.path ++ m.name) body)) (v.path ++ m.name)
      (svcMethod d impl m) body sent := ⟨hlook, lets_passes hl, h3, h4⟩
  have hcall := fun ret => call_eq d header v m impl hooks args body h1 ret
  have hrep := reported_seen d header v impl hooks (requestFor (v.path ++ m.name) body)
  have himpl : ∀ o, impl m.name args' = o → (svcMethod d impl m).impl sent =
      (match o with
        | .results vals => Outcome.result (m.sig.results.writeResults d vals)
        | .error e => .error e
        | .panic x => .panic x) := by
    intro o ho
    show m.sig.untyped d (impl m.name) sent = _
    unfold Sig.untyped
    rw [h2, ho]
    cases o <;> rfl
  have herr : ∀ e, AnswersError (v.server d header impl hooks (requestFor (v.path ++ m.name) body))
      (serveHTTP (v.server d header impl hooks (requestFor (v.path ++ m.name) body)) (requestFor (v.path ++ m.name) body)).1 e →
      Tellable (seen hooks (requestFor (v.path ++ m.name) body) e) →
      v.call d m h args = .error (seen hooks (requestFor (v.path ++ m.name) body) e) := by
    intro e hae ht
    obtain ⟨t1, t2, t3, t4⟩ := ht
    have := callOver_answer (cm := { hasResult := m.sig.results.some, readResult := accepted (m.sig.results.readResults d) }) hae
      (by rw [hrep]; exact t2) (by rw [hrep]; exact ⟨⟨t3, t4⟩, by have := t1.1; have := t1.2.1; omega⟩)
    rw [hrep] at this
    exact hcall _ this
  refine ⟨?_, ?_, ?_, ?_, ?_⟩
  · unfold served
    show (calls (serveHTTP _ _).1).map _ = _
    rw [(C51_called_iff _ _).1 _ _ (callable_of hdel)]
    show [((svcMethod d impl m).name, _)] = _
    have : (svcMethod d impl m).name = m.name := rfl
    rw [this]
    dsimp only
    rw [hm]
    dsimp only
    rw [h2]
  · intro vals hv hcv
    have hi := himpl _ hv
    dsimp only at hi
    obtain ⟨j, ws, k1, k2, k3, k4, k5⟩ := results_trip hd hr hcv
    cases he : m.sig.results.some with
    | true =>
      rw [k1] at hi
      refine ⟨ws, ?_, k4, k5⟩
      rw [hcall _ (C53_result _ _ _ { hasResult := m.sig.results.some, readResult := accepted (m.sig.results.readResults d) } body sent hdel
        j j hi k2 he he (by show accepted _ j = _; unfold accepted; rw [k3]))]
      unfold returned
      dsimp only
      rw [he, if_pos rfl, k3]; rfl
    | false =>
      refine ⟨[], ?_, ?_⟩
      · rw [hcall _ (C53_no_result _ _ _ { hasResult := m.sig.results.some, readResult := accepted (m.sig.results.readResults d) } body sent hdel
          _ hi he he)]
        unfold returned
        dsimp only
        rw [he]; rfl
      · cases hsh : m.sig.results with
        | whole n => rw [hsh] at he; cases he
        | list fs =>
          rw [hsh] at he hcv
          have := list_empty he
          subst this
          have := carried_nil hcv
          subst this
          exact ⟨rfl, .nil⟩
  · intro e he ht
    exact herr e (serve_error (e := e) (callable_of hdel) (Or.inl ⟨.rpc e, himpl _ he, rfl⟩) (by rw [hrep]; exact ht.1)).1 ht
  · intro text he e ht
    exact herr _ (serve_error (e := errEndpoint.withCause text) (callable_of hdel) (Or.inl ⟨.other text, himpl _ he, rfl⟩)
      (by rw [hrep]; exact ht.1)).1 ht
  · intro x he e ht
    exact herr _ (C54_panic _ _ _ sent x (callable_of hdel) (himpl _ he) (by rw [hrep]; exact ht.1)).1 ht

/-- The error an answer with an error tells the client. -/
theorem call_error [GoUnicode] {d : Decls} {header : Str} {v : ServiceCode} {m : MethodCode} {impl : Impl} {hooks : Hooks}
    {args : List GoVal} {body : Option Json} (h : v.request d m args = some (requestFor (v.path ++ m.name) body)) {e : RpcError}
    {w : ServiceCode} {d' : Decls}
    (hae : AnswersError (w.server d' header impl hooks (requestFor (v.path ++ m.name) body))
      (serveHTTP (w.server d' header impl hooks (requestFor (v.path ++ m.name) body)) (requestFor (v.path ++ m.name) body)).1 e)
    (ht : Tellable (seen hooks (requestFor (v.path ++ m.name) body) e)) :
    v.call d m (w.handler d' header impl hooks) args = .error (seen hooks (requestFor (v.path ++ m.name) body) e) := by
  obtain ⟨t1, t2, t3, t4⟩ := ht
  have hrep := reported_seen d' header w impl hooks (requestFor (v.path ++ m.name) body)
  have := callOver_answer (cm := { hasResult := m.sig.results.some, readResult := accepted (m.sig.results.readResults d) }) hae
    (by rw [hrep]; exact t2) (by rw [hrep]; exact ⟨⟨t3, t4⟩, by have := t1.1; have := t1.2.1; omega⟩)
  rw [hrep] at this
  unfold ServiceCode.call
  rw [h]
  dsimp only
  rw [handler_eq]
  unfold callOver at this
  dsimp only at this
  unfold requestFor at this ⊢
  rw [this]

theorem request_form {d : Decls} {v : ServiceCode} {m : MethodCode} {args : List GoVal} {r : Request}
    (h : v.request d m args = some r) : ∃ body, r = requestFor (v.path ++ m.name) body := by
  unfold ServiceCode.request at h
  rw [Option.map_eq_some_iff] at h
  obtain ⟨body, -, rfl⟩ := h
  exact ⟨body, rfl⟩

theorem for_of [GoUnicode] {d : Decls} {header : Str} {v : ServiceCode} {m : MethodCode} {impl : Impl} {hooks : Hooks} {body : Option Json}
    (hm : v.methods.find? (fun x => x.name = m.name) = some m) :
    For (v.server d header impl hooks (requestFor (v.path ++ m.name) body)) (requestFor (v.path ++ m.name) body) (svcMethod d impl m) := by
  have hlook := svc_lookup d header v impl hooks (requestFor (v.path ++ m.name) body) m.name
  rw [hm, Option.map_some] at hlook
  exact ⟨hlook, rfl, json_type⟩

theorem served_nil {d : Decls} {v : ServiceCode} {effs : List Eff} (h : calls effs = []) : served d v effs = [] := by
  unfold served; rw [h]; rfl

/-- C82. If the hook refuses the request of a client, no implementation is called and the client gets the hook's error, as
the error hook leaves it; the same if the hook panics. -/
theorem C82_hook_refuses [GoUnicode] (d : Decls) (header : Str) (v : ServiceCode) (m : MethodCode)
    (hm : v.methods.find? (fun x => x.name = m.name) = some m) (impl : Impl) (hooks : Hooks) (args : List GoVal) (r : Request)
    (hr : v.request d m args = some r) (f : Request → Ends (Option GoError)) (hf : hooks.onRequest = some f) :
    let h := v.handler d header impl hooks
    (∀ e, f r = .ok (some (.rpc e)) → Tellable (seen hooks r e) →
      served d v (h r).1 = [] ∧ v.call d m h args = .error (seen hooks r e)) ∧
    (∀ text, f r = .ok (some (.other text)) →
      let e := seen hooks r ⟨S "WebrpcEndpoint", 0, S "endpoint error", text, 400⟩
      Tellable e → served d v (h r).1 = [] ∧ v.call d m h args = .error e) ∧
    (∀ x, f r = .panic x →
      let e := seen hooks r ⟨S "WebrpcServerPanic", -6, S "server panic", x, 500⟩
      Tellable e → served d v (h r).1 = [] ∧ v.call d m h args = .error e) := by
  obtain ⟨body, rfl⟩ := request_form hr
  intro h
  have hfor := for_of (d := d) (header := header) (impl := impl) (hooks := hooks) (body := body) hm
  have hrep := reported_seen d header v impl hooks (requestFor (v.path ++ m.name) body)
  have hon : ∀ o, f (requestFor (v.path ++ m.name) body) = o →
      (v.server d header impl hooks (requestFor (v.path ++ m.name) body)).onRequest = some o := by
    rintro o rfl
    show hooks.onRequest.map _ = _
    rw [hf]; rfl
  refine ⟨?_, ?_, ?_⟩
  · intro e he ht
    obtain ⟨k1, k2, -⟩ := C51_hook _ _ _ (.rpc e) hfor (hon _ he) (by rw [hrep]; exact ht.1)
    exact ⟨served_nil k2, call_error hr k1 ht⟩
  · intro text he e ht
    obtain ⟨k1, k2, -⟩ := C51_hook _ _ _ (.other text) hfor (hon _ he) (by rw [hrep]; exact ht.1)
    exact ⟨served_nil k2, call_error hr k1 ht⟩
  · intro x he e ht
    obtain ⟨k1, -, k2⟩ := C54_hook_panic _ _ _ x hfor (hon _ he) (by rw [hrep]; exact ht.1)
    exact ⟨served_nil k2, call_error hr k1 ht⟩

theorem no_route (d : Decls) (header : Str) (v : ServiceCode) (impl : Impl) (hooks : Hooks) (r : Request)
    (h : ∀ m ∈ v.methods, r.path ≠ v.path ++ m.name) : (v.server d header impl hooks r).routes.lookup r.path = none := by
  rw [List.lookup_eq_none_iff]
  intro p hp
  obtain ⟨m, hm, rfl⟩ := List.mem_map.1 hp
  simpa using h m hm

/-- C82. A server serves its own paths only: for any other path, whatever the hooks and the request, no implementation is
called; and a client whose path the server does not have gets the bad-route error (404), unless the error hook changes it. -/
theorem C82_other_path [GoUnicode] (d : Decls) (header : Str) (v : ServiceCode) (impl : Impl) (hooks : Hooks) :
    let h := v.handler d header impl hooks
    (∀ r : Request, (∀ m ∈ v.methods, r.path ≠ v.path ++ m.name) → served d v (h r).1 = []) ∧
    ((∀ r e, seen hooks r e = e) → ∀ (d' : Decls) (w : ServiceCode) (m : MethodCode) (args : List GoVal),
      (∀ x ∈ v.methods, w.path ++ m.name ≠ v.path ++ x.name) → w.request d' m args ≠ none →
      ∃ cause, w.call d' m h args = .error ⟨S "WebrpcBadRoute", -2, S "bad route", cause, 404⟩) := by
  intro h
  refine ⟨fun r hr => ?_, fun ho d' w m args hp hreq => ?_⟩
  · apply served_nil
    refine (C51_called_iff _ _).2 ?_
    rintro ⟨m, args, hf, -, -⟩
    have := hf.path
    rw [no_route d header v impl hooks r hr] at this
    cases this
  · cases hq : w.request d' m args with
    | none => exact absurd hq hreq
    | some r =>
      obtain ⟨body, rfl⟩ := request_form hq
      have hrep := reported_seen d header v impl hooks (requestFor (w.path ++ m.name) body)
      have hs : ∀ e, seen hooks (requestFor (w.path ++ m.name) body) e = e := by intro e; exact ho _ e
      obtain ⟨cause, hc, -⟩ := C51_refused (v.server d header impl hooks (requestFor (w.path ++ m.name) body)) _ errBadRoute
        (.path (no_route d header v impl hooks _ hp)) (by
          intro cause; rw [hrep, hs]; show Sendable 404; unfold Sendable; decide)
      refine ⟨cause, ?_⟩
      have := call_error hq hc (by rw [hs]; exact ⟨by show Sendable 404; unfold Sendable; decide, by show (404 : Int) ≠ 200; decide,
        by show -(2 ^ 63) ≤ (-2 : Int); decide, by show (-2 : Int) < 2 ^ 63; decide⟩)
      rw [hs] at this
      exact this

/-- C82. The servers of C80, in particular that of the test service, are such servers. -/
theorem C82_lists (d : Decls) (service header : Str) (methods : List (Str × Signature)) (impl : Impl) (hooks : Hooks) (r : Request) :
    ServiceCode.server d header
        ⟨service, S "/rpc/" ++ service ++ S "/", methods.map fun p => ⟨p.1, ⟨.list p.2.args, .list p.2.results⟩, []⟩⟩ impl hooks r =
      typedServer d service header methods impl (hooks.onRequest.map (· r)) (hooks.onError.map (· r)) := by
  unfold ServiceCode.server typedServer
  congr 1
  rw [List.map_map]
  rfl

/-! ### C83: published methods -/

omit [GoFloat] in
theorem methods_mem {g : Package} {path : Str} {i : MethodInfo} :
    (path, i) ∈ g.methods ↔ ∃ v m, Offers g v m path i := by
  unfold Package.methods Offers
  rw [List.mem_flatMap]
  constructor
  · rintro ⟨v, hv, h⟩
    obtain ⟨m, hm, e⟩ := List.mem_map.1 h
    cases e
    exact ⟨v, m, hv, hm, rfl, rfl, rfl, rfl⟩
  · rintro ⟨v, m, hv, hm, rfl, h1, h2, h3⟩
    refine ⟨v, hv, List.mem_map.2 ⟨m, hm, ?_⟩⟩
    cases i
    dsimp only at h1 h2 h3
    rw [h1, h2, h3]

omit [GoFloat] in
theorem methods_paths (g : Package) : g.methods.map (·.1) = paths g := by
  unfold Package.methods paths
  rw [List.map_flatMap]
  congr 1
  funext v
  rw [List.map_map]; rfl

omit [GoFloat] in
theorem methods_nodup {g : Package} (hg : Unambiguous g) : (g.methods.map (·.1)).Pairwise (· ≠ ·) := by
  rw [methods_paths]; exact hg.paths

omit [GoFloat] in
/-- C83. The description of the method that a hook or an implementation finds in its context is that of the method whose
path is requested, with its service and its annotations; there is none exactly if no method has the path. -/
theorem C83_method_ctx (g : Package) (hg : Unambiguous g) (r : Request) (i : MethodInfo) :
    g.methodCtx r = some i ↔ ∃ v m, Offers g v m r.path i := by
  rw [← methods_mem]
  exact lookup_iff (methods_nodup hg) _ _

/-- C83. While an implementation is called, its context describes the method that is called. -/
theorem C83_served_ctx [GoUnicode] (g : Package) (hg : Unambiguous g) (v : ServiceCode) (hv : v ∈ g.services) (impl : Impl) (hooks : Hooks)
    (r : Request) (name : Str) (args : List GoVal) (h : (name, args) ∈ served g.decls v (v.handler g.decls g.header impl hooks r).1) :
    ∃ i, g.methodCtx r = some i ∧ i.service = v.name ∧ i.name = name ∧
      ∃ m ∈ v.methods, m.name = name ∧ i.annotations = m.annotations := by
  by_cases hc : ∃ m args, Callable (v.server g.decls g.header impl hooks r) r m args
  · obtain ⟨m, a, hc⟩ := hc
    have hs := (C51_called_iff _ _).1 _ _ hc
    unfold served at h
    rw [handler_eq, hs] at h
    have hn : name = m.name := by
      have := List.mem_singleton.1 h
      cases this; rfl
    obtain ⟨x, hx, e⟩ : ∃ x ∈ v.methods, (r.path, m) = (v.path ++ x.name, svcMethod g.decls impl x) := by
      have := lookup_mem hc.1.path
      obtain ⟨x, hx, e⟩ := List.mem_map.1 this
      exact ⟨x, hx, e.symm⟩
    injection e with e1 e2
    have hmn : x.name = name := by rw [hn, e2]; rfl
    refine ⟨⟨x.name, v.name, x.annotations⟩, ?_, rfl, hmn, x, hx, hmn, rfl⟩
    rw [C83_method_ctx g hg]
    exact ⟨v, x, hv, hx, e1, rfl, rfl, rfl⟩
  · have hs := (C51_called_iff _ _).2 hc
    unfold served at h
    rw [handler_eq, hs] at h
    cases h

omit [GoFloat] in
/-- C83. The listed methods are all methods, or all methods of the services asked for. -/
theorem C83_listed (g : Package) (services : List Str) (path : Str) (i : MethodInfo) :
    (path, i) ∈ g.webrpcMethods services ↔ (∃ v m, Offers g v m path i) ∧ (services = [] ∨ i.service ∈ services) := by
  unfold Package.webrpcMethods
  by_cases h : services = []
  · rw [if_pos h, methods_mem]
    simp [h]
  · rw [if_neg h, List.mem_filter, methods_mem]
    simp [h]

/-- C83. What there is to mount is exactly the methods of the services that have an implementation, each with the handler
of its service around that implementation; no path occurs twice. -/
theorem C83_mounted [GoUnicode] (g : Package) (hg : Unambiguous g) (impls : Str → Option Impl) (hooks : Hooks) :
    (∀ path i h, (path, i, h) ∈ g.serverMethods impls hooks ↔
      ∃ v m impl, Offers g v m path i ∧ impls v.name = some impl ∧ h = v.handler g.decls g.header impl hooks) ∧
    ((g.serverMethods impls hooks).map (·.1)).Pairwise (· ≠ ·) := by
  have inj : ∀ v ∈ g.services, ∀ w ∈ g.services, v.name = w.name → v = w := by
    intro v hv w hw h
    exact pairwise_inj hg.services hv hw h
  constructor
  · intro path i h
    unfold Package.serverMethods
    rw [List.mem_flatMap]
    constructor
    · rintro ⟨v, hv, hm⟩
      cases hi : impls v.name with
      | none => rw [hi] at hm; cases hm
      | some impl =>
        rw [hi] at hm
        obtain ⟨p, hp, e⟩ := List.mem_map.1 hm
        cases e
        obtain ⟨⟨w, m, ho⟩, hs⟩ := (C83_listed g _ p.1 p.2).1 hp
        have hs : p.2.service = v.name := by
          rcases hs with hs | hs
          · cases hs
          · exact List.mem_singleton.1 hs
        have : w = v := inj w ho.1 v hv (by rw [← hs, ho.2.2.2.2.1])
        subst this
        exact ⟨w, m, impl, ho, hi, rfl⟩
    · rintro ⟨v, m, impl, ho, hi, rfl⟩
      refine ⟨v, ho.1, ?_⟩
      rw [hi]
      exact List.mem_map.2 ⟨(path, i), (C83_listed g _ path i).2 ⟨⟨v, m, ho⟩, .inr (by rw [ho.2.2.2.2.1]; exact List.mem_singleton.2 rfl)⟩, rfl⟩
  · unfold Package.serverMethods
    rw [List.map_flatMap, List.pairwise_flatMap]
    have hsub : ∀ v : ServiceCode, g.webrpcMethods [v.name] = g.methods.filter fun p => [v.name].contains p.2.service := by
      intro v; unfold Package.webrpcMethods; rw [if_neg (by simp)]
    constructor
    · intro v hv
      cases hi : impls v.name with
      | none => exact .nil
      | some impl =>
        dsimp only
        rw [List.map_map, hsub]
        have : (g.methods.filter fun p => [v.name].contains p.2.service).Pairwise (fun a b => a.1 ≠ b.1) := by
          have := methods_nodup hg
          rw [List.pairwise_map] at this
          exact this.filter _
        rw [List.pairwise_map]
        exact this
    · have hs := hg.services
      rw [List.pairwise_map] at hs
      refine hs.imp_of_mem ?_
      intro v w hv hw hne x hx y hy e
      have key : ∀ v : ServiceCode, ∀ x ∈ List.map (fun p => p.1) (match impls v.name with
          | none => []
          | some impl => (g.webrpcMethods [v.name]).map fun p => (p.1, p.2, v.handler g.decls g.header impl hooks)),
          ∃ i, (x, i) ∈ g.methods ∧ i.service = v.name := by
        intro v x hx
        cases hi : impls v.name with
        | none => rw [hi] at hx; cases hx
        | some impl =>
          rw [hi] at hx
          dsimp only at hx
          rw [List.map_map, hsub] at hx
          obtain ⟨p, hp, e⟩ := List.mem_map.1 hx
          rw [List.mem_filter] at hp
          subst e
          exact ⟨p.2, hp.1, by simpa using hp.2⟩
      obtain ⟨i, hi, hi'⟩ := key v x hx
      obtain ⟨j, hj, hj'⟩ := key w y hy
      subst e
      have := pairwise_inj (methods_nodup hg) hi hj rfl
      cases this
      exact hne (by rw [← hi', ← hj'])

end Verif.Values
