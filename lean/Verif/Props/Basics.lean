import Verif.Props.Services
import Verif.Rpc.Basics
/-!
# Every request is answered (C84), refusing deprecated methods (C85), the golang-basics server (C86)
-/

namespace Verif.Values
open Verif.Schema hiding Json Method
open Verif.Json Verif.Gen Verif.Rpc Verif.RpcSpec Verif.Props

/-! ### C84 -/

/-- The number of times the body is written. -/
def bodies (effs : List Eff) : Nat := (writes effs).2

theorem bodies_append (a b : List Eff) : bodies (a ++ b) = bodies a + bodies b := by
  unfold bodies writes
  dsimp only
  rw [List.filter_append, List.length_append]

/-- A run that ends well has written one body, one that panics has written none. -/
def Once (x : Run) : Prop :=
  match x.2 with
  | .ok () => bodies x.1 = 1
  | .panic _ => bodies x.1 = 0

theorem once_sendError (s : Server) (e : RpcError) : Once (sendErrorJSON s e) := by
  unfold sendErrorJSON Once
  cases s.onError with
  | none =>
    dsimp only
    by_cases h : e.httpStatus < 100 ∨ 999 < e.httpStatus
    · rw [if_pos h]; rfl
    · rw [if_neg h]; rfl
  | some f =>
    dsimp only
    by_cases h : (f e).httpStatus < 100 ∨ 999 < (f e).httpStatus
    · rw [if_pos h]; rfl
    · rw [if_neg h]; rfl

theorem once_after {pre : List Eff} (hp : bodies pre = 0) {x : Run} (h : Once x) : Once (Run.andThen (pre, .ok ()) x) := by
  unfold Run.andThen Once at *
  dsimp only
  cases hx : x.2 with
  | ok u => rw [hx] at h; dsimp only at h ⊢; rw [bodies_append, hp, h]
  | panic v => rw [hx] at h; dsimp only at h ⊢; rw [bodies_append, hp, h]

theorem once_callImpl (s : Server) (m : Method) (args : Json) : Once (callImpl s m args) := by
  unfold callImpl
  refine once_after rfl ?_
  cases m.impl args with
  | panic v => exact rfl
  | error e => exact once_sendError s _
  | result j =>
    dsimp only
    cases m.hasResult with
    | true =>
      cases j with
      | none => exact once_sendError s _
      | some j => exact rfl
    | false => exact rfl

theorem once_serveMethod (s : Server) (m : Method) (r : Request) : Once (serveMethod s m r) := by
  unfold serveMethod
  cases m.hasArgs with
  | false => exact once_callImpl s m _
  | true =>
    rw [if_pos rfl]
    cases r.body with
    | none => exact once_sendError s _
    | some body =>
      dsimp only
      cases (parse body).bind m.readArgs with
      | none => exact once_sendError s _
      | some args => exact once_callImpl s m args

theorem once_dispatch [GoUnicode] (s : Server) (r : Request) : Once (dispatch s r) := by
  unfold dispatch
  cases s.routes.lookup r.path with
  | none => exact once_sendError s _
  | some m =>
    dsimp only
    by_cases h1 : r.method ≠ S "POST"
    · rw [if_pos h1]; exact once_after rfl (once_sendError s _)
    · rw [if_neg h1]
      by_cases h2 : mediaType r.contentType = S "application/json"
      · rw [if_pos h2]
        cases s.onRequest with
        | none => exact once_serveMethod s m r
        | some hook =>
          refine once_after rfl ?_
          cases hook with
          | panic v => exact rfl
          | ok e => cases e with
            | none => exact once_serveMethod s m r
            | some e => exact once_sendError s _
      · rw [if_neg h2]; exact once_sendError s _

theorem status_kept (effs : List Eff) (p : Response) (h : p.status ≠ none) : (effs.foldl Response.apply p).status ≠ none := by
  induction effs generalizing p with
  | nil => exact h
  | cons e l ih =>
    rw [List.foldl_cons]
    refine ih _ ?_
    cases e with
    | setHeader k v => exact h
    | addHeader k v => exact h
    | call n a => exact h
    | onRequest => exact h
    | onError e => exact h
    | writeHeader c =>
      show (if _ then p else _).status ≠ none
      by_cases hc : p.status.isSome ∨ (100 ≤ c ∧ c ≤ 199 ∧ c ≠ 101)
      · rw [if_pos hc]; exact h
      · rw [if_neg hc]; exact (nomatch ·)
    | write b =>
      show (match p.status with | none => _ | some c => if noBody c = true then p else _ : Response).status ≠ none
      cases hs : p.status with
      | none => exact absurd hs h
      | some c =>
        dsimp only
        by_cases hn : noBody c = true
        · rw [if_pos hn]; exact h
        · rw [if_neg hn]; exact (nomatch ·)

theorem status_written (effs : List Eff) (h : bodies effs ≠ 0) : (Response.of effs).status ≠ none := by
  unfold Response.of
  generalize Response.empty = p
  induction effs generalizing p with
  | nil => exact absurd rfl h
  | cons e l ih =>
    rw [List.foldl_cons]
    cases e with
    | write b =>
      refine status_kept l _ ?_
      show (match p.status with | none => _ | some c => if noBody c = true then p else _ : Response).status ≠ none
      cases hs : p.status with
      | none => exact (nomatch ·)
      | some c =>
        dsimp only
        by_cases hn : noBody c = true
        · rw [if_pos hn, hs]; exact (nomatch ·)
        · rw [if_neg hn]; exact (nomatch ·)
    | _ => exact ih h _

/-- C84. Whatever the request, the hooks and the implementation do, the server writes exactly one response, unless the
error hook gives the server-panic error a status that HTTP does not have. -/
theorem C84_one_response [GoUnicode] (s : Server) (r : Request)
    (h : ∀ x, 100 ≤ (reported s ⟨S "WebrpcServerPanic", -6, S "server panic", x, 500⟩).httpStatus ∧
      (reported s ⟨S "WebrpcServerPanic", -6, S "server panic", x, 500⟩).httpStatus ≤ 999) :
    (writes (serveHTTP s r).1).2 = 1 ∧ (Response.of (serveHTTP s r).1).status ≠ none := by
  have key : bodies (serveHTTP s r).1 = 1 := by
    have ho : Once (Run.andThen ([.setHeader (S "Webrpc") s.header], .ok ()) (dispatch s r)) := once_after rfl (once_dispatch s r)
    unfold serveHTTP
    dsimp only
    unfold Once at ho
    cases ha : (Run.andThen ([.setHeader (S "Webrpc") s.header], .ok ()) (dispatch s r)).2 with
    | ok u => rw [ha] at ho; exact ho
    | panic v =>
      rw [ha] at ho
      dsimp only at ho ⊢
      have hb := once_sendError s (errServerPanic.withCause v)
      have hok : (sendErrorJSON s (errServerPanic.withCause v)).2 = .ok () := by
        have := h v
        unfold sendErrorJSON
        unfold reported at this
        cases hs : s.onError with
        | none =>
          rw [hs] at this
          dsimp only
          rw [if_neg (by intro hc; have h1 := this.1; have h2 := this.2; revert hc; show ¬ ((500 : Int) < 100 ∨ 999 < (500 : Int)); decide)]
        | some f =>
          rw [hs] at this
          dsimp only
          have e : errServerPanic.withCause v = ⟨S "WebrpcServerPanic", -6, S "server panic", v, 500⟩ := rfl
          rw [if_neg (by rw [e]; dsimp only at this; omega)]
      unfold Once at hb
      rw [hok] at hb ⊢
      dsimp only at hb ⊢
      rw [bodies_append, ho, hb]
  exact ⟨key, status_written _ (by rw [key]; decide)⟩

/-- C84. And the implementation is called at most once. -/
theorem C84_at_most_one_call [GoUnicode] (s : Server) (r : Request) : (calls (serveHTTP s r).1).length ≤ 1 := by
  by_cases hc : ∃ m args, Callable s r m args
  · obtain ⟨m, args, hc⟩ := hc
    rw [(C51_called_iff s r).1 _ _ hc]; exact Nat.le_refl _
  · rw [(C51_called_iff s r).2 hc]; exact Nat.zero_le _

/-- C84. The hypothesis holds without an error hook, so even for an error with an impossible status: the client gets a
server-panic error. -/
theorem C84_example :
    let _ := asciiOnly
    let m : Method := { name := S "Get", hasArgs := false, hasResult := false, readArgs := some, impl := fun _ => .error (.rpc ⟨S "E", 1, [], [], 0⟩) }
    let s : Server := { routes := [(S "/rpc/S/Get", m)], onRequest := none, onError := none, header := [] }
    let p := Response.of (serveHTTP s (requestFor (S "/rpc/S/Get") none)).1
    p.status = some 500 ∧ (writes (serveHTTP s (requestFor (S "/rpc/S/Get") none)).1).2 = 1 := by
  decide +kernel

/-! ### C85 -/

theorem find_method {g : Package} (hg : Unambiguous g) {v : ServiceCode} {m : MethodCode} (hv : v ∈ g.services) (hm : m ∈ v.methods) :
    v.methods.find? (fun x => x.name = m.name) = some m := by
  have hp := hg.paths
  unfold paths at hp
  rw [List.pairwise_flatMap] at hp
  have hn : (v.methods.map (·.name)).Pairwise (· ≠ ·) := by
    have := hp.1 v hv
    rw [List.pairwise_map] at this ⊢
    exact this.imp fun h e => h (by rw [e])
  cases hf : v.methods.find? (fun x => x.name = m.name) with
  | none => exact absurd (List.find?_eq_none.1 hf m hm) (by simp)
  | some x =>
    have h1 := List.find?_some hf
    have h2 := List.mem_of_find?_eq_some hf
    rw [pairwise_inj hn h2 hm (of_decide_eq_true h1)]

theorem ctx_of {g : Package} (hg : Unambiguous g) {v : ServiceCode} {m : MethodCode} (hv : v ∈ g.services) (hm : m ∈ v.methods)
    {r : Request} (hr : r.path = v.path ++ m.name) : g.methodCtx r = some ⟨m.name, v.name, m.annotations⟩ :=
  (C83_method_ctx g hg r _).2 ⟨v, m, hv, hm, hr, rfl, rfl, rfl⟩

/-- C85. With this hook, a method annotated as deprecated is never run, whatever the implementation and the request; and a
client that calls it gets the endpoint error that names the replacement. -/
theorem C85_refuses [GoFloat] [GoUnicode] (g : Package) (hg : Unambiguous g) (v : ServiceCode) (hv : v ∈ g.services) (m : MethodCode)
    (hm : m ∈ v.methods) (instead : Str) (hi : m.annotations.lookup (S "deprecated") = some instead) (impl : Impl) (hooks : Hooks)
    (ho : hooks.onRequest = some (refuseDeprecated g)) (he : ∀ r e, seen hooks r e = e) :
    let h := v.handler g.decls g.header impl hooks
    (∀ r : Request, r.path = v.path ++ m.name → served g.decls v (h r).1 = []) ∧
    (∀ args, v.request g.decls m args ≠ none →
      v.call g.decls m h args = .error ⟨S "WebrpcEndpoint", 0, S "endpoint error",
        S "endpoint " ++ (v.path ++ m.name) ++ S " has been deprecated in favor of endpoint " ++ instead, 400⟩) := by
  intro h
  have hook : ∀ r : Request, r.path = v.path ++ m.name → refuseDeprecated g r = .ok (some (.other
      (S "endpoint " ++ (v.path ++ m.name) ++ S " has been deprecated in favor of endpoint " ++ instead))) := by
    intro r hr
    unfold refuseDeprecated
    rw [ctx_of hg hv hm hr, hr]
    dsimp only
    rw [hi]
  refine ⟨fun r hr => ?_, fun args hargs => ?_⟩
  · apply served_nil
    refine (C51_called_iff _ _).2 ?_
    rintro ⟨x, args, -, hp, -⟩
    have : (v.server g.decls g.header impl hooks r).onRequest = some (refuseDeprecated g r) := by
      show hooks.onRequest.map _ = _
      rw [ho]; rfl
    rcases hp with hp | hp
    · rw [this] at hp; cases hp
    · rw [this, hook r hr] at hp; cases hp
  · cases hq : v.request g.decls m args with
    | none => exact absurd hq hargs
    | some r =>
      have hr : r.path = v.path ++ m.name := by obtain ⟨b, rfl⟩ := request_form hq; rfl
      have := ((C82_hook_refuses g.decls g.header v m (find_method hg hv hm) impl hooks args r hq _ ho).2.1 _ (hook r hr)
        (by rw [he]; exact ⟨by unfold Sendable; dsimp only; decide, by dsimp only; decide, by dsimp only; decide, by dsimp only; decide⟩)).2
      rw [he] at this
      exact this

/-- C85. Every other method of the package passes the hook, for every request to its path. -/
theorem C85_lets (g : Package) (hg : Unambiguous g) (v : ServiceCode) (hv : v ∈ g.services) (m : MethodCode)
    (hm : m ∈ v.methods) (hi : m.annotations.lookup (S "deprecated") = none) (hooks : Hooks)
    (ho : hooks.onRequest = some (refuseDeprecated g)) (r : Request) (hr : r.path = v.path ++ m.name) : Lets hooks r := by
  intro f hf
  rw [ho] at hf
  cases hf
  unfold refuseDeprecated
  rw [ctx_of hg hv hm hr]
  dsimp only
  rw [hi]

theorem basics_unambiguous : Unambiguous basicsPackage := ⟨by decide +kernel, by decide +kernel⟩

/-- C85. The package of the golang-basics example meets the hypotheses: `GetUser` is deprecated, the other seven are not. -/
theorem C85_example : Unambiguous basicsPackage ∧ exampleService ∈ basicsPackage.services ∧
    basicsHooks.onRequest = some (refuseDeprecated basicsPackage) ∧ (∀ r e, seen basicsHooks r e = e) ∧
    (exampleMethods.filter fun m => m.annotations.lookup (S "deprecated") = some (S "Use GetUserV2 instead.")).map (·.name) = [S "GetUser"] ∧
    (exampleMethods.filter fun m => m.annotations.lookup (S "deprecated") = none).length = 7 :=
  ⟨basics_unambiguous, by unfold basicsPackage; exact List.mem_singleton.2 rfl, rfl, fun _ _ => rfl, by decide +kernel, by decide +kernel⟩

/-! ### C86 -/

section
variable [GoFloat] [GoUnicode]

omit [GoFloat] [GoUnicode] in
theorem recoverer_congr {h h' : HttpHandler} {r : Request} (e : h r = h' r) : recoverer h r = recoverer h' r := by
  unfold recoverer; rw [e]

omit [GoFloat] [GoUnicode] in
/-- The middleware does not change the response, once there is one. -/
theorem recoverer_response (h : HttpHandler) (r : Request) (hs : (Response.of (h r).1).status ≠ none) :
    Response.of (recoverer h r).1 = Response.of (h r).1 ∧ calls (recoverer h r).1 = calls (h r).1 ∧ (recoverer h r).2 = .ok () := by
  unfold recoverer
  match hh : h r with
  | (effs, .ok ()) => exact ⟨rfl, rfl, rfl⟩
  | (effs, .panic v) =>
    rw [hh] at hs
    refine ⟨?_, by rw [calls_append]; exact List.append_nil _, rfl⟩
    show (effs ++ [Eff.writeHeader 500]).foldl Response.apply .empty = effs.foldl Response.apply .empty
    rw [List.foldl_append]
    show (if _ then _ else _) = _
    rw [if_pos]
    left
    change (Response.of effs).status ≠ none at hs
    show (Response.of effs).status.isSome = true
    cases hx : (Response.of effs).status with
    | none => exact absurd hx hs
    | some c => rfl

theorem tellable_panic {hooks : Hooks} (he : ∀ r e, seen hooks r e = e) (d : Decls) (header : Str) (v : ServiceCode) (impl : Impl) (r : Request) :
    ∀ x, 100 ≤ (reported (v.server d header impl hooks r) ⟨S "WebrpcServerPanic", -6, S "server panic", x, 500⟩).httpStatus ∧
      (reported (v.server d header impl hooks r) ⟨S "WebrpcServerPanic", -6, S "server panic", x, 500⟩).httpStatus ≤ 999 := by
  intro x
  rw [reported_seen, he]
  dsimp only
  decide

theorem handler_status {hooks : Hooks} (he : ∀ r e, seen hooks r e = e) (d : Decls) (header : Str) (v : ServiceCode) (impl : Impl) (r : Request) :
    (Response.of (v.handler d header impl hooks r).1).status ≠ none :=
  (C84_one_response (v.server d header impl hooks r) r (tellable_panic he d header v impl r)).2

/-- C86. Requests that are not below `/admin/` are answered by the server of the service `Example`, and panics do not reach
the HTTP server. -/
theorem C86_routes (impl admin : Impl) (r : Request) (h1 : ¬ S "/admin/" <+: r.path) (h2 : ¬ (r.method = S "GET" ∧ r.path = S "/")) :
    let h := exampleService.handler basicsDecls basicsPackage.header impl basicsHooks
    Response.of (basicsApp impl admin r).1 = Response.of (h r).1 ∧ calls (basicsApp impl admin r).1 = calls (h r).1 ∧
      (basicsApp impl admin r).2 = .ok () := by
  intro h
  have hs : (Response.of (h r).1).status ≠ none :=
    (C84_one_response _ r (tellable_panic (fun _ _ => rfl) _ _ _ _ r)).2
  have e : basicsApp impl admin r = recoverer h r := by
    unfold basicsApp
    refine recoverer_congr ?_
    rw [if_neg h2, if_neg (by rw [List.isPrefixOf_iff_prefix]; exact h1)]
  rw [e]
  exact recoverer_response h r hs

theorem call_congr {h h' : HttpHandler} {d : Decls} {v : ServiceCode} {m : MethodCode} {args : List GoVal}
    (hr : ∀ r, v.request d m args = some r → Response.of (h r).1 = Response.of (h' r).1) : v.call d m h args = v.call d m h' args := by
  unfold ServiceCode.call
  cases hq : v.request d m args with
  | none => rfl
  | some r => dsimp only; rw [hr r hq]

/-- A method of the client of the service `Example` over a connection to the example's server. -/
def exampleCall (impl admin : Impl) (m : MethodCode) (args : List GoVal) : TypedReturn :=
  exampleService.call basicsDecls m (basicsApp impl admin) args

theorem example_not_admin {name : Str} : ¬ S "/admin/" <+: S "/v1/Example/" ++ name := by
  rintro ⟨t, ht⟩
  have : (S "/admin/" ++ t)[1]? = (S "/v1/Example/" ++ name)[1]? := by rw [ht]
  cases this

theorem exampleCall_eq (impl admin : Impl) (m : MethodCode) (args : List GoVal) :
    exampleCall impl admin m args =
      exampleService.call basicsDecls m (exampleService.handler basicsDecls basicsPackage.header impl basicsHooks) args := by
  refine call_congr fun r hr => ?_
  obtain ⟨body, rfl⟩ := request_form hr
  refine (C86_routes impl admin _ example_not_admin ?_).1
  rintro ⟨h, -⟩
  revert h
  show S "POST" ≠ S "GET"
  decide

/-- C86. The deprecated method `GetUser` is refused, whatever its implementation. -/
theorem C86_deprecated (impl admin : Impl) (m : MethodCode) (hm : m ∈ exampleMethods) (hn : m.name = S "GetUser") (args : List GoVal)
    (hargs : exampleService.request basicsDecls m args ≠ none) :
    exampleCall impl admin m args = .error ⟨S "WebrpcEndpoint", 0, S "endpoint error",
      S "endpoint /v1/Example/GetUser has been deprecated in favor of endpoint Use GetUserV2 instead.", 400⟩ := by
  have hi : m.annotations.lookup (S "deprecated") = some (S "Use GetUserV2 instead.") := by
    have : ∀ m ∈ exampleMethods, m.name = S "GetUser" → m.annotations.lookup (S "deprecated") = some (S "Use GetUserV2 instead.") := by
      decide +kernel
    exact this m hm hn
  have := (C85_refuses basicsPackage basics_unambiguous exampleService (List.mem_singleton.2 rfl) m hm _ hi impl basicsHooks rfl
    (fun _ _ => rfl)).2 args hargs
  rw [exampleCall_eq]
  rw [show exampleService.call basicsDecls m (exampleService.handler basicsDecls basicsPackage.header impl basicsHooks) args = _ from this, hn]
  rfl

omit [GoFloat] [GoUnicode] in
theorem basics_declared : WellDeclared basicsDecls := by
  refine ⟨fun e => ?_, fun e => ?_, fun n => ?_⟩
  · by_cases h : e = S "Kind"
    · subst h; decide +kernel
    · have : basicsDecls.members e = [] := by
        unfold Decls.members basicsDecls
        dsimp only
        rw [List.lookup_cons, show (e == S "Kind") = false from by simpa using h]; rfl
      rw [this]; exact .nil
  · by_cases h : e = S "Kind"
    · subst h; decide +kernel
    · have : basicsDecls.members e = [] := by
        unfold Decls.members basicsDecls
        dsimp only
        rw [List.lookup_cons, show (e == S "Kind") = false from by simpa using h]; rfl
      rw [this]; exact .nil
  · unfold Decls.fields
    cases hl : basicsDecls.structs.lookup n with
    | none => exact .nil
    | some fs =>
      have := lookup_mem hl
      have all : ∀ p ∈ basicsDecls.structs, (p.2.filterMap (·.tag)).Pairwise (· ≠ ·) := by decide +kernel
      exact all _ this

omit [GoFloat] [GoUnicode] in
theorem example_distinct {m : MethodCode} (hm : m ∈ exampleMethods) :
    Shape.Distinct m.sig.args ∧ Shape.Distinct m.sig.results := by
  have : ∀ m ∈ exampleMethods, (match m.sig.args with | .list fs => (fs.filterMap (·.tag)).Pairwise (· ≠ ·) | .whole _ => True) ∧
    (match m.sig.results with | .list fs => (fs.filterMap (·.tag)).Pairwise (· ≠ ·) | .whole _ => True) := by
    unfold exampleMethods
    simp only [List.mem_cons, List.not_mem_nil, or_false, forall_eq_or_imp, forall_eq]
    decide +kernel
  have h := this m hm
  unfold Shape.Distinct
  constructor
  · have := h.1
    revert this
    cases m.sig.args <;> exact id
  · have := h.2
    revert this
    cases m.sig.results <;> exact id

/-- C86. Every other method of `Example` runs: called with arguments that JSON can carry, the implementation is called
exactly once, with equal arguments, and its results, errors and panics come back. -/
theorem C86_runs_partial (impl admin : Impl) (m : MethodCode) (hm : m ∈ exampleMethods) (hn : m.name ≠ S "GetUser") (args : List GoVal)
    (hc : CarriedArgs basicsDecls m.sig.args args) :
    ∃ r args', exampleService.request basicsDecls m args = some r ∧ deepEqualList args args' = true ∧
      CarriedArgs basicsDecls m.sig.args args' ∧
      served basicsDecls exampleService (basicsApp impl admin r).1 = [(m.name, args')] ∧
      (∀ vals, impl m.name args' = .results vals → CarriedResults basicsDecls m.sig.results vals →
        ∃ vals', exampleCall impl admin m args = .ok vals' ∧ deepEqualList vals vals' = true) ∧
      (∀ e, impl m.name args' = .error (.rpc e) → Tellable e → exampleCall impl admin m args = .error e) ∧
      (∀ text, impl m.name args' = .error (.other text) →
        exampleCall impl admin m args = .error ⟨S "WebrpcEndpoint", 0, S "endpoint error", text, 400⟩) ∧
      (∀ x, impl m.name args' = .panic x →
        exampleCall impl admin m args = .error ⟨S "WebrpcServerPanic", -6, S "server panic", x, 500⟩) := by
  have hi : m.annotations.lookup (S "deprecated") = none := by
    have : ∀ m ∈ exampleMethods, m.name ≠ S "GetUser" → m.annotations.lookup (S "deprecated") = none := by decide +kernel
    exact this m hm hn
  obtain ⟨r, args', h1, h2, h3, h4, h5, h6⟩ := C82_typed_call basicsDecls basics_declared basicsPackage.header exampleService m
    (find_method basics_unambiguous (List.mem_singleton.2 rfl) hm) (example_distinct hm).1 (example_distinct hm).2 impl basicsHooks args hc
  obtain ⟨k1, k2, k3, k4, k5⟩ := h6 (C85_lets basicsPackage basics_unambiguous exampleService (List.mem_singleton.2 rfl) m hm hi basicsHooks rfl r h3)
  have hroute := C86_routes impl admin r (by rw [h3]; exact example_not_admin) (by
    rintro ⟨h, -⟩
    rw [h2] at h
    revert h
    decide)
  refine ⟨r, args', h1, h4, h5, ?_, ?_, ?_, ?_, ?_⟩
  · unfold served
    rw [hroute.2.1]
    exact k1
  · intro vals hv hcv
    obtain ⟨vals', g1, g2, -⟩ := k2 vals hv hcv
    exact ⟨vals', by rw [exampleCall_eq]; exact g1, g2⟩
  · intro e he ht
    rw [exampleCall_eq]; exact k3 e he ht
  · intro text he
    rw [exampleCall_eq]
    exact k4 text he ⟨by show Sendable 400; unfold Sendable; decide, by show (400 : Int) ≠ 200; decide,
      by show -(2 ^ 63) ≤ (0 : Int); decide, by show (0 : Int) < 2 ^ 63; decide⟩
  · intro x he
    rw [exampleCall_eq]
    exact k5 x he ⟨by show Sendable 500; unfold Sendable; decide, by show (500 : Int) ≠ 200; decide,
      by show -(2 ^ 63) ≤ (-6 : Int); decide, by show (-6 : Int) < 2 ^ 63; decide⟩

/-- Refusing a path does not depend on the implementation. -/
theorem unrouted_same {s s' : Server} {r : Request} (h : s.routes.lookup r.path = none) (h' : s'.routes.lookup r.path = none)
    (e1 : s.onError = s'.onError) (e2 : s.header = s'.header) : serveHTTP s r = serveHTTP s' r := by
  have hs : ∀ e, sendErrorJSON s e = sendErrorJSON s' e := by intro e; unfold sendErrorJSON; rw [e1]
  have hd : dispatch s r = dispatch s' r := by unfold dispatch; rw [h, h', hs]
  unfold serveHTTP
  simp only [hd, e2, hs]

/-- C86, why it is partial: the service `Admin` cannot be reached.  Its server is asked only for paths below `/admin/`, and
serves paths below `/v1/Admin/`: no request can tell which implementation of `Admin` is mounted. -/
theorem C86_admin_unreachable (impl admin admin' : Impl) (r : Request) : basicsApp impl admin r = basicsApp impl admin' r := by
  unfold basicsApp
  refine recoverer_congr ?_
  by_cases h1 : r.method = S "GET" ∧ r.path = S "/"
  · rw [if_pos h1, if_pos h1]
  · rw [if_neg h1, if_neg h1]
    by_cases h2 : (S "/admin/").isPrefixOf r.path = true
    · rw [if_pos h2, if_pos h2]
      have hp : ∀ m ∈ adminService.methods, r.path ≠ adminService.path ++ m.name := by
        intro m hm e
        rw [e] at h2
        have : ∀ m ∈ adminService.methods, (S "/admin/").isPrefixOf (adminService.path ++ m.name) = false := by decide +kernel
        rw [this m hm] at h2
        cases h2
      exact unrouted_same (no_route _ _ _ _ _ _ hp) (no_route _ _ _ _ _ _ hp) rfl rfl
    · rw [if_neg h2, if_neg h2]

/-- C86, why it is partial: the client of `Admin` gets a bad-route error from every method, whatever the base path of the
address it is given (`/admin`, say, or none). -/
theorem C86_admin_client (impl admin : Impl) (base : Str) (m : MethodCode) (hm : m ∈ adminService.methods) (args : List GoVal) :
    ∃ cause, ServiceCode.call basicsDecls ⟨S "Admin", base ++ S "/v1/Admin/", adminService.methods⟩ m (basicsApp impl admin) args =
      .error ⟨S "WebrpcBadRoute", -2, S "bad route", cause, 404⟩ := by
  have hnoargs : ∀ m ∈ adminService.methods, m.sig.args.some = false := by
    unfold adminService
    simp only [List.mem_cons, List.not_mem_nil, or_false, forall_eq_or_imp, forall_eq]
    exact ⟨rfl, rfl, rfl⟩
  have hreq : ServiceCode.request basicsDecls ⟨S "Admin", base ++ S "/v1/Admin/", adminService.methods⟩ m args ≠ none := by
    unfold ServiceCode.request
    rw [hnoargs m hm]
    exact (nomatch ·)
  have hsuf : ∀ v : ServiceCode, (v = exampleService ∨ v = adminService ∧ base ≠ []) → ∀ x ∈ v.methods,
      (base ++ S "/v1/Admin/") ++ m.name ≠ v.path ++ x.name := by
    rintro v (rfl | ⟨rfl, hb⟩) x hx e
    · have h1 : (S "/v1/Admin/" ++ m.name) <:+ (exampleService.path ++ x.name) := ⟨base, by rw [← e, List.append_assoc]⟩
      have : ∀ m ∈ adminService.methods, ∀ x ∈ exampleService.methods,
          (S "/v1/Admin/" ++ m.name).isSuffixOf (exampleService.path ++ x.name) = false := by decide +kernel
      have h2 := this m hm x hx
      rw [List.isSuffixOf_iff_suffix.2 h1] at h2
      cases h2
    · have h1 : (S "/v1/Admin/" ++ m.name) <:+ (adminService.path ++ x.name) := ⟨base, by rw [← e, List.append_assoc]⟩
      have : ∀ m ∈ adminService.methods, ∀ x ∈ adminService.methods,
          (S "/v1/Admin/" ++ m.name).isSuffixOf (adminService.path ++ x.name) = true → m.name = x.name := by decide +kernel
      have h2 := this m hm x hx (List.isSuffixOf_iff_suffix.2 h1)
      rw [← h2] at e
      have e' : base ++ (S "/v1/Admin/" ++ m.name) = [] ++ (S "/v1/Admin/" ++ m.name) := by
        rw [← List.append_assoc, e]; rfl
      exact hb (List.append_cancel_right e')
  have hmount : ∀ (v : ServiceCode) (i : Impl) (header : Str) (hooks : Hooks), (v = exampleService ∨ v = adminService ∧ base ≠ []) →
      (∀ r e, seen hooks r e = e) →
      (∀ r, r.path = (base ++ S "/v1/Admin/") ++ m.name → r.method = S "POST" →
        basicsApp impl admin r = recoverer (v.handler basicsDecls header i hooks) r) →
      ∃ cause, ServiceCode.call basicsDecls ⟨S "Admin", base ++ S "/v1/Admin/", adminService.methods⟩ m (basicsApp impl admin) args =
        .error ⟨S "WebrpcBadRoute", -2, S "bad route", cause, 404⟩ := by
    intro v i header hooks hv he heq
    obtain ⟨cause, hc⟩ := (C82_other_path basicsDecls header v i hooks).2 he basicsDecls
      ⟨S "Admin", base ++ S "/v1/Admin/", adminService.methods⟩ m args (hsuf v hv) hreq
    refine ⟨cause, ?_⟩
    rw [← hc]
    refine call_congr fun r hr => ?_
    obtain ⟨body, rfl⟩ := request_form hr
    rw [heq (requestFor (base ++ S "/v1/Admin/" ++ m.name) body) rfl rfl]
    exact (recoverer_response _ _ (handler_status he basicsDecls header v i _)).1
  by_cases h2 : (S "/admin/").isPrefixOf (base ++ S "/v1/Admin/" ++ m.name) = true
  · refine hmount adminService admin adminPackage.header {} (.inr ⟨rfl, ?_⟩) (fun _ _ => rfl) ?_
    · intro hb
      rw [hb, List.isPrefixOf_iff_prefix] at h2
      obtain ⟨t, ht⟩ := h2
      have h3 : (S "/admin/" ++ t)[1]? = some 'a' := rfl
      rw [ht] at h3
      have h4 : ([] ++ S "/v1/Admin/" ++ m.name)[1]? = some 'v' := rfl
      rw [h4] at h3
      exact absurd h3 (by decide)
    · intro r hr hpost
      unfold basicsApp
      refine recoverer_congr ?_
      rw [if_neg (by rw [hpost]; rintro ⟨h, -⟩; revert h; decide), if_pos (by rw [hr]; exact h2)]
  · refine hmount exampleService impl basicsPackage.header basicsHooks (.inl rfl) (fun _ _ => rfl) ?_
    intro r hr hpost
    unfold basicsApp
    refine recoverer_congr ?_
    rw [if_neg (by rw [hpost]; rintro ⟨h, -⟩; revert h; decide), if_neg (by rw [hr]; exact h2)]

/-! #### What the example's own implementation answers -/

omit [GoFloat] [GoUnicode] in
theorem eq_int {i : Int} {w : GoVal} (h : deepEqual (.int i) w = true) : w = .int i := by
  cases w <;> unfold deepEqual at h <;> first | cases h | skip
  rw [eq_of_beq h]

omit [GoFloat] [GoUnicode] in
theorem eq_str {i : Str} {w : GoVal} (h : deepEqual (.str i) w = true) : w = .str i := by
  cases w <;> unfold deepEqual at h <;> first | cases h | skip
  rw [eq_of_beq h]

omit [GoFloat] [GoUnicode] in
theorem eq_cons {a : GoVal} {l l' : List GoVal} (h : deepEqualList (a :: l) l' = true) :
    ∃ b r, l' = b :: r ∧ deepEqual a b = true ∧ deepEqualList l r = true := by
  cases l' with
  | nil => unfold deepEqualList at h; cases h
  | cons b r =>
    unfold deepEqualList at h
    rw [Bool.and_eq_true] at h
    exact ⟨b, r, rfl, h.1, h.2⟩

omit [GoFloat] [GoUnicode] in
theorem eq_nil {l' : List GoVal} (h : deepEqualList [] l' = true) : l' = [] := by
  cases l' with
  | nil => rfl
  | cons b r => unfold deepEqualList at h; cases h

omit [GoFloat] [GoUnicode] in
theorem eq_struct {l : List GoVal} {w : GoVal} (h : deepEqual (.struct l) w = true) : ∃ l', w = .struct l' ∧ deepEqualList l l' = true := by
  cases w <;> unfold deepEqual at h <;> first | cases h | exact ⟨_, rfl, h⟩

omit [GoFloat] [GoUnicode] in
theorem eq_ptr {v : GoVal} {w : GoVal} (h : deepEqual (.ptr v) w = true) : ∃ v', w = .ptr v' ∧ deepEqual v v' = true := by
  cases w <;> unfold deepEqual at h <;> first | cases h | exact ⟨_, rfl, h⟩

omit [GoFloat] [GoUnicode] in
theorem eq_nilv {w : GoVal} (h : deepEqual .nil w = true) : w = .nil := by
  cases w <;> first | rfl | (unfold deepEqual at h; cases h)

/-- The methods of `Example` by name. -/
def exampleMethod (name : Str) : MethodCode := (exampleMethods.find? fun m => m.name = name).getD ⟨[], ⟨.list [], .list []⟩, []⟩

/-- What the client of `Example` gets when the example's implementations are mounted. -/
def basicsCall (name : Str) (args : List GoVal) : TypedReturn := exampleCall exampleImpl adminImpl (exampleMethod name) args

theorem example_method {name : Str} (h : (exampleMethods.find? fun m => m.name = name).isSome = true) :
    exampleMethod name ∈ exampleMethods ∧ (exampleMethod name).name = name := by
  unfold exampleMethod
  cases hf : exampleMethods.find? fun m => m.name = name with
  | none => rw [hf] at h; cases h
  | some m =>
    have h2 := List.find?_some hf
    exact ⟨List.mem_of_find?_eq_some hf, of_decide_eq_true h2⟩

/-- C86. `GetUserV2` of the example: user 911 is not found, 31337 is not found with a cause, every other user is answered
with its id. -/
theorem C86_get_user (uid : Int) (hu : FitsUnsigned 64 uid) (prefs : GoVal) (hp : Carried basicsDecls (.map .string .string) prefs) :
    (uid = 911 → basicsCall (S "GetUserV2") [.struct [.int uid, prefs]] =
      .error ⟨S "UserNotFound", 1000, S "User not found", [], 404⟩) ∧
    (uid = 31337 → basicsCall (S "GetUserV2") [.struct [.int uid, prefs]] =
      .error ⟨S "UserNotFound", 1000, S "User not found", S "unknown user id 31337", 404⟩) ∧
    (uid ≠ 911 → uid ≠ 31337 → ∃ vals, basicsCall (S "GetUserV2") [.struct [.int uid, prefs]] = .ok vals ∧
      deepEqualList [.ptr (.struct [.int 200,
        .ptr (.struct [.int uid, .str (S "hihi"), .str [], .enum 1, .str (S "openSession")]),
        .str (S "https://www.google.com/images/john-doe.jpg")])] vals = true) := by
  obtain ⟨hm, hn⟩ := example_method (name := S "GetUserV2") (by decide +kernel)
  have hsig : (exampleMethod (S "GetUserV2")).sig = ⟨.whole (S "GetUserRequest"), .whole (S "GetUserResponse")⟩ := by
    rfl
  have hc : CarriedArgs basicsDecls (exampleMethod (S "GetUserV2")).sig.args [.struct [.int uid, prefs]] := by
    rw [hsig]
    exact ⟨_, rfl, plainField (.uint hu) (plainField hp .nil)⟩
  obtain ⟨r, args', -, h2, -, -, h5, h6, -, -⟩ := C86_runs_partial exampleImpl adminImpl _ hm (by rw [hn]; decide) _ hc
  rw [hn] at h5 h6
  obtain ⟨b, l, rfl, hb, hl⟩ := eq_cons h2
  have := eq_nil hl
  subst this
  obtain ⟨l', rfl, hl'⟩ := eq_struct hb
  obtain ⟨b, l, rfl, hb, hl⟩ := eq_cons hl'
  have := eq_int hb
  subst this
  obtain ⟨p', l, rfl, -, hl⟩ := eq_cons hl
  have := eq_nil hl
  subst this
  have himpl : exampleImpl (S "GetUserV2") [.struct [.int uid, p']] =
      getUser (S "https://www.google.com/images/john-doe.jpg") [.struct [.int uid, p']] := rfl
  rw [himpl] at h5 h6
  unfold getUser at h5 h6
  dsimp only at h5 h6
  refine ⟨fun e => ?_, fun e => ?_, fun e1 e2 => ?_⟩
  · rw [if_pos e] at h6
    exact h6 _ rfl ⟨by show Sendable 404; unfold Sendable; decide, by show (404 : Int) ≠ 200; decide,
      by show -(2 ^ 63) ≤ (1000 : Int); decide, by show (1000 : Int) < 2 ^ 63; decide⟩
  · rw [if_neg (by rw [e]; decide), if_pos e] at h6
    rw [show basicsCall (S "GetUserV2") [.struct [.int uid, prefs]] = _ from h6 _ rfl ⟨by show Sendable 404; unfold Sendable; decide, by show (404 : Int) ≠ 200; decide,
      by show -(2 ^ 63) ≤ (1000 : Int); decide, by show (1000 : Int) < 2 ^ 63; decide⟩]
    subst e
    rw [show S "unknown user id 31337" = S "unknown user id " ++ intText 31337 from by decide +kernel]
    rfl
  · rw [if_neg e1, if_neg e2] at h5
    refine h5 _ rfl ?_
    rw [hsig]
    refine ⟨_, rfl, .ref (plainField (.uint ?_) (plainField (.ref ?_) (plainField (.str _) .nil)))⟩
    · unfold FitsUnsigned; decide
    · exact plainField (.uint hu) (plainField (.str _) (plainField (.str _) (plainField (.enum (name := S "ADMIN") (by decide +kernel)) (plainField (.str _) .nil))))

/-- C86. `FindUser` of the example finds whom it is asked for; asked for nobody (a nil filter, which the client may send),
its implementation panics and the client gets the server-panic error. -/
theorem C86_find_user :
    (∀ q, ∃ vals, basicsCall (S "FindUser") [.ptr (.struct [.str q])] = .ok vals ∧
      deepEqualList [.str q, .ptr (.struct [.int 123, .str q, .str [], .enum 0, .str []])] vals = true) ∧
    basicsCall (S "FindUser") [.nil] = .error ⟨S "WebrpcServerPanic", -6, S "server panic",
      S "runtime error: invalid memory address or nil pointer dereference", 500⟩ := by
  obtain ⟨hm, hn⟩ := example_method (name := S "FindUser") (by decide +kernel)
  have hsig : (exampleMethod (S "FindUser")).sig =
      ⟨.list [fld (S "s") (.ref (S "SearchFilter"))], .list [fld (S "name") .string, fld (S "user") (.ref (S "User"))]⟩ := rfl
  constructor
  · intro q
    have hc : CarriedArgs basicsDecls (exampleMethod (S "FindUser")).sig.args [.ptr (.struct [.str q])] := by
      rw [hsig]
      exact plainField (.ref (plainField (.str q) .nil)) .nil
    obtain ⟨r, args', -, h2, -, -, h5, -⟩ := C86_runs_partial exampleImpl adminImpl _ hm (by rw [hn]; decide) _ hc
    rw [hn] at h5
    obtain ⟨b, l, rfl, hb, hl⟩ := eq_cons h2
    have := eq_nil hl
    subst this
    obtain ⟨l', rfl, hl'⟩ := eq_ptr hb
    obtain ⟨l', rfl, hl'⟩ := eq_struct hl'
    obtain ⟨b, l, rfl, hb, hl⟩ := eq_cons hl'
    have := eq_str hb
    subst this
    have := eq_nil hl
    subst this
    refine h5 _ rfl ?_
    rw [hsig]
    refine plainField (.str _) (plainField (.ref ?_) .nil)
    exact plainField (.uint (by unfold FitsUnsigned; decide)) (plainField (.str _) (plainField (.str _)
      (plainField (.enum (name := S "USER") (by decide +kernel)) (plainField (.str _) .nil))))
  · have hc : CarriedArgs basicsDecls (exampleMethod (S "FindUser")).sig.args [.nil] := by
      rw [hsig]
      exact plainField (.nil (.ref _)) .nil
    obtain ⟨r, args', -, h2, -, -, -, -, -, h8⟩ := C86_runs_partial exampleImpl adminImpl _ hm (by rw [hn]; decide) _ hc
    rw [hn] at h8
    obtain ⟨b, l, rfl, hb, hl⟩ := eq_cons h2
    have := eq_nil hl
    subst this
    have := eq_nilv hb
    subst this
    exact h8 _ rfl

omit [GoUnicode] in
/-- C82. The hypotheses hold of the succinct method `GetUserV2` of the golang-basics example. -/
theorem C82_example :
    exampleService.methods.find? (fun x => x.name = (exampleMethod (S "GetUserV2")).name) = some (exampleMethod (S "GetUserV2")) ∧
    (exampleMethod (S "GetUserV2")).sig.args = .whole (S "GetUserRequest") ∧ WellDeclared basicsDecls ∧
    CarriedArgs basicsDecls (exampleMethod (S "GetUserV2")).sig.args
      [.struct [.int 12, .map [(.str (S "a"), .str (S "1"))]]] := by
  refine ⟨rfl, rfl, basics_declared, _, rfl, plainField (.uint ?_) (plainField (.map ?_ ?_ ?_) .nil)⟩
  · unfold FitsUnsigned; decide
  · decide
  · intro p hp
    rw [List.mem_singleton.1 hp]; exact .str _
  · intro p hp
    rw [List.mem_singleton.1 hp]; exact .str _

omit [GoFloat] [GoUnicode] in
/-- C83. The hypotheses hold of the package `internal` of the golang-basics example, which has two services; mounting only
`Admin` gives its two methods. -/
theorem C83_example : Unambiguous internalPackage ∧
    (letI := wholeFloats; letI := asciiOnly
     (internalPackage.serverMethods (fun n => if n = S "Admin" then some adminImpl else none) {}).map (·.1)) =
      [S "/v1/Admin/Status", S "/v1/Admin/Version"] ∧
    internalPackage.methodCtx (requestFor (S "/v1/Admin/Status") none) = some ⟨S "Status", S "Admin", [(S "internal", [])]⟩ :=
  ⟨⟨by decide +kernel, by decide +kernel⟩, by decide +kernel, by decide +kernel⟩

end

end Verif.Values
