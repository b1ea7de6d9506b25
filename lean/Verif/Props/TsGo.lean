import Verif.Props.TsClient
import Verif.Props.Cli
/-!
# C88, C89: TypeScript clients of Go servers
-/

namespace Verif.Ts
open Verif.Schema hiding Json Method
open Verif.Json Verif.Gen Verif.Rpc Verif.RpcSpec Verif.Spec Verif.TsSpec Verif.Props Verif.Values
open Verif.Compile (mapSet)
variable [JsEngine] [GoFloat] [GoUnicode]

omit [GoFloat] in
theorem serve_result {s : Server} {r : Request} {m : Method} {args : Json} (h : Callable s r m args) {j : Json}
    (he : m.impl args = .result (some j)) (hm : m.hasResult = true) : Answer s.header (serveHTTP s r).1 200 j := by
  obtain ⟨h1, h2, h3⟩ := h
  obtain ⟨pre, p0, p1, -, p2⟩ := dispatch_passes h1 h2
  have hcall : callImpl s m args = ([.call m.name args] ++ [.setHeader (S "Content-Type") (S "application/json"), .writeHeader 200,
            .write (print ⟨false, true⟩ 0 j)], .ok ()) := by
    unfold callImpl Run.andThen
    rw [he]; dsimp only; rw [if_pos hm]
  rw [serveMethod_args s m _ h3, hcall] at p2
  rw [serve_shape, p2]
  dsimp only
  rw [← List.append_assoc]
  refine answer_of (silent_append.2 ⟨p0, by simp [Silent]⟩) ?_ (by unfold Sendable; decide)
  intro x hx
  rcases List.mem_append.1 hx with hx | hx
  · exact p1 x hx
  · rw [List.mem_singleton.1 hx]; trivial

omit [GoFloat] in
theorem serve_no_result {s : Server} {r : Request} {m : Method} {args : Json} (h : Callable s r m args) {j : Option Json}
    (he : m.impl args = .result j) (hm : m.hasResult = false) : Answer s.header (serveHTTP s r).1 200 (.obj []) := by
  obtain ⟨h1, h2, h3⟩ := h
  obtain ⟨pre, p0, p1, -, p2⟩ := dispatch_passes h1 h2
  have hcall : callImpl s m args = ([.call m.name args] ++ [.setHeader (S "Content-Type") (S "application/json"), .writeHeader 200,
            .write (print ⟨false, true⟩ 0 (.obj []))], .ok ()) := by
    unfold callImpl Run.andThen
    rw [he]; dsimp only; rw [if_neg (by simp [hm])]
    rfl
  rw [serveMethod_args s m _ h3, hcall] at p2
  rw [serve_shape, p2]
  dsimp only
  rw [← List.append_assoc]
  refine answer_of (silent_append.2 ⟨p0, by simp [Silent]⟩) ?_ (by unfold Sendable; decide)
  intro x hx
  rcases List.mem_append.1 hx with hx | hx
  · exact p1 x hx
  · rw [List.mem_singleton.1 hx]; trivial

omit [JsEngine] [GoFloat] [GoUnicode] in
/-- A key that differs from `Content-Type` only in case is it. -/
theorem content_type {headers : List (Str × Str)} (hn : (headers.map (·.1)).Nodup)
    (hp : ∀ p ∈ headers, headerKey p.1 = S "content-type" → p.1 = S "Content-Type") (header url body) :
    headerValue (S "Content-Type") (createHttpRequest header url body headers).headers = S "application/json" := by
  show headerValue _ (mapSet (S "Webrpc") header (mapSet (S "Content-Type") (S "application/json") headers)) = _
  have h1 := Cli.mapSet_keys (S "Content-Type") (S "application/json") headers hn
  have h2 := Cli.mapSet_keys (S "Webrpc") header _ h1.1
  have hl : (mapSet (S "Webrpc") header (mapSet (S "Content-Type") (S "application/json") headers)).lookup (S "Content-Type") =
      some (S "application/json") := by
    rw [Compile.mapSet_lookup, if_neg (by decide), Compile.mapSet_lookup, if_pos rfl]
  have hk : ∀ p ∈ mapSet (S "Webrpc") header (mapSet (S "Content-Type") (S "application/json") headers),
      headerKey p.1 = headerKey (S "Content-Type") → p.1 = S "Content-Type" := by
    intro p hm he
    have he' : headerKey p.1 = S "content-type" := by rw [he]; decide
    rcases (h2.2 p.1).1 (List.mem_map.2 ⟨p, hm, rfl⟩) with h | h
    · exfalso; rw [h] at he'; revert he'; decide
    · rcases (h1.2 p.1).1 h with h | h
      · exact h
      · obtain ⟨q, hq, hq'⟩ := List.mem_map.1 h
        rw [← hq'] at he' ⊢
        exact hp q hq he'
  generalize mapSet (S "Webrpc") header (mapSet (S "Content-Type") (S "application/json") headers) = l at hl hk h2
  have key : ∀ l : List (Str × Str), (l.map (·.1)).Nodup → l.lookup (S "Content-Type") = some (S "application/json") →
      (∀ p ∈ l, headerKey p.1 = headerKey (S "Content-Type") → p.1 = S "Content-Type") →
      (l.filter fun p => headerKey p.1 = headerKey (S "Content-Type")) = [(S "Content-Type", S "application/json")] := by
    intro l
    induction l with
    | nil => intro _ h; cases h
    | cons p l ih =>
      intro hn hl hk
      obtain ⟨k, x⟩ := p
      rw [List.map_cons, List.nodup_cons] at hn
      by_cases hkk : k = S "Content-Type"
      · subst hkk
        rw [List.lookup_cons, BEq.rfl] at hl
        cases hl
        rw [List.filter_cons_of_pos (by simp), List.filter_eq_nil_iff.2]
        intro q hq hq'
        refine hn.1 (List.mem_map.2 ⟨q, hq, ?_⟩)
        exact hk q (List.mem_cons_of_mem _ hq) (by simpa using hq')
      · rw [List.filter_cons_of_neg]
        · refine ih hn.2 ?_ fun q hq => hk q (List.mem_cons_of_mem _ hq)
          rw [List.lookup_cons] at hl
          rw [show (S "Content-Type" == k) = false from by simpa using fun h => hkk h.symm] at hl
          exact hl
        · intro hc
          exact hkk (hk (k, x) (List.mem_cons_self ..) (by simpa using hc))
  unfold headerValue
  rw [key l h2.1 hl hk]
  rfl

/-- What the Go server gets. -/
theorem go_request {c : TsClient} {m : TsMethod} {headers : List (Str × Str)} {origin : Str} {v : ServiceCode} {mc : MethodCode}
    (hw : Wired c m headers origin v mc) {req : Option Js} {r : TsRequest} (hr : c.request m req headers = .ok r) :
    origin.isPrefixOf r.url = true ∧
    goRequest origin r = { method := S "POST", path := v.path ++ mc.name, contentType := S "application/json", body := some r.body } := by
  obtain ⟨k, hh⟩ := hw.host
  have : ∃ body, r = createHttpRequest c.header (c.url m.name) body headers := by
    unfold TsClient.request at hr
    split at hr
    · cases hr; exact ⟨_, rfl⟩
    · split at hr
      · cases hr
      · cases hr; exact ⟨_, rfl⟩
  obtain ⟨body, rfl⟩ := this
  have hu : (createHttpRequest c.header (c.url m.name) body headers).url = origin ++ (v.path ++ mc.name) := by
    show trimSlashes c.hostname ++ c.path ++ m.name = _
    rw [hh, trimSlashes_eq hw.origin, hw.path, hw.name, List.append_assoc]
  constructor
  · rw [hu, List.isPrefixOf_iff_prefix]; exact List.prefix_append ..
  · unfold goRequest
    rw [hu, List.drop_left, content_type hw.keys hw.plain]
    rfl

/-- The call ends with what the answer of the Go server is turned into. -/
theorem call_over {c : TsClient} {m : TsMethod} {headers : List (Str × Str)} {origin : Str} {v : ServiceCode} {mc : MethodCode}
    (hw : Wired c m headers origin v mc) {req : Option Js} {r : TsRequest} (hr : c.request m req headers = .ok r) (h : HttpHandler)
    {hd : Str} {status : Int} {j : Json} (ha : Answer hd (h (goRequest origin r)).1 status j) (hj : Nums j) :
    c.call m req headers (overGo origin h) =
      match (if okStatus status then .ok (ofJson j) else throwPayload c.errors (ofJson j) : Except Thrown Js) with
      | .error t => .error t
      | .ok data => c.decode m.response data := by
  unfold TsClient.call
  rw [hr]
  dsimp only
  unfold overGo
  rw [if_pos (go_request hw hr).1]
  dsimp only
  rw [ha.status, ha.body, Option.getD_some, finish_response]
  unfold buildResponse
  rw [jsonParse_print hj]
  rfl

omit [GoFloat] [GoUnicode] in
theorem member_error (e : RpcError) (h1 : e.code.natAbs ≤ 2 ^ 53) (h2 : e.httpStatus.natAbs ≤ 2 ^ 53) :
    member (S "message") (ofJson e.toJson) = .undefined ∧
    member (S "code") (ofJson e.toJson) = .num (intText e.code) ∧
    member (S "status") (ofJson e.toJson) = .num (intText e.httpStatus) ∧
    member (S "cause") (ofJson e.toJson) = textOrUndefined e.cause := by
  unfold RpcError.toJson textOrUndefined
  by_cases hc : e.cause = []
  · rw [if_pos hc, if_pos hc]
    refine ⟨rfl, ?_, ?_, rfl⟩
    · show Js.num (JsEngine.canon _) = _; rw [JsEngine.canon_int _ h1]
    · show Js.num (JsEngine.canon _) = _; rw [JsEngine.canon_int _ h2]
  · rw [if_neg hc, if_neg hc]
    refine ⟨rfl, ?_, ?_, ?_⟩
    · show Js.num (JsEngine.canon _) = _; rw [JsEngine.canon_int _ h1]
    · show Js.num (JsEngine.canon _) = _; rw [JsEngine.canon_int _ h2]
    · show Js.str ((cook (escape true e.cause)).getD []) = _
      rw [cook_escape]; rfl

/-- C88, but for the message: when a Go server answers the request of a TypeScript client with an error (see C51, C52,
C54: an error of the implementation, a refusal or a panic) and its status is not 2xx, the client rejects with a
`WebrpcError` of the class for its code, with its code, status and cause.  Its message, however, is always the default of
the class: it is the message of the error exactly if they are the same. -/
theorem C88_go_error_partial (c : TsClient) (m : TsMethod) (headers : List (Str × Str)) (origin : Str) (v : ServiceCode) (mc : MethodCode)
    (hw : Wired c m headers origin v mc) (hd : DistinctCodes c.errors) (s : Server) (h : HttpHandler) (req : Option Js) (r : TsRequest)
    (hr : c.request m req headers = .ok r) (e : RpcError)
    (ha : AnswersError s (h (goRequest origin r)).1 e)
    (hs : ¬ (200 ≤ (reported s e).httpStatus ∧ (reported s e).httpStatus ≤ 299))
    (hc : (reported s e).code.natAbs ≤ 2 ^ 53) (hst : (reported s e).httpStatus.natAbs ≤ 2 ^ 53) :
    ∃ t, c.call m req headers (overGo origin h) = .error (.webrpc t) ∧
      ClassOf c.errors (reported s e).code t.cls ∧ t.code = .num (intText (reported s e).code) ∧
      t.status = .num (intText (reported s e).httpStatus) ∧ t.cause = textOrUndefined (reported s e).cause ∧
      t.message = .str t.cls.message ∧
      (Tells c.errors (reported s e) t ↔ (reported s e).message = t.cls.message) := by
  have hn : Nums (reported s e).toJson := ints_error _
  have hcall := call_over hw hr h ha.1 hn
  rw [if_neg (by unfold okStatus; simpa using hs)] at hcall
  obtain ⟨m1, m2, m3, m4⟩ := member_error (reported s e) hc hst
  obtain ⟨t, ht, hdes⟩ := throw_describes (data := ofJson (reported s e).toJson) hd (by rfl) (Or.inl m2)
  rw [ht] at hcall
  have hmsg : t.message = .str t.cls.message := by rw [hdes.message, m1]; rfl
  have hstat : t.status = .num (intText (reported s e).httpStatus) := by
    rcases hdes.status with ⟨x, h1, h2⟩ | ⟨h1, -⟩
    · rw [h2, ← h1, m3]
    · exact absurd m3 (h1 _)
  have hcause : t.cause = textOrUndefined (reported s e).cause := by rw [hdes.cause, m4]
  refine ⟨t, hcall, hdes.cls, hdes.code, hstat, hcause, hmsg, ?_⟩
  unfold Tells
  rw [hmsg, hstat, hcause]
  constructor
  · rintro ⟨-, -, h, -⟩; injection h with h; exact h.symm
  · intro h; exact ⟨hdes.cls, hdes.code, by rw [h], rfl, rfl⟩

/-- C88 is false of the code for errors with a status 2xx other than 200, which a Go client would report: a TypeScript client
takes them for the result. -/
theorem C88_2xx (c : TsClient) (m : TsMethod) (headers : List (Str × Str)) (origin : Str) (v : ServiceCode) (mc : MethodCode)
    (hw : Wired c m headers origin v mc) (s : Server) (h : HttpHandler) (req : Option Js) (r : TsRequest)
    (hr : c.request m req headers = .ok r) (e : RpcError) (ha : AnswersError s (h (goRequest origin r)).1 e)
    (hs : 200 ≤ (reported s e).httpStatus ∧ (reported s e).httpStatus ≤ 299) (ht : c.table = none) :
    c.call m req headers (overGo origin h) = .ok (ofJson (reported s e).toJson) := by
  have hcall := call_over hw hr h ha.1 (ints_error _)
  rw [if_pos (by unfold okStatus; simpa using hs)] at hcall
  rw [hcall]
  dsimp only
  unfold TsClient.decode
  rw [ht]
  rfl

theorem request_ok (c : TsClient) (m : TsMethod) (headers : List (Str × Str)) (req : Option Js)
    (hb : ∀ w, req = some w → c.table ≠ none ∨ hasBig w = false) : ∃ r, c.request m req headers = .ok r ∧
      (∀ w j, req = some w → JsOk w → toJson w = some j → JsonText r.body j) := by
  cases req with
  | none => exact ⟨_, rfl, nofun⟩
  | some w =>
    have he : c.encode w = .ok (stringify w) := by
      unfold TsClient.encode
      rw [if_neg]
      rcases hb w rfl with hb | hb
      · cases ht : c.table with
        | none => exact absurd ht hb
        | some _ => simp
      · simp [hb]
    refine ⟨createHttpRequest c.header (c.url m.name) (stringify w) headers, ?_, ?_⟩
    · unfold TsClient.request; dsimp only; rw [he]
    · rintro w' j hw hok hj
      cases hw
      have := parse_printed ⟨false, false⟩ j (nums_toJson hok j hj) [] (by simp)
      rw [List.append_nil] at this
      show JsonText ((stringify w).getD _) j
      unfold stringify
      rw [hj]
      exact parse_iff.1 this

/-- C89. A TypeScript client of a generated Go service: if its request is JSON that the Go method takes as arguments, and
the request hook lets it through, then the implementation is called exactly once, with these arguments; when it gives
results, the promise resolves with the value of their JSON (its bigints decoded, see C92); when it gives an error or
panics, the promise rejects as C88 says. -/
theorem C89_call (d : Decls) (header : Str) (c : TsClient) (m : TsMethod) (headers : List (Str × Str)) (origin : Str) (v : ServiceCode)
    (mc : MethodCode) (hw : Wired c m headers origin v mc) (hd : DistinctCodes c.errors) (impl : Impl) (hooks : Hooks)
    (req : Option Js) (args : List GoVal) (hta : TakenAs d mc req args)
    (hb : ∀ w, req = some w → c.table ≠ none ∨ hasBig w = false) :
    let h := v.handler d header impl hooks
    ∃ r, c.request m req headers = .ok r ∧
      (Lets hooks (goRequest origin r) →
        served d v (h (goRequest origin r)).1 = [(mc.name, args)] ∧
        (∀ vals j, impl mc.name args = .results vals → mc.sig.results.some = true → mc.sig.results.writeResults d vals = some j →
          Nums j → c.call m req headers (overGo origin h) = c.decode m.response (ofJson j)) ∧
        (∀ vals, impl mc.name args = .results vals → mc.sig.results.some = false →
          c.call m req headers (overGo origin h) = c.decode m.response (.obj [])) ∧
        (∀ e, impl mc.name args = .error (.rpc e) → TellableTs (seen hooks (goRequest origin r) e) →
          ∃ t, c.call m req headers (overGo origin h) = .error (.webrpc t) ∧
            ToldByGo c.errors (seen hooks (goRequest origin r) e) t) ∧
        (∀ text, impl mc.name args = .error (.other text) →
          let e := seen hooks (goRequest origin r) ⟨S "WebrpcEndpoint", 0, S "endpoint error", text, 400⟩
          TellableTs e → ∃ t, c.call m req headers (overGo origin h) = .error (.webrpc t) ∧ ToldByGo c.errors e t) ∧
        (∀ x, impl mc.name args = .panic x →
          let e := seen hooks (goRequest origin r) ⟨S "WebrpcServerPanic", -6, S "server panic", x, 500⟩
          TellableTs e → ∃ t, c.call m req headers (overGo origin h) = .error (.webrpc t) ∧ ToldByGo c.errors e t)) := by
  intro h
  obtain ⟨r, hr, hbody⟩ := request_ok c m headers req hb
  refine ⟨r, hr, fun hl => ?_⟩
  have hgo := (go_request hw hr).2
  have hlook := svc_lookup d header v impl hooks (goRequest origin r) mc.name
  rw [hw.method, Option.map_some] at hlook
  obtain ⟨sent, hsent, hargs⟩ : ∃ sent, Arguments (svcMethod d impl mc) (goRequest origin r) sent ∧
      (mc.sig.args.readArgs d sent).getD [] = args := by
    unfold Arguments
    unfold TakenAs at hta
    show ∃ sent, (if mc.sig.args.some = true then _ else _) ∧ _
    split at hta
    · rename_i hs
      obtain ⟨w, j, h1, h2, h3, h4⟩ := hta
      refine ⟨j, ?_, by rw [h4]; rfl⟩
      rw [if_pos hs]
      refine ⟨r.body, j, by rw [hgo], hbody w j h1 h2 h3, ?_⟩
      show accepted _ j = _
      unfold accepted; rw [h4]
    · rename_i hs
      refine ⟨.null, ?_, hta.symm⟩
      rw [if_neg hs]
  have hcb : Callable (v.server d header impl hooks (goRequest origin r)) (goRequest origin r) (svcMethod d impl mc) sent := by
    refine ⟨⟨?_, by rw [hgo], by rw [hgo]; exact json_type⟩, lets_passes hl, hsent⟩
    rw [show (goRequest origin r).path = v.path ++ mc.name from by rw [hgo]]
    exact hlook
  have hrep := reported_seen d header v impl hooks (goRequest origin r)
  have himpl : ∀ o, impl mc.name args = o → (svcMethod d impl mc).impl sent =
      (match o with
        | .results vals => Outcome.result (mc.sig.results.writeResults d vals)
        | .error e => .error e
        | .panic x => .panic x) := by
    intro o ho
    show mc.sig.untyped d (impl mc.name) sent = _
    unfold Sig.untyped
    rw [hargs, ho]
    cases o <;> rfl
  have herr : ∀ e, AnswersError (v.server d header impl hooks (goRequest origin r)) (h (goRequest origin r)).1 e →
      TellableTs (seen hooks (goRequest origin r) e) → ∃ t, c.call m req headers (overGo origin h) = .error (.webrpc t) ∧
        ToldByGo c.errors (seen hooks (goRequest origin r) e) t := by
    intro e hae ht
    obtain ⟨t1, t2, t3, t4⟩ := ht
    have := C88_go_error_partial c m headers origin v mc hw hd _ h req r hr e hae (by rw [hrep]; omega) (by rw [hrep]; exact t4)
      (by rw [hrep]; omega)
    rw [hrep] at this
    obtain ⟨t, k0, k1, k2, k3, k4, k5, -⟩ := this
    exact ⟨t, k0, k1, k2, k3, k4, k5⟩
  have hsend : ∀ e, TellableTs (seen hooks (goRequest origin r) e) →
      Sendable (reported (v.server d header impl hooks (goRequest origin r)) e).httpStatus := by
    intro e ht
    obtain ⟨t1, t2, t3, -⟩ := ht
    rw [hrep]
    unfold Sendable; omega
  refine ⟨?_, ?_, ?_, ?_, ?_, ?_⟩
  · unfold served
    show (calls (serveHTTP _ _).1).map _ = _
    rw [(C51_called_iff _ _).1 _ _ hcb]
    show [((svcMethod d impl mc).name, _)] = _
    have : (svcMethod d impl mc).name = mc.name := rfl
    rw [this]
    dsimp only
    rw [hw.method]
    dsimp only
    rw [hargs]
  · intro vals j h1 h2 h3 h4
    have hi := himpl _ h1
    dsimp only at hi
    rw [h3] at hi
    have := call_over hw hr h (serve_result hcb hi h2) h4
    rw [this]
    rfl
  · intro vals h1 h2
    have := call_over hw hr h (serve_no_result hcb (himpl _ h1) h2) (by simp [Nums, NumsMembers])
    rw [this]
    rfl
  · intro e he ht
    exact herr e (serve_error hcb (Or.inl ⟨.rpc e, himpl _ he, rfl⟩) (hsend _ ht)).1 ht
  · intro text he e ht
    exact herr _ (serve_error (e := errEndpoint.withCause text) hcb (Or.inl ⟨.other text, himpl _ he, rfl⟩) (hsend _ ht)).1 ht
  · intro x he e ht
    exact herr _ (C54_panic _ _ _ sent x hcb (himpl _ he) (hsend _ ht)).1 ht

/-- C89, for other handlers in front of the service, such as a middleware that drops the request: a handler that neither
writes a status nor a body answers 200 with no text, and the client rejects with `WebrpcBadResponse` of that status, and does not
take it for a result. -/
theorem C89_no_answer (c : TsClient) (m : TsMethod) (headers : List (Str × Str)) (origin : Str) (v : ServiceCode) (mc : MethodCode)
    (hw : Wired c m headers origin v mc) (h : HttpHandler) (req : Option Js) (r : TsRequest) (hr : c.request m req headers = .ok r)
    (hs : ∀ x ∈ (h (goRequest origin r)).1, (∀ s, x ≠ .writeHeader s) ∧ ∀ b, x ≠ .write b) :
    ∃ t, c.call m req headers (overGo origin h) = .error (.webrpc t) ∧ t.cls.name = S "WebrpcBadResponse" ∧
      t.code = .num (S "-5") ∧ t.status = .num (S "200") := by
  have key : ∀ (l : List Eff) (p : Response), (∀ x ∈ l, (∀ s, x ≠ .writeHeader s) ∧ ∀ b, x ≠ .write b) →
      (l.foldl Response.apply p).status = p.status ∧ (l.foldl Response.apply p).body = p.body := by
    intro l
    induction l with
    | nil => intro p _; exact ⟨rfl, rfl⟩
    | cons x l ih =>
      intro p hx
      have h1 := hx x (List.mem_cons_self ..)
      rw [List.foldl_cons]
      have h2 := ih (p.apply x) fun y hy => hx y (List.mem_cons_of_mem _ hy)
      rw [h2.1, h2.2]
      cases x with
      | writeHeader s => exact absurd rfl (h1.1 s)
      | write b => exact absurd rfl (h1.2 b)
      | _ => exact ⟨rfl, rfl⟩
  have hk := key _ .empty hs
  refine ⟨badResponseClass.construct .undefined .undefined (.num (intText 200))
      (.str (S "JSON.parse(): " ++ JsEngine.syntaxError [] ++ S ": response text: " ++ [])), ?_, rfl, ?_, ?_⟩
  · unfold TsClient.call
    rw [hr]
    dsimp only
    unfold overGo
    rw [if_pos (go_request hw hr).1]
    dsimp only
    unfold Response.of
    rw [hk.1, hk.2, show Response.empty.status = none from rfl, show Response.empty.body = [] from rfl, Option.getD_none,
      finish_response]
    unfold buildResponse
    rw [show jsonParse [] = none from by unfold jsonParse; rw [show parse [] = none from rfl]; rfl]
  · show Js.num (intText (-5)) = _
    rw [show intText (-5) = S "-5" from by decide +kernel]
  · show Js.num (intText 200) = _
    rw [show intText 200 = S "200" from by decide +kernel]

omit [JsEngine] [GoFloat] [GoUnicode] in
/-- C88. An error that the client has a class for, with the message of the schema, is told completely. -/
theorem C88_known {cs : List ErrClass} (hd : DistinctCodes cs) {e : RpcError} {t : TsError} (ht : ToldByGo cs e t)
    (c : ErrClass) (hc : c ∈ cs) (h1 : c.code = e.code) (h2 : c.message = e.message) : Tells cs e t := by
  obtain ⟨k1, k2, k3, k4, k5⟩ := ht
  have : t.cls = c := classOf_unique hd k1 (.known hc h1)
  exact ⟨k1, k2, by rw [k5, this, h2], k3, k4⟩

/-! ### An example -/

omit [JsEngine] [GoFloat] [GoUnicode] in
/-- A service with one method, without arguments and results. -/
def exService : ServiceCode :=
  { name := S "Example", path := S "/v1/Example/", methods := [⟨S "Ping", ⟨.list [], .list []⟩, []⟩] }

omit [JsEngine] [GoFloat] [GoUnicode] in
theorem ex_wired : Wired exClient ⟨S "Ping", S "PingResponse"⟩ [(S "Authorization", S "x")] (S "http://localhost:3000") exService
    ⟨S "Ping", ⟨.list [], .list []⟩, []⟩ where
  host := ⟨2, by decide +kernel⟩
  origin := by decide +kernel
  path := rfl
  name := rfl
  method := rfl
  keys := by decide +kernel
  plain := by decide +kernel

/-- C88 is false of the code for messages: whatever the message of a Go error with the code 77, for which the client has no
class, the client rejects with the message `endpoint error`.  (The example also meets the hypotheses of C89.) -/
theorem C88_message_lost (d : Decls) (header msg : Str) (req : Option Js)
    (hb : ∀ w, req = some w → hasBig w = false) :
    let h := exService.handler d header (fun _ _ => .error (.rpc ⟨S "Custom", 77, msg, [], 404⟩)) {}
    ∃ t, exClient.call ⟨S "Ping", S "PingResponse"⟩ req [(S "Authorization", S "x")] (overGo (S "http://localhost:3000") h) =
      .error (.webrpc t) ∧ t.code = .num (S "77") ∧ t.status = .num (S "404") ∧ t.message = .str (S "endpoint error") := by
  intro h
  obtain ⟨r, hr, hall⟩ := C89_call d header exClient ⟨S "Ping", S "PingResponse"⟩ [(S "Authorization", S "x")] (S "http://localhost:3000")
    exService ⟨S "Ping", ⟨.list [], .list []⟩, []⟩ ex_wired builtin_distinct
    (fun _ _ => .error (.rpc ⟨S "Custom", 77, msg, [], 404⟩)) {} req _ rfl (fun w hw => Or.inr (hb w hw))
  obtain ⟨-, -, -, h4, -⟩ := hall nofun
  obtain ⟨t, h5, k1, k2, k3, k4, k5⟩ := h4 _ rfl (by unfold TellableTs; show (300:Int) ≤ 404 ∧ (404:Int) ≤ 999 ∧ (404:Int) ≠ 304 ∧ (77:Int).natAbs ≤ 2 ^ 53; decide)
  refine ⟨t, h5, ?_, ?_, ?_⟩
  · rw [k2]; show Js.num (intText 77) = _; rw [show intText 77 = S "77" from by decide +kernel]
  · rw [k3]; show Js.num (intText 404) = _; rw [show intText 404 = S "404" from by decide +kernel]
  · have : ∀ c ∈ builtinClasses, c.code ≠ 77 := by decide +kernel
    have := classOf_unique builtin_distinct k1 (.unknown this)
    rw [k5, this]

end Verif.Ts
