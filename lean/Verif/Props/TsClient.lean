import Verif.Spec.Ts
import Verif.Props.Services
import Verif.Props.Basics
/-!
# C87 - C89: generated TypeScript clients
-/

namespace Verif.Ts
open Verif.Schema hiding Json Method
open Verif.Json Verif.Gen Verif.Rpc Verif.RpcSpec Verif.Spec Verif.TsSpec Verif.Props Verif.Values
open Verif.Compile (mapSet)
variable [JsEngine]

omit [JsEngine] in
/-- What `JSON.stringify` writes is JSON. -/
theorem nums_toJson {v : Js} (h : JsOk v) : ∀ j, toJson v = some j → Nums j := by
  induction h with
  | undefined => intro j hj; rw [toJson] at hj; cases hj
  | null => intro j hj; rw [toJson] at hj; cases hj; trivial
  | bool b => intro j hj; rw [toJson] at hj; cases hj; trivial
  | @num t h =>
    intro j hj
    rw [toJson] at hj
    cases hj
    split
    · trivial
    · rename_i hn
      rcases h with h | rfl | rfl | rfl
      · exact h
      · exact absurd rfl hn
      · exact absurd rfl hn
      · exact absurd rfl hn
  | str s => intro j hj; rw [toJson] at hj; cases hj; exact nums_ofStr _ _
  | big n => intro j hj; rw [toJson] at hj; cases hj; exact nums_ofStr _ _
  | @arr l h ih =>
    intro j hj
    rw [toJson] at hj
    cases hj
    show NumsList _
    clear h
    induction l with
    | nil => trivial
    | cons v l ihl =>
      rw [toElems]
      refine ⟨?_, ihl fun w hw => ih w (List.mem_cons_of_mem _ hw)⟩
      cases hv : toJson v with
      | none => trivial
      | some k => exact ih v (List.mem_cons_self ..) k hv
  | @obj l h ih =>
    intro j hj
    rw [toJson] at hj
    cases hj
    show NumsMembers _
    clear h
    induction l with
    | nil => trivial
    | cons p l ihl =>
      obtain ⟨k, v⟩ := p
      have := ihl fun w hw => ih w (List.mem_cons_of_mem _ hw)
      rw [toMembers]
      cases hv : toJson v with
      | none => exact this
      | some j => exact ⟨ih (k, v) (List.mem_cons_self ..) j hv, this⟩

theorem jsonParse_iff {text : Str} {v : Js} : jsonParse text = some v ↔ ∃ j, JsonText text j ∧ ofJson j = v := by
  unfold jsonParse
  rw [Option.map_eq_some_iff]
  simp only [parse_iff]

theorem jsonParse_none {text : Str} : jsonParse text = none ↔ ¬ ∃ j, JsonText text j := by
  unfold jsonParse
  rw [Option.map_eq_none_iff]
  constructor
  · rintro h ⟨j, hj⟩; rw [parse_iff.2 hj] at h; cases h
  · intro h
    cases hp : parse text with
    | none => rfl
    | some j => exact absurd ⟨j, parse_iff.1 hp⟩ h

theorem jsonParse_print {j : Json} (h : Nums j) (html : Bool) : jsonParse (print ⟨false, html⟩ 0 j) = some (ofJson j) := by
  have := parse_printed ⟨false, html⟩ j h [] (by simp)
  rw [List.append_nil] at this
  unfold jsonParse
  rw [this]; rfl

omit [JsEngine] in
theorem trimSlashes_eq {host : Str} (h : host.getLast? ≠ some '/') (k : Nat) :
    trimSlashes (host ++ List.replicate k '/') = host := by
  unfold trimSlashes
  have hd : ∀ k, (List.replicate k '/' ++ host.reverse).dropWhile (· == '/') = host.reverse := by
    intro k
    induction k with
    | zero =>
      rw [List.replicate_zero, List.nil_append]
      cases hr : host.reverse with
      | nil => rfl
      | cons c r =>
        have : host.getLast? = some c := by rw [List.getLast?_eq_head?_reverse, hr]; rfl
        rw [List.dropWhile_cons_of_neg]
        intro hc
        rw [this] at h
        exact h (by rw [eq_of_beq hc])
    | succ k ih => rw [List.replicate_succ, List.cons_append, List.dropWhile_cons_of_pos (by rfl)]; exact ih
  rw [List.reverse_append, List.reverse_replicate, hd, List.reverse_reverse]

/-! ## C87: calls of a TypeScript client -/

/-- C87. What a call sends: one `POST` to the host (with or without slashes at its end), the path of the service and the
name of the method; the content type is JSON and the webrpc header is set, whatever headers the caller adds; the other
headers are the caller's; the body is JSON for the request. -/
theorem C87_request (c : TsClient) (m : TsMethod) (v : Js) (headers : List (Str × Str)) (j : Json)
    (hv : JsOk v) (hj : toJson v = some j) (hb : c.table ≠ none ∨ hasBig v = false)
    (host : Str) (slashes : Nat) (hh : c.hostname = host ++ List.replicate slashes '/') (hl : host.getLast? ≠ some '/') :
    ∃ r, c.request m (some v) headers = .ok r ∧ r.method = S "POST" ∧ r.url = host ++ c.path ++ m.name ∧
      r.headers.lookup (S "Content-Type") = some (S "application/json") ∧ r.headers.lookup (S "Webrpc") = some c.header ∧
      (∀ k, k ≠ S "Content-Type" → k ≠ S "Webrpc" → r.headers.lookup k = headers.lookup k) ∧ JsonText r.body j := by
  have he : c.encode v = .ok (some (print ⟨false, false⟩ 0 j)) := by
    unfold TsClient.encode
    rw [if_neg, stringify, hj]; rfl
    rcases hb with hb | hb
    · cases ht : c.table with
      | none => exact absurd ht hb
      | some _ => simp
    · simp [hb]
  refine ⟨createHttpRequest c.header (c.url m.name) (some (print ⟨false, false⟩ 0 j)) headers, ?_, rfl, ?_, ?_, ?_, ?_, ?_⟩
  · unfold TsClient.request; dsimp only; rw [he]
  · show trimSlashes c.hostname ++ c.path ++ m.name = _
    rw [hh, trimSlashes_eq hl]
  · show (mapSet _ _ _).lookup _ = _
    rw [Compile.mapSet_lookup, if_neg (by decide), Compile.mapSet_lookup, if_pos rfl]
  · show (mapSet _ _ _).lookup _ = _
    rw [Compile.mapSet_lookup, if_pos rfl]
  · intro k h1 h2
    show (mapSet _ _ _).lookup _ = _
    rw [Compile.mapSet_lookup, if_neg h2, Compile.mapSet_lookup, if_neg h1]
  · have := parse_printed ⟨false, false⟩ j (nums_toJson hv j hj) [] (by simp)
    rw [List.append_nil] at this
    exact parse_iff.1 this

omit [JsEngine] in
theorem numeral_inj {a b : Nat} (h : Spec.numeral a = Spec.numeral b) : a = b := by
  have ha : decimalValue (Spec.numeral a) = a := decimalValue_repr a
  have hb : decimalValue (Spec.numeral b) = b := decimalValue_repr b
  rw [← ha, h, hb]

omit [JsEngine] in
theorem intText_inj {a b : Int} (h : intText a = intText b) : a = b := by
  unfold intText at h
  have hm : ∀ n r, Spec.numeral n ≠ '-' :: r := by
    intro n r hn
    have := (numeral_digits n).2 '-' (by rw [hn]; simp)
    revert this; decide
  split at h <;> split at h
  · injection h with _ h
    have := numeral_inj h; omega
  · exact absurd h.symm (hm _ _)
  · exact absurd h (hm _ _)
  · have := numeral_inj h; omega

omit [JsEngine] in
/-- The class for a code is found. -/
theorem classFor_spec {cs : List ErrClass} (hd : DistinctCodes cs) (code : Int) : ClassOf cs code (classFor cs (intText code)) := by
  unfold classFor
  cases hf : cs.reverse.find? (fun c => intText c.code = intText code) with
  | none =>
    refine .unknown fun c hc he => ?_
    have := List.find?_eq_none.1 hf c (by simpa using hc)
    simp [he] at this
  | some c =>
    have h1 := List.mem_of_find?_eq_some hf
    have h2 := List.find?_some hf
    exact .known (by simpa using h1) (intText_inj (by simpa using h2))

omit [JsEngine] in
theorem classOf_unique {cs : List ErrClass} (hd : DistinctCodes cs) {code : Int} {a b : ErrClass} (ha : ClassOf cs code a)
    (hb : ClassOf cs code b) : a = b := by
  cases ha with
  | known h1 h2 => cases hb with
    | known h3 h4 => exact pairwise_inj hd h1 h3 (by rw [h2, h4])
    | unknown h3 => exact absurd h2 (h3 _ h1)
  | unknown h1 => cases hb with
    | known h3 h4 => exact absurd h4 (h1 _ h3)
    | unknown h3 => rfl

omit [JsEngine] in
theorem typeOf_num {v : Js} : typeOf v = S "number" ↔ ∃ x, v = .num x := by
  constructor
  · intro h
    cases v with
    | num x => exact ⟨x, rfl⟩
    | _ => exact absurd h (by simp only [typeOf]; decide)
  · rintro ⟨x, rfl⟩; rfl

theorem getProp_ok {v : Js} (h : nullish v = false) (k : Str) : getProp v k = .ok (member k v) := by
  unfold getProp; rw [h]; rfl

omit [JsEngine] in
theorem classOf_zero {cs : List ErrClass} {c : ErrClass} {code : Int} (h : ClassOf cs code c) : c.code = code ∨ c.code = 0 := by
  cases h with
  | known _ h => exact Or.inl h
  | unknown _ => exact Or.inr rfl

/-- What is thrown for an error response. -/
theorem throw_describes {cs : List ErrClass} (hd : DistinctCodes cs) {data : Js} (hn : nullish data = false) {code : Int}
    (hc : CodeIn data code) : ∃ t, (throwPayload cs data : Except Thrown Js) = .error (.webrpc t) ∧ Describes cs data code t := by
  have h1 : codeOf data = .ok (intText code) := by
    unfold codeOf
    rw [getProp_ok hn]
    rcases hc with hc | ⟨hc, rfl⟩
    · show (match member (S "code") data with | .num t => _ | _ => _ : Except Thrown Str) = _
      rw [hc]; rfl
    · show (match member (S "code") data with | .num t => _ | _ => _ : Except Thrown Str) = _
      split
      · rename_i t ht; exact absurd ht (hc t)
      · rfl
  have hcl := classFor_spec hd code
  refine ⟨(classFor cs (intText code)).construct (member (S "message") data) (member (S "code") data) (member (S "status") data)
    (member (S "cause") data), ?_, ?_⟩
  · unfold throwPayload
    rw [h1]
    dsimp only
    have : (classFor cs (intText code)).new data = .ok ((classFor cs (intText code)).construct (member (S "message") data)
        (member (S "code") data) (member (S "status") data) (member (S "cause") data)) := by
      unfold ErrClass.new
      rw [getProp_ok hn, getProp_ok hn, getProp_ok hn, getProp_ok hn]
      rfl
    rw [this]
  · refine ⟨hcl, rfl, ?_, rfl, ?_, rfl⟩
    · show (if typeOf _ = _ then _ else _) = _
      rcases hc with hc | ⟨hc, rfl⟩
      · rw [if_pos (typeOf_num.2 ⟨_, hc⟩), hc]
      · rw [if_neg (fun h => by obtain ⟨x, hx⟩ := typeOf_num.1 h; exact hc x hx)]
        rcases classOf_zero hcl with h | h <;> rw [h]
    · show (∃ x, _ ∧ (if typeOf _ = _ then _ else _) = _) ∨ (_ ∧ (if typeOf _ = _ then _ else _) = _)
      by_cases hs : ∃ x, member (S "status") data = .num x
      · obtain ⟨x, hx⟩ := hs
        exact Or.inl ⟨x, hx, by rw [if_pos (typeOf_num.2 ⟨x, hx⟩), hx]⟩
      · refine Or.inr ⟨fun x hx => hs ⟨x, hx⟩, ?_⟩
        rw [if_neg (fun h => hs (typeOf_num.1 h))]
        rfl

theorem finish_response (c : TsClient) (m : TsMethod) (status : Int) (text : Str) :
    c.finish m (.response status (.ok text)) = match buildResponse c.errors status text with
      | .error t => .error t
      | .ok data => c.decode m.response data := rfl

/-- C87. How a call ends, for a client without bigints: if there is no response, with request-failed; if the response is
not JSON, with bad-response and its status; if it is JSON and the status is 2xx, with the value of the JSON (other than a
string, which is taken for JSON again); if it is JSON other than null and the status is not 2xx, with the error it
describes. -/
theorem C87_outcome (c : TsClient) (m : TsMethod) (hd : DistinctCodes c.errors) (ht : c.table = none) :
    (∀ t, ∃ e, c.finish m (.failed t) = .error (.webrpc e) ∧ e.cls.name = S "WebrpcRequestFailed" ∧ e.code = .num (S "-1") ∧
      e.cause = .str (S "fetch(): " ++ t)) ∧
    (∀ status text, (¬ ∃ j, JsonText text j) → ∃ e, c.finish m (.response status (.ok text)) = .error (.webrpc e) ∧
      e.cls.name = S "WebrpcBadResponse" ∧ e.code = .num (S "-5") ∧ e.status = .num (intText status)) ∧
    (∀ status text j, JsonText text j → 200 ≤ status → status ≤ 299 → (∀ raw, j ≠ .str raw) →
      c.finish m (.response status (.ok text)) = .ok (ofJson j)) ∧
    (∀ status text j code, JsonText text j → ¬ (200 ≤ status ∧ status ≤ 299) → j ≠ .null → CodeIn (ofJson j) code →
      ∃ e, c.finish m (.response status (.ok text)) = .error (.webrpc e) ∧ Describes c.errors (ofJson j) code e) := by
  refine ⟨fun t => ⟨_, rfl, rfl, rfl, rfl⟩, fun status text h => ?_, fun status text j hj h1 h2 hs => ?_,
    fun status text j code hj hs hn hc => ?_⟩
  · have hp := jsonParse_none.2 h
    refine ⟨badResponseClass.construct .undefined .undefined (.num (intText status))
      (.str (S "JSON.parse(): " ++ JsEngine.syntaxError text ++ S ": response text: " ++ text)), ?_, rfl, rfl, rfl⟩
    rw [finish_response, buildResponse, hp]
  · have hp := jsonParse_iff.2 ⟨j, hj, rfl⟩
    rw [finish_response, buildResponse, hp]
    dsimp only
    rw [if_pos (by unfold okStatus; simp [h1, h2])]
    dsimp only
    unfold TsClient.decode
    rw [ht]
    cases j with
    | str raw => exact absurd rfl (hs raw)
    | _ => rfl
  · have hp := jsonParse_iff.2 ⟨j, hj, rfl⟩
    have hnl : nullish (ofJson j) = false := by
      cases j with
      | null => exact absurd rfl hn
      | _ => rfl
    obtain ⟨e, he, hdes⟩ := throw_describes hd hnl hc
    refine ⟨e, ?_, hdes⟩
    rw [finish_response, buildResponse, hp]
    dsimp only
    rw [if_neg (by unfold okStatus; simpa using hs), he]

/-- C87. A call fails with an error that is a `WebrpcError`, unless the connection breaks while the response is read, or
the response is `null` with an error status, or (never in type-checked code) the request contains a bigint. -/
theorem C87_webrpc_error_partial (c : TsClient) (m : TsMethod) (f : Fetched) (t : Str)
    (ht : c.table = none) (h : c.finish m f = .error (.other t)) :
    (∃ status, f = .response status (.error t)) ∨
    (∃ status text, f = .response status (.ok text) ∧ ¬ (200 ≤ status ∧ status ≤ 299) ∧ JsonText text .null) := by
  unfold TsClient.finish at h
  split at h
  · cases h
  · cases h; exact Or.inl ⟨_, rfl⟩
  · rename_i status text
    refine Or.inr ⟨status, text, rfl, ?_⟩
    unfold buildResponse at h
    cases hp : jsonParse text with
    | none => rw [hp] at h; cases h
    | some data =>
      rw [hp] at h
      dsimp only at h
      by_cases hs : okStatus status = true
      · rw [if_pos hs] at h
        dsimp only at h
        unfold TsClient.decode at h
        rw [ht] at h
        exfalso
        cases data <;> try (cases h; done)
        dsimp only at h
        split at h
        · rename_i hq
          split at hq
          · cases hq; cases h
          · cases hq
        · cases h
      · rw [if_neg hs] at h
        refine ⟨fun hh => hs (by unfold okStatus; simpa using hh), ?_⟩
        obtain ⟨j, hj, hv⟩ := jsonParse_iff.1 hp
        cases hn : nullish data with
        | true =>
          cases j with
          | null => exact hj
          | _ => subst hv; unfold ofJson at hn; cases hn
        | false =>
          exfalso
          unfold throwPayload at h
          have h1 : ∃ x, codeOf data = .ok x := by
            unfold codeOf
            rw [getProp_ok hn]
            show ∃ x, (match member (S "code") data with | .num t => _ | _ => _ : Except Thrown Str) = _
            split
            · exact ⟨_, rfl⟩
            · exact ⟨_, rfl⟩
          obtain ⟨x, hx⟩ := h1
          rw [hx] at h
          dsimp only at h
          have h2 : ∃ e, (classFor c.errors x).new data = .ok e := by
            unfold ErrClass.new
            rw [getProp_ok hn, getProp_ok hn, getProp_ok hn, getProp_ok hn]
            exact ⟨_, rfl⟩
          obtain ⟨e, he⟩ := h2
          rw [he] at h
          cases h

/-- C87 is false of the code as a whole: whatever the client, if the body of an error response is `null`, or reading the
body fails, the promise rejects with an error that is no `WebrpcError`. -/
theorem C87_raw_error (c : TsClient) (m : TsMethod) (status : Int) (hs : ¬ (200 ≤ status ∧ status ≤ 299)) (t : Str) :
    c.finish m (.response status (.ok (S "null"))) = .error (.other (JsEngine.typeError (S "code"))) ∧
    c.finish m (.response status (.error t)) = .error (.other t) := by
  refine ⟨?_, rfl⟩
  rw [finish_response, buildResponse, show jsonParse (S "null") = some .null from jsonParse_print (j := .null) trivial false]
  dsimp only
  rw [if_neg (by unfold okStatus; simpa using hs)]
  rfl

omit [JsEngine] in
/-- An engine, for the examples: numbers keep their texts. -/
def exEngine : JsEngine :=
  { canon := id, canon_int := fun _ _ => rfl, canon_num := fun _ h => Or.inl h, canon_idem := fun _ _ => rfl,
    syntaxError := fun _ => S "Unexpected token", typeError := fun k => S "Cannot read properties of null: " ++ k }

omit [JsEngine] in
/-- A client for the examples: the one of node-ts. -/
def exClient : TsClient :=
  { hostname := S "http://localhost:3000//", path := S "/v1/Example/", errors := builtinClasses, header := S "webrpc@v1"
    table := some [(S "PingRequest", [.name (S "counter")])] }

omit [JsEngine] in
theorem builtin_distinct : DistinctCodes builtinClasses := by unfold DistinctCodes; decide +kernel

omit [JsEngine] in
/-- C87. A case that meets the hypotheses: `ping({counter: 5n})` with a host that ends with slashes, and a response. -/
theorem C87_example : let _ := exEngine
    let v : Js := .obj [(S "counter", .big 5)]
    JsOk v ∧ (toJson v).map (print ⟨false, false⟩ 0) = some (S "{\"counter\":\"5\"}") ∧ exClient.table ≠ none ∧
    exClient.hostname = S "http://localhost:3000" ++ List.replicate 2 '/' ∧ (S "http://localhost:3000").getLast? ≠ some '/' ∧
    DistinctCodes exClient.errors ∧
    CodeIn (ofJson (.obj [(S "code", .num (S "-2"))])) (-2) ∧ CodeIn (ofJson (.arr [])) 0 ∧
    (∃ j, JsonText (S "{\"code\":-2}") j ∧ j ≠ .null) ∧ (¬ ∃ j, JsonText (S "<html>") j) := by
  intro _ v
  refine ⟨.obj fun p hp => ?_, by decide +kernel, nofun, by decide +kernel, by decide +kernel, builtin_distinct, Or.inl rfl,
    Or.inr ⟨nofun, rfl⟩, ?_, ?_⟩
  · rw [List.mem_singleton.1 hp]; exact .big 5
  · refine ⟨.obj [(S "code", .num (S "-2"))], parse_iff.1 ?_, nofun⟩
    have := parse_printed ⟨false, false⟩ (.obj [(S "code", .num (S "-2"))]) 
      ⟨(by rw [show S "-2" = intText (-2) from by decide +kernel]; exact nums_int (-2)), trivial⟩ [] (by simp)
    exact this
  · rintro ⟨j, hj⟩
    have h := parse_iff.2 hj
    rw [show parse (S "<html>") = none from by decide +kernel] at h
    cases h

end Verif.Ts
