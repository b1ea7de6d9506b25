import Verif.Props.TsStream
/-!
# C91: TypeScript stream clients of Go stream servers
-/

namespace Verif.Ts
open Verif.Schema hiding Json Method
open Verif.Json Verif.Gen Verif.Rpc Verif.RpcSpec Verif.Spec Verif.TsSpec Verif.Props Verif.Values
variable [JsEngine]

omit [JsEngine] in
theorem out_head {α : Type} {st : Stream α} {s : StreamState α} (h : StreamReach st s) : s.out.head? = some '\n' := by
  induction h with
  | init => rfl
  | step _ hs ih =>
    cases hs <;> first | exact ih | (dsimp only; rw [List.head?_append, ih]; rfl)

theorem told_of_describes {cs : List ErrClass} {e : RpcError} (h1 : e.code.natAbs ≤ 2 ^ 53) (h2 : e.httpStatus.natAbs ≤ 2 ^ 53) {t : TsError}
    (h : Describes cs (ofJson e.toJson) e.code t) : ToldByGo cs e t := by
  obtain ⟨m1, m2, m3, m4⟩ := member_error e h1 h2
  refine ⟨h.cls, h.code, ?_, by rw [h.cause, m4], by rw [h.message, m1]; rfl⟩
  rcases h.status with ⟨x, h1, h2⟩ | ⟨h1, -⟩
  · rw [h2, ← h1, m3]
  · exact absurd m3 (h1 _)

omit [JsEngine] in
theorem message_doc (j : Json) : MessageDoc (messageJson j) :=
  by
  refine ⟨nofun, fun ms h => ?_⟩
  unfold messageJson at h
  cases h
  show S "webrpcError" ∉ [S "message"] ∧ S "hasOwnProperty" ∉ [S "message"]
  decide

theorem error_doc {cs : List ErrClass} (hd : DistinctCodes cs) {e : RpcError} (h1 : e.code.natAbs ≤ 2 ^ 53) (h2 : e.httpStatus.natAbs ≤ 2 ^ 53) :
    ∃ t, ErrorDoc cs (errorJson e) t ∧ ToldByGo cs e t := by
  obtain ⟨m1, m2, m3, m4⟩ := member_error e h1 h2
  obtain ⟨t, -, hdes⟩ := throw_describes (data := ofJson e.toJson) hd (by rfl) (Or.inl m2)
  exact ⟨t, ⟨_, ofJson e.toJson, e.code, rfl, by simp, (by show _ ∉ [S "webrpcError"]; decide), rfl, rfl, Or.inl m2, hdes⟩, told_of_describes h1 h2 hdes⟩

omit [JsEngine] in
theorem line_json {j : Json} (h : Nums j) : JsonText (lineOf j) j := by
  have := parse_printed ⟨false, true⟩ j h [] (by simp)
  rw [List.append_nil] at this
  exact parse_iff.1 this

theorem reports_good {α : Type} {st : Stream α} (hn : ∀ m j, st.enc m = some j → Nums j) {cs : List ErrClass} {calls : List (α × Bool)}
    {lines : List Str} {evs : List Event} {stop : Bool} (h : Reports cs lines evs stop) :
    Reports cs (goodLines st calls ++ lines) (messagesOf st calls ++ evs) stop := by
  induction calls with
  | nil => exact h
  | cons c calls ih =>
    unfold goodLines messagesOf sentMessages
    rw [List.filterMap_cons, List.filterMap_cons]
    cases hb : c.2 with
    | false => simp only [Bool.false_eq_true, if_false]; exact ih
    | true =>
      cases he : st.enc c.1 with
      | none => simp only [if_true, Option.map_none, List.filterMap_cons, he]; exact ih
      | some j =>
        simp only [if_true, Option.map_some, List.filterMap_cons, he]
        exact .message (line_json (nums_message (hn _ _ he))) (message_doc j) ih

/-- C91. When the Go handler has returned and the connection is intact, the TypeScript client gets exactly the messages
whose `Write` succeeded, in the order of the calls, then the error the implementation returned, if any (as far as C88), or
else `onClose` - whatever the implementation does with the outcomes of its calls, however the keep-alive pings are
interleaved, and however the bytes are cut into pieces on the way, also within a character. -/
theorem C91_delivery_partial {α : Type} (st : Stream α) (hn : ∀ m j, st.enc m = some j → Nums j)
    (hp : ∀ h v, st.impl h ≠ .panic v) (s : StreamState α) (h : StreamReach st s) (sent : Option RpcError) (hh : s.handler = .done sent)
    (hb : s.broken = false) (cs : List ErrClass) (hd : DistinctCodes cs) (u : User) (hu : Quiet u) (any : Except Str Str)
    (pieces : List (List UInt8)) (ht : pieces.flatten = utf8 s.out)
    (hsize : ∀ e, sent = some e → e.code.natAbs ≤ 2 ^ 53 ∧ e.httpStatus.natAbs ≤ 2 ^ 53) :
    History st.impl s.calls ∧
    (∃ ret, st.impl (s.calls.map (·.2)) = .finish ret ∧ sent = ret.map fun e => st.onError e.toRpc) ∧
    (sent = none → subscribe cs u (.response 200 any (some (pieces.map .chunk ++ [.done]))) =
      (.opened :: messagesOf st s.calls ++ [.closed], .returned)) ∧
    (∀ e, sent = some e → ∃ t, ToldByGo cs e t ∧ subscribe cs u (.response 200 any (some (pieces.map .chunk ++ [.done]))) =
      (.opened :: messagesOf st s.calls ++ [.error (.webrpc t) true], .returned)) := by
  obtain ⟨i1, -, -, i4, i5, -, i7⟩ := stream_inv hn hp h
  have hr : ∃ ret, st.impl (s.calls.map (·.2)) = .finish ret ∧ sent = ret.map fun e => st.onError e.toRpc := by
    unfold Reason at i5
    rw [hh] at i5
    cases sent with
    | none =>
      rcases i5 with h | h
      · exact ⟨none, h, rfl⟩
      · rw [hb] at h; cases h
    | some e =>
      obtain ⟨g, h1, h2⟩ := i5
      exact ⟨some g, h1, by rw [h2]; rfl⟩
  have hbom : s.out.head? ≠ some bom := by rw [out_head h]; decide
  unfold Body at i4
  rw [hh] at i4
  refine ⟨i1, hr, ?_, ?_⟩
  · rintro rfl
    have hrep : Reports cs (content s.out).1 (messagesOf st s.calls ++ []) false := by
      rw [i4.1]; exact reports_good hn .nil
    rw [List.append_nil] at hrep
    exact ((C90_stream_partial cs hd u hu 200 (by decide) any s.out hbom pieces ht _ _ hrep).2.2 rfl []).1
  · rintro e rfl
    obtain ⟨t, t1, t2⟩ := error_doc hd (hsize e rfl).1 (hsize e rfl).2
    refine ⟨t, t2, ?_⟩
    have hrep : Reports cs (content s.out).1 (messagesOf st s.calls ++ [.error (.webrpc t) true]) true := by
      rw [i4.1]; exact reports_good hn (.error (line_json (nums_error e)) t1)
    exact (C90_stream_partial cs hd u hu 200 (by decide) any s.out hbom pieces ht _ _ hrep).2.1 rfl [.done]

/-- What the server has said or is about to say. -/
def saidDocs {α : Type} (st : Stream α) (s : StreamState α) : List Json :=
  (sentMessages s.calls).filterMap (fun m => (st.enc m).map messageJson) ++
  match s.handler with
  | .wait j => (jobJson st j).toList
  | .put j _ _ => (jobJson st j).toList
  | .done (some e) => [errorJson e]
  | _ => []

omit [JsEngine] in
theorem good_docs {α : Type} (st : Stream α) (calls : List (α × Bool)) :
    goodLines st calls = ((sentMessages calls).filterMap (fun m => (st.enc m).map messageJson)).map lineOf := by
  induction calls with
  | nil => rfl
  | cons c calls ih =>
    unfold goodLines sentMessages
    rw [List.filterMap_cons, List.filterMap_cons]
    cases hb : c.2 with
    | false => simp only [Bool.false_eq_true, if_false]; exact ih
    | true =>
      cases he : st.enc c.1 with
      | none => simp only [if_true, Option.map_none, List.filterMap_cons, he]; exact ih
      | some j =>
        simp only [if_true, Option.map_some, List.filterMap_cons, he, List.map_cons]
        congr 1

omit [JsEngine] in
theorem said_lines {α : Type} {st : Stream α} (hn : ∀ m j, st.enc m = some j → Nums j)
    (hp : ∀ h v, st.impl h ≠ .panic v) {s : StreamState α} (h : StreamReach st s) :
    (content s.out).1 <+: (saidDocs st s).map lineOf := by
  obtain ⟨i1, -, -, i4, i5, -, i7⟩ := stream_inv hn hp h
  unfold saidDocs
  rw [List.map_append, ← good_docs]
  unfold Body at i4
  cases hh : s.handler with
  | run => rw [hh] at i4; rw [i4.1]; exact List.prefix_append ..
  | wait j => rw [hh] at i4; rw [i4.1]; exact List.prefix_append ..
  | put j rest ok =>
    rw [hh] at i4
    by_cases hr : rest = []
    · obtain ⟨-, b1, b2⟩ := i4.2 hr
      cases ok with
      | false => rw [b2 rfl]; exact List.prefix_append ..
      | true =>
        obtain ⟨d, c1, c2⟩ := b1 rfl
        rw [c2]
        dsimp only
        rw [c1]
        exact List.prefix_rfl
    · rw [(i4.1 hr).2.1]; exact List.prefix_append ..
  | done sent =>
    rw [hh] at i4
    rw [i4.1]
    cases sent with
    | none => simp
    | some e => exact List.prefix_rfl

/-- C91. At any time, whatever part of the bytes has reached the TypeScript client, it has got some of what the server has
said, from the beginning, in order and nothing else; if then the connection is lost (before an error of the server was
read), it is told that the stream was lost. -/
theorem C91_any_time_partial {α : Type} (st : Stream α) (hn : ∀ m j, st.enc m = some j → Nums j)
    (hp : ∀ h v, st.impl h ≠ .panic v) (s : StreamState α) (h : StreamReach st s)
    (cs : List ErrClass) (hd : DistinctCodes cs) (u : User) (hu : Quiet u) (any : Except Str Str)
    (pieces : List (List UInt8)) (ht : pieces.flatten <+: utf8 s.out)
    (hsize : ∀ e : GoError, (st.onError e.toRpc).code.natAbs ≤ 2 ^ 53 ∧ (st.onError e.toRpc).httpStatus.natAbs ≤ 2 ^ 53) :
    ∃ n evs stop, Calls cs ((saidDocs st s).take n) evs stop ∧
      subscribe cs u (.response 200 any (some (pieces.map .chunk))) = (.opened :: evs, if stop then .returned else .next) ∧
      (stop = false → ∀ x, ∃ e, BuiltIn (S "WebrpcStreamLost") (-9) (S "reader.read(): " ++ x) e ∧
        subscribe cs u (.response 200 any (some (pieces.map .chunk ++ [.failed x]))) =
          (.opened :: evs ++ [.error (.webrpc e) true], .returned)) := by
  have hbom : s.out.head? ≠ some bom := by rw [out_head h]; decide
  have hdocs : ∀ d ∈ saidDocs st s, (∃ j, d = messageJson j ∧ Nums j) ∨ ∃ g : GoError, d = errorJson (st.onError g.toRpc) := by
    obtain ⟨-, -, -, -, i5, -, -⟩ := stream_inv hn hp h
    have hjob : ∀ j, JobReason st s.calls j → ∀ d ∈ (jobJson st j).toList,
        (∃ j, d = messageJson j ∧ Nums j) ∨ ∃ g : GoError, d = errorJson (st.onError g.toRpc) := by
      intro j hj d hdm
      cases j with
      | msg m =>
        cases he : st.enc m with
        | none => rw [jobJson, he] at hdm; simp at hdm
        | some x => rw [jobJson, he] at hdm; simp at hdm; exact .inl ⟨x, hdm, hn m x he⟩
      | fail e =>
        obtain ⟨g, -, rfl⟩ := hj
        rw [jobJson] at hdm; simp at hdm; exact .inr ⟨g, hdm⟩
      | panic e => exact absurd hj id
    intro d hdm
    unfold saidDocs at hdm
    unfold Reason at i5
    rcases List.mem_append.1 hdm with hm | hm
    · obtain ⟨m, -, hm⟩ := List.mem_filterMap.1 hm
      obtain ⟨j, h1, h2⟩ := Option.map_eq_some_iff.1 hm
      exact .inl ⟨j, h2.symm, hn m j h1⟩
    · cases hh : s.handler with
      | run => rw [hh] at hm; simp at hm
      | wait j => rw [hh] at hm i5; exact hjob j i5 d hm
      | put j r o => rw [hh] at hm i5; exact hjob j i5.1 d hm
      | done sent =>
        rw [hh] at hm i5
        cases sent with
        | none => simp at hm
        | some e =>
          obtain ⟨g, -, rfl⟩ := i5
          exact .inr ⟨g, List.mem_singleton.1 hm⟩
  have hcalls : ∀ docs : List Json, (∀ d ∈ docs, (∃ j, d = messageJson j ∧ Nums j) ∨ ∃ g : GoError, d = errorJson (st.onError g.toRpc)) →
      ∃ evs stop, Calls cs docs evs stop ∧ Reports cs (docs.map lineOf) evs stop := by
    intro docs
    induction docs with
    | nil => intro _; exact ⟨[], false, .nil, .nil⟩
    | cons d docs ih =>
      intro hall
      obtain ⟨evs, stop, h1, h2⟩ := ih fun x hx => hall x (List.mem_cons_of_mem _ hx)
      rcases hall d (List.mem_cons_self ..) with ⟨j, rfl, hj⟩ | ⟨g, rfl⟩
      · exact ⟨_, stop, .message h1, .message (line_json (nums_message hj)) (message_doc j) h2⟩
      · obtain ⟨t, t1, t2⟩ := error_doc hd (hsize g).1 (hsize g).2
        exact ⟨_, true, .error t2, .error (line_json (nums_error _)) t1⟩
  have hpre := content_prefix (decode_prefix s.out hbom pieces.flatten ht)
  have hall := hpre.trans (said_lines hn hp h)
  have hlines : (content (TextDecoder.new.decode pieces.flatten).2).1 =
      ((saidDocs st s).take (content (TextDecoder.new.decode pieces.flatten).2).1.length).map lineOf := by
    obtain ⟨r, hr⟩ := hall
    rw [List.map_take, ← hr, List.take_left]
  obtain ⟨evs, stop, h1, h2⟩ := hcalls _ (fun d hd => hdocs d (List.mem_of_mem_take hd))
  rw [← hlines] at h2
  have hrun := stream_run cs hd u hu 200 (by decide) any _ pieces rfl evs stop h2
  refine ⟨_, evs, stop, h1, ?_, fun hs x => ((hrun.2.2 hs []).2.1 x)⟩
  have := hrun.1
  dsimp only at this
  rw [List.append_nil] at this
  exact this

omit [JsEngine] in
theorem flushed_head {α : Type} {st : Stream α} {s : StreamState α} (h : StreamReach st s) : s.flushed.head? = some '\n' := by
  have hrel : ∀ s : StreamState α, s.out.head? = some '\n' → s.flushed.head? = some '\n' → s.release.flushed.head? = some '\n' := by
    intro s h1 h2
    unfold StreamState.release
    dsimp only
    split <;> assumption
  induction h with
  | init => rfl
  | step hr hs ih =>
    have ho := out_head hr
    cases hs <;> first | exact ih | exact hrel _ ho ih

/-- C91. While the connection is intact, a message whose `Write` has returned without error has been sent: from the bytes that
were flushed the TypeScript client gets all these messages, in order (and then at most an error of the implementation). -/
theorem C91_flushed_partial {α : Type} (st : Stream α) (hn : ∀ m j, st.enc m = some j → Nums j)
    (hp : ∀ h v, st.impl h ≠ .panic v) (s : StreamState α) (h : StreamReach st s) (hb : s.broken = false)
    (cs : List ErrClass) (hd : DistinctCodes cs) (u : User) (hu : Quiet u) (any : Except Str Str)
    (pieces : List (List UInt8)) (ht : pieces.flatten = utf8 s.flushed)
    (hsize : ∀ e : GoError, (st.onError e.toRpc).code.natAbs ≤ 2 ^ 53 ∧ (st.onError e.toRpc).httpStatus.natAbs ≤ 2 ^ 53) :
    (∃ flow, subscribe cs u (.response 200 any (some (pieces.map .chunk))) = (.opened :: messagesOf st s.calls, flow)) ∨
    (∃ e t, s.handler = .done (some e) ∧ ToldByGo cs e t ∧
      subscribe cs u (.response 200 any (some (pieces.map .chunk))) = (.opened :: messagesOf st s.calls ++ [.error (.webrpc t) true], .returned)) := by
  obtain ⟨-, -, -, -, i5, i6, -⟩ := stream_inv hn hp h
  have hbom : s.flushed.head? ≠ some bom := by rw [flushed_head h]; decide
  have hf := i6 hb
  have run := fun evs stop hr => (C90_stream_partial cs hd u hu 200 (by decide) any s.flushed hbom pieces ht evs stop hr).1
  dsimp only at run
  rw [List.append_nil] at run
  have plain : content s.flushed = (goodLines st s.calls ++ [], []) →
      ∃ flow, subscribe cs u (.response 200 any (some (pieces.map .chunk))) = (.opened :: messagesOf st s.calls, flow) := by
    intro hc
    have hrep : Reports cs (content s.flushed).1 (messagesOf st s.calls ++ []) false := by
      rw [hc]; exact reports_good hn .nil
    rw [List.append_nil] at hrep
    exact ⟨_, run _ _ hrep⟩
  unfold Reason at i5
  cases hh : s.handler with
  | run => rw [hh] at hf; exact .inl (plain hf)
  | wait j => rw [hh] at hf; exact .inl (plain hf)
  | put j r o => rw [hh] at hf; exact .inl (plain hf)
  | done sent =>
    rw [hh] at hf i5
    cases sent with
    | none => exact .inl (plain hf)
    | some e =>
      obtain ⟨g, -, rfl⟩ := i5
      obtain ⟨t, t1, t2⟩ := error_doc hd (hsize g).1 (hsize g).2
      refine .inr ⟨_, t, rfl, t2, ?_⟩
      have hrep : Reports cs (content s.flushed).1 (messagesOf st s.calls ++ [.error (.webrpc t) true]) true := by
        rw [hf]; exact reports_good hn (.error (line_json (nums_error _)) t1)
      exact run _ _ hrep

omit [JsEngine] in
/-- C90. A case that meets the hypotheses of `C90_stream_partial` and `C90_thrown`: a ping, a message and an error. -/
theorem C90_example : let _ := exEngine
    let text := '\n' :: jsonLine (messageJson (.bool true)) ++ jsonLine (errorJson ⟨S "WebrpcBadRequest", -4, S "bad", S "why", 400⟩)
    DistinctCodes builtinClasses ∧ Quiet (fun _ => none) ∧ text.head? ≠ some bom ∧
    (∃ e, ErrorDoc builtinClasses (errorJson ⟨S "WebrpcBadRequest", -4, S "bad", S "why", 400⟩) e) ∧
    ∃ e, e.cls.name = S "WebrpcBadRequest" ∧ e.cause = .str (S "why") ∧
      Reports builtinClasses (content text).1 [.message (.obj [(S "message", .bool true)]), .error (.webrpc e) true] true := by
  intro _ text
  obtain ⟨t, h1, h2⟩ := error_doc (e := ⟨S "WebrpcBadRequest", -4, S "bad", S "why", 400⟩) builtin_distinct (by decide) (by decide)
  have hc : (content text).1 = [lineOf (messageJson (.bool true)), lineOf (errorJson ⟨S "WebrpcBadRequest", -4, S "bad", S "why", 400⟩)] := by
    decide +kernel
  refine ⟨builtin_distinct, fun _ => rfl, nofun, ⟨t, h1⟩, t, ?_, by rw [h2.2.2.2.1]; rfl, ?_⟩
  · have hcl : ClassOf builtinClasses (-4) ⟨S "WebrpcBadRequest", -4, S "bad request", 400⟩ := .known (by decide +kernel) rfl
    rw [classOf_unique builtin_distinct h2.1 hcl]
  · rw [hc]
    exact .message (line_json (nums_message (by rw [Nums]; trivial))) (message_doc _) (.error (line_json (nums_error _)) h1)

omit [JsEngine] in
/-- C91. A case that meets the hypotheses: the stream that sends `true` and ends; its bytes arrive one by one. -/
theorem C91_example : let _ := exEngine
    (∀ m j, exStream.enc m = some j → Nums j) ∧ (∀ h v, exStream.impl h ≠ .panic v) ∧
    ∃ s, StreamReach exStream s ∧ s.handler = .done none ∧ s.broken = false ∧
      (((utf8 s.out).map fun b => [b]).flatten = utf8 s.out) ∧
      subscribe builtinClasses (fun _ => none) (.response 200 (.ok []) (some (((utf8 s.out).map fun b => [b]).map .chunk ++ [.done]))) =
        ([.opened, .message (.obj [(S "message", .bool true)]), .closed], .returned) := by
  intro _
  obtain ⟨hc, hp, s, h1, h2, h3, h4⟩ := C55_example
  have hn : ∀ m j, exStream.enc m = some j → Nums j := hc.1
  have hfl : ((utf8 s.out).map fun b => [b]).flatten = utf8 s.out := by
    induction utf8 s.out with
    | nil => rfl
    | cons b l ih => rw [List.map_cons, List.flatten_cons, ih]; rfl
  refine ⟨hn, hp, s, h1, h2, h3, hfl, ?_⟩
  have := (C91_delivery_partial exStream hn hp s h1 none h2 h3 builtinClasses builtin_distinct (fun _ => none) (fun _ => rfl) (.ok []) _ hfl nofun).2.2.1 rfl
  rw [this, h4]
  rfl

end Verif.Ts
