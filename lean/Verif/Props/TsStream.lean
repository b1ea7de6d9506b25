import Verif.Spec.TsStream
import Verif.Props.TsUtf8
import Verif.Props.TsGo
import Verif.Props.Stream
/-!
# C90, C91: generated TypeScript stream clients
-/

namespace Verif.Ts
open Verif.Schema hiding Json Method
open Verif.Json Verif.Gen Verif.Rpc Verif.RpcSpec Verif.Spec Verif.TsSpec Verif.Props Verif.Values

/-! ### Lines -/

theorem splitLines_none {l : Str} (h : '\n' ∉ l) : splitLines l = [l] := by
  induction l with
  | nil => rfl
  | cons c l ih =>
    rw [splitLines, if_neg (fun e => h (by simp [e])), ih (fun hm => h (by simp [hm]))]

theorem splitLines_line {l : Str} (h : '\n' ∉ l) (t : Str) : splitLines (l ++ '\n' :: t) = l :: splitLines t := by
  induction l with
  | nil => show splitLines ('\n' :: t) = _; rw [splitLines, if_pos rfl]
  | cons c l ih =>
    rw [List.cons_append, splitLines, if_neg (fun e => h (by simp [e])), ih (fun hm => h (by simp [hm]))]

/-- Induction over the lines of a text. -/
theorem lines_ind {P : Str → Prop} (h1 : ∀ l, '\n' ∉ l → P l) (h2 : ∀ l t, '\n' ∉ l → P t → P (l ++ '\n' :: t)) (t : Str) : P t := by
  have key : ∀ n, ∀ t : Str, t.length ≤ n → P t := by
    intro n
    induction n with
    | zero => intro t ht; cases t with
      | nil => exact h1 [] (by simp)
      | cons c t => simp at ht
    | succ n ih =>
      intro t ht
      cases hs : splitLine t with
      | none => exact h1 t (splitLine_none hs)
      | some p =>
        obtain ⟨l, r⟩ := p
        obtain ⟨x, rfl, hx, rfl⟩ := splitLine_some hs
        rw [List.append_assoc]
        refine h2 x r hx (ih r ?_)
        simp at ht; omega
  exact key _ t (Nat.le_refl _)

theorem splitLines_ne (t : Str) : splitLines t ≠ [] := by
  induction t using lines_ind with
  | h1 l h => rw [splitLines_none h]; simp
  | h2 l t h _ => rw [splitLines_line h]; simp

theorem splitLines_content (t : Str) : (splitLines t).dropLast.filter (fun l => decide (l ≠ [])) = (content t).1 ∧
    (splitLines t).getLast? = some (content t).2 ∧ '\n' ∉ (content t).2 := by
  induction t using lines_ind with
  | h1 l h =>
    rw [splitLines_none h, content_none h]; exact ⟨rfl, rfl, h⟩
  | h2 l t h ih =>
    rw [splitLines_line h, content_line h]
    obtain ⟨i1, i2, i3⟩ := ih
    have hne := splitLines_ne t
    refine ⟨?_, ?_, i3⟩
    · rw [List.dropLast_cons_of_ne_nil hne, List.filter_cons]
      dsimp only
      rw [i1]
      by_cases hl : l = []
      · subst hl; simp
      · simp [hl]
    · cases hx : splitLines t with
      | nil => exact absurd hx hne
      | cons a b => rw [List.getLast?_cons_cons, ← hx]; exact i2

theorem content_append (a b : Str) : content (a ++ b) =
    ((content a).1 ++ (content ((content a).2 ++ b)).1, (content ((content a).2 ++ b)).2) := by
  have h := fold_content b (content a).1 (content a).2 (splitLines_content a).2.2
  rw [← h]
  unfold content
  rw [List.foldl_append]

/-! ### The loop -/

variable [JsEngine]

theorem onLines_append (cs status u) (a b : List Str) (tr : List Event) :
    onLines cs status u tr (a ++ b) = match onLines cs status u tr a with
      | (tr, .next) => onLines cs status u tr b
      | (tr, f) => (tr, f) := by
  induction a generalizing tr with
  | nil => rfl
  | cons l a ih =>
    rw [List.cons_append, onLines, onLines]
    cases hx : onLine cs status u tr l with
    | mk tr' f => cases f with
      | next => exact ih _
      | _ => rfl

theorem onLines_filter (cs status u) (a : List Str) (tr : List Event) :
    onLines cs status u tr (a.filter fun l => decide (l ≠ [])) = onLines cs status u tr a := by
  induction a generalizing tr with
  | nil => rfl
  | cons l a ih =>
    by_cases hl : l = []
    · subst hl
      rw [List.filter_cons_of_neg (by simp), ih, onLines]
      unfold onLine
      rw [if_pos rfl]
    · rw [List.filter_cons_of_pos (by simp [hl]), onLines, onLines]
      split
      · exact ih _
      · rfl

omit [JsEngine] in
theorem decode_nil (d : TextDecoder) : d.decode [] = (d, []) := by
  obtain ⟨s, b⟩ := d
  cases b <;> rfl

theorem onRead_chunk (cs status u tr) (v : StreamVars) (b : List UInt8) :
    onRead cs status u tr v (.chunk b) = ((onLines cs status u tr (content (v.buffer ++ (v.decoder.decode b).2)).1).1,
      (onLines cs status u tr (content (v.buffer ++ (v.decoder.decode b).2)).1).2,
      ⟨(v.decoder.decode b).1, (content (v.buffer ++ (v.decoder.decode b).2)).2⟩) := by
  obtain ⟨h1, h2, -⟩ := splitLines_content (v.buffer ++ (v.decoder.decode b).2)
  show ((onLines cs status u tr (splitLines _).dropLast).1, (onLines cs status u tr (splitLines _).dropLast).2,
    (⟨_, (splitLines _).getLast?.getD []⟩ : StreamVars)) = _
  rw [h2, ← onLines_filter, h1]
  rfl

/-- Reading a text in pieces is reading its lines. -/
theorem read_chunks (cs status u) (tail : List ReadEnd) (chunks : List (List UInt8)) (tr : List Event) (v : StreamVars) (hv : '\n' ∉ v.buffer) :
    (∀ tr', onLines cs status u tr (content (v.buffer ++ (v.decoder.decode chunks.flatten).2)).1 = (tr', .next) →
      readLoop cs status u tr v (chunks.map .chunk ++ tail) =
        readLoop cs status u tr' ⟨(v.decoder.decode chunks.flatten).1, (content (v.buffer ++ (v.decoder.decode chunks.flatten).2)).2⟩ tail) ∧
    (∀ tr' f, onLines cs status u tr (content (v.buffer ++ (v.decoder.decode chunks.flatten).2)).1 = (tr', f) → f ≠ .next →
      ∃ w, readLoop cs status u tr v (chunks.map .chunk ++ tail) = (tr', f, w)) := by
  induction chunks generalizing tr v with
  | nil =>
    rw [List.flatten_nil, decode_nil, List.append_nil, content_none hv]
    constructor
    · intro tr' h; cases h; rfl
    · intro tr' f h hf; cases h; exact absurd rfl hf
  | cons b chunks ih =>
    rw [List.flatten_cons, decode_append]
    dsimp only
    rw [← List.append_assoc, content_append]
    dsimp only
    have hc := (splitLines_content (v.buffer ++ (v.decoder.decode b).2)).2.2
    rw [onLines_append, List.map_cons, List.cons_append, readLoop, onRead_chunk]
    cases hx : onLines cs status u tr (content (v.buffer ++ (v.decoder.decode b).2)).1 with
    | mk tr1 f1 =>
      cases f1 with
      | next =>
        dsimp only
        exact ih tr1 ⟨(v.decoder.decode b).1, (content (v.buffer ++ (v.decoder.decode b).2)).2⟩ hc
      | returned =>
        constructor
        · intro tr' h; cases h
        · intro tr' f h hf; cases h; exact ⟨_, rfl⟩
      | threw t =>
        constructor
        · intro tr' h; cases h
        · intro tr' f h hf; cases h; exact ⟨_, rfl⟩

/-- C90. For all callbacks, also those that throw: which callbacks are called with what, and how the stream ends, does not
depend on how the bytes of the response are cut into pieces. -/
theorem C90_pieces (cs : List ErrClass) (u : User) (status : Int) (text : Except Str Str) (a b : List (List UInt8))
    (h : a.flatten = b.flatten) (tail : List ReadEnd) :
    subscribe cs u (.response status text (some (a.map .chunk ++ tail))) =
    subscribe cs u (.response status text (some (b.map .chunk ++ tail))) := by
  have key : ∀ tr, (readLoop cs status u tr ⟨.new, []⟩ (a.map .chunk ++ tail)).1 = (readLoop cs status u tr ⟨.new, []⟩ (b.map .chunk ++ tail)).1 ∧
      (readLoop cs status u tr ⟨.new, []⟩ (a.map .chunk ++ tail)).2.1 = (readLoop cs status u tr ⟨.new, []⟩ (b.map .chunk ++ tail)).2.1 := by
    intro tr
    have ha := read_chunks cs status u tail a tr ⟨.new, []⟩ (by simp)
    have hb := read_chunks cs status u tail b tr ⟨.new, []⟩ (by simp)
    rw [h] at ha
    cases hx : onLines cs status u tr (content ((⟨.new, []⟩ : StreamVars).buffer ++ ((⟨.new, []⟩ : StreamVars).decoder.decode b.flatten).2)).1 with
    | mk tr1 f =>
      by_cases hf : f = .next
      · subst hf
        rw [ha.1 _ hx, hb.1 _ hx]; exact ⟨rfl, rfl⟩
      · obtain ⟨w, hw⟩ := ha.2 _ _ hx hf
        obtain ⟨w', hw'⟩ := hb.2 _ _ hx hf
        rw [hw, hw']; exact ⟨rfl, rfl⟩
  unfold subscribe sseResponse
  dsimp only
  split
  · cases hu : emit u [] .opened with
    | mk tr f =>
      cases f with
      | next => dsimp only; rw [(key tr).1, (key tr).2]
      | _ => rfl
  · rfl

theorem subscribe_response (cs u status text body) :
    subscribe cs u (.response status text body) = sseResponse cs u status text body := rfl

omit [JsEngine] in
theorem emit_quiet {u : User} (hu : Quiet u) (tr : List Event) (e : Event) : emit u tr e = (tr ++ [e], .next) := by
  unfold emit; rw [hu]

theorem obj_member {k : Str} {ms : List (Str × Json)} : (∃ l, ofJson (.obj ms) = .obj l ∧ (k ∈ ms.map (·.1) ↔ (l.lookup k).isSome = true)) := by
  refine ⟨ofMembers [] ms, by rw [ofJson], ?_⟩
  have key : ∀ (ms : List (Str × Json)) (acc : List (Str × Js)),
      ((ofMembers acc ms).lookup k).isSome = true ↔ k ∈ ms.map (·.1) ∨ (acc.lookup k).isSome = true := by
    intro ms
    induction ms with
    | nil => intro acc; rw [ofMembers]; simp
    | cons p ms ih =>
      intro acc
      obtain ⟨k', j⟩ := p
      rw [ofMembers, ih, Compile.mapSet_lookup]
      by_cases hk : k = k'
      · subst hk; simp
      · simp [hk]
  rw [key]; simp

theorem line_message (cs status) {u : User} (hu : Quiet u) (tr : List Event) {line : Str} (hl : line ≠ []) {j : Json} (hj : JsonText line j)
    (hm : MessageDoc j) : onLine cs status u tr line = (tr ++ [.message (ofJson j)], .next) := by
  have hw : hasWebrpcError (ofJson j) = some false := by
    cases j with
    | null => exact absurd rfl hm.1
    | obj ms =>
      obtain ⟨h1, h2⟩ := hm.2 ms rfl
      obtain ⟨l, e1, k1⟩ := obj_member (k := S "webrpcError") (ms := ms)
      obtain ⟨l', e2, k2⟩ := obj_member (k := S "hasOwnProperty") (ms := ms)
      rw [e1] at e2 ⊢
      cases e2
      unfold hasWebrpcError
      dsimp only
      have k2' : l.lookup (S "hasOwnProperty") = none := by
        cases hx : l.lookup (S "hasOwnProperty") with
        | none => rfl
        | some x => exact absurd (k2.2 (by rw [hx]; rfl)) h2
      rw [k2']
      dsimp only
      cases hx : l.lookup (S "webrpcError") with
      | none => rfl
      | some x => exact absurd (k1.2 (by rw [hx]; rfl)) h1
    | _ => rfl
  unfold onLine tryLine
  rw [if_neg hl, jsonParse_iff.2 ⟨j, hj, rfl⟩]
  dsimp only
  rw [hw]
  dsimp only
  exact emit_quiet hu _ _

theorem throw_unit {cs : List ErrClass} (hd : DistinctCodes cs) {data : Js} (hn : nullish data = false) {code : Int}
    (hc : CodeIn data code) {t : TsError} (ht : Describes cs data code t) : (throwPayload cs data : Except Thrown Unit) = .error (.webrpc t) := by
  obtain ⟨t', h1, h2⟩ := throw_describes hd hn hc
  have : t' = t := by
    obtain ⟨a1, a0, a2, a3, a4, a5⟩ := h2
    obtain ⟨b1, b0, b2, b3, b4, b5⟩ := ht
    have hcl := classOf_unique hd a1 b1
    obtain ⟨c1, n1, k1, m1, s1, u1⟩ := t
    obtain ⟨c2, n2, k2, m2, s2, u2⟩ := t'
    dsimp only at *
    subst hcl
    rw [a0, b0, a2, b2, a3, b3, a5, b5]
    congr 1
    rcases a4 with ⟨x, e1, e2⟩ | ⟨e1, e2⟩ <;> rcases b4 with ⟨y, f1, f2⟩ | ⟨f1, f2⟩
    · rw [e2, f2, ← e1, ← f1]
    · exact absurd e1 (f1 _)
    · exact absurd f1 (e1 _)
    · rw [e2, f2]
  subst this
  unfold throwPayload at h1 ⊢
  cases hcd : codeOf data with
  | error e => rw [hcd] at h1; cases h1; rfl
  | ok c =>
    rw [hcd] at h1
    dsimp only at h1 ⊢
    cases hn : (classFor cs c).new data with
    | error e => rw [hn] at h1; cases h1; rfl
    | ok e => rw [hn] at h1; cases h1; rfl

theorem line_error (cs status) (hd : DistinctCodes cs) {u : User} (hu : Quiet u) (tr : List Event) {line : Str} (hl : line ≠ []) {j : Json}
    (hj : JsonText line j) {t : TsError} (he : ErrorDoc cs j t) :
    onLine cs status u tr line = (tr ++ [.error (.webrpc t) true], .returned) := by
  obtain ⟨ms, w, code, rfl, h1, h2, h3, h4, h5, h6⟩ := he
  have hw : hasWebrpcError (ofJson (.obj ms)) = some true := by
    obtain ⟨l, e1, k1⟩ := obj_member (k := S "webrpcError") (ms := ms)
    obtain ⟨l', e2, k2⟩ := obj_member (k := S "hasOwnProperty") (ms := ms)
    rw [e1] at e2 ⊢
    cases e2
    unfold hasWebrpcError
    dsimp only
    have k2' : l.lookup (S "hasOwnProperty") = none := by
      cases hx : l.lookup (S "hasOwnProperty") with
      | none => rfl
      | some x => exact absurd (k2.2 (by rw [hx]; rfl)) h2
    rw [k2']
    dsimp only
    rw [k1.1 h1]
  unfold onLine tryLine
  rw [if_neg hl, jsonParse_iff.2 ⟨_, hj, rfl⟩]
  dsimp only
  rw [hw]
  dsimp only
  rw [h3, throw_unit hd h4 h5 h6]
  dsimp only
  rw [emit_quiet hu]

omit [JsEngine] in
theorem json_ne {line : Str} {j : Json} (h : JsonText line j) : line ≠ [] := by
  rintro rfl
  have := parse_iff.2 h
  rw [show parse ([] : Str) = none from by decide +kernel] at this
  cases this

theorem lines_reports (cs status) (hd : DistinctCodes cs) {u : User} (hu : Quiet u) {lines : List Str} {evs : List Event} {stop : Bool}
    (h : Reports cs lines evs stop) (tr : List Event) :
    onLines cs status u tr lines = (tr ++ evs, if stop then .returned else .next) := by
  induction h generalizing tr with
  | nil => rw [List.append_nil]; rfl
  | message h1 h2 _ ih =>
    rw [onLines, line_message cs status hu tr (json_ne h1) h1 h2]
    dsimp only
    rw [ih, List.append_assoc]; rfl
  | error h1 h2 =>
    rw [onLines, line_error cs status hd hu tr (json_ne h1) h1 h2]
    rfl

/-- What happens, in terms of the text that is decoded. -/
theorem stream_run (cs : List ErrClass) (hd : DistinctCodes cs) (u : User) (hu : Quiet u) (status : Int)
    (hs : 200 ≤ status ∧ status ≤ 299) (any : Except Str Str) (text : Str)
    (pieces : List (List UInt8)) (hdec : (TextDecoder.new.decode pieces.flatten).2 = text) (evs : List Event) (stop : Bool)
    (hr : Reports cs (content text).1 evs stop) :
    let run := fun after => subscribe cs u (.response status any (some (pieces.map .chunk ++ after)))
    run [] = (.opened :: evs, if stop then .returned else .next) ∧
    (stop = true → ∀ after, run after = (.opened :: evs, .returned)) ∧
    (stop = false → ∀ after,
      run (.done :: after) = (.opened :: evs ++ [.closed], .returned) ∧
      (∀ t, ∃ e, BuiltIn (S "WebrpcStreamLost") (-9) (S "reader.read(): " ++ t) e ∧
        run (.failed t :: after) = (.opened :: evs ++ [.error (.webrpc e) true], .returned)) ∧
      (∀ t, ∃ e, BuiltIn (S "WebrpcClientAborted") (-8) (S "AbortError: " ++ t) e ∧
        run (.aborted t :: after) = (.opened :: evs ++ [.error (.webrpc e) false], .returned))) := by
  intro run
  have hrun : ∀ after, run after = ((readLoop cs status u [.opened] ⟨.new, []⟩ (pieces.map .chunk ++ after)).1,
      (readLoop cs status u [.opened] ⟨.new, []⟩ (pieces.map .chunk ++ after)).2.1) := by
    intro after
    show subscribe _ _ _ = _
    rw [subscribe_response, sseResponse.eq_def, if_pos (by unfold okStatus; simpa using hs)]
    dsimp only
    rw [emit_quiet hu]
    rfl
  have hl := lines_reports cs status hd hu hr [.opened]
  have key := fun after => read_chunks cs status u after pieces [.opened] ⟨.new, []⟩ (by simp)
  simp only [List.nil_append, hdec] at key
  rw [hl] at key
  cases stop with
  | true =>
    have hall : ∀ after, run after = (.opened :: evs, .returned) := by
      intro after
      obtain ⟨w, hw⟩ := (key after).2 _ _ rfl (by simp)
      rw [hrun, hw]; rfl
    exact ⟨hall [], fun _ => hall, nofun⟩
  | false =>
    have hall : ∀ after, run after = ((readLoop cs status u (.opened :: evs) ⟨(TextDecoder.new.decode pieces.flatten).1, (content text).2⟩ after).1,
        (readLoop cs status u (.opened :: evs) ⟨(TextDecoder.new.decode pieces.flatten).1, (content text).2⟩ after).2.1) := by
      intro after
      rw [hrun, (key after).1 _ rfl]; rfl
    refine ⟨hall [], nofun, fun _ after => ⟨?_, fun t =>
      ⟨streamLostClass.construct .undefined .undefined .undefined (.str (S "reader.read(): " ++ t)), ⟨rfl, rfl, rfl⟩, ?_⟩, fun t =>
      ⟨clientAbortedClass.construct (.str (S "AbortError")) .undefined .undefined (.str (S "AbortError: " ++ t)), ⟨rfl, rfl, rfl⟩, ?_⟩⟩⟩
    · rw [hall, readLoop]
      have : onRead cs status u (.opened :: evs) ⟨(TextDecoder.new.decode pieces.flatten).1, (content text).2⟩ .done =
          (.opened :: evs ++ [.closed], .returned, ⟨(TextDecoder.new.decode pieces.flatten).1, (content text).2⟩) := by
        unfold onRead
        dsimp only
        rw [decode_nil, List.append_nil, splitLines_none (splitLines_content text).2.2]
        show (match emit u (.opened :: evs) .closed with
          | (trace, .next) => _
          | (trace, f) => _ : List Event × Flow × StreamVars) = _
        rw [emit_quiet hu]
      rw [this]
    · rw [hall, readLoop, onRead, emit_quiet hu]
    · rw [hall, readLoop, onRead, emit_quiet hu]

/-- C90, for responses made of messages and errors: whatever the pieces in which the bytes of a 2xx response arrive, the
callbacks are called like this: `onOpen`; `onMessage` with each message, once, in the order of the lines (empty lines, which
keep the connection alive, and an incomplete line at the end are skipped); if a line says that the stream has failed,
`onError` with the error, and then nothing more, whatever follows.  Otherwise, when the body ends, `onClose`; when reading fails,
`onError` with stream-lost; when it is aborted, `onError` with client-aborted (whose `reconnect` is not to be used). -/
theorem C90_stream_partial (cs : List ErrClass) (hd : DistinctCodes cs) (u : User) (hu : Quiet u) (status : Int)
    (hs : 200 ≤ status ∧ status ≤ 299) (any : Except Str Str) (text : Str) (hb : text.head? ≠ some bom)
    (pieces : List (List UInt8)) (hp : pieces.flatten = utf8 text) (evs : List Event) (stop : Bool)
    (hr : Reports cs (content text).1 evs stop) :
    let run := fun after => subscribe cs u (.response status any (some (pieces.map .chunk ++ after)))
    run [] = (.opened :: evs, if stop then .returned else .next) ∧
    (stop = true → ∀ after, run after = (.opened :: evs, .returned)) ∧
    (stop = false → ∀ after,
      run (.done :: after) = (.opened :: evs ++ [.closed], .returned) ∧
      (∀ t, ∃ e, BuiltIn (S "WebrpcStreamLost") (-9) (S "reader.read(): " ++ t) e ∧
        run (.failed t :: after) = (.opened :: evs ++ [.error (.webrpc e) true], .returned)) ∧
      (∀ t, ∃ e, BuiltIn (S "WebrpcClientAborted") (-8) (S "AbortError: " ++ t) e ∧
        run (.aborted t :: after) = (.opened :: evs ++ [.error (.webrpc e) false], .returned))) := by
  exact stream_run cs hd u hu status hs any text pieces (by rw [hp]; exact decode_text text hb) evs stop hr

/-- C90 is false of the code for a line that is not JSON: `onError` is called with bad-response, then `onMessage` with
`undefined`, which no one sent, and the stream goes on. -/
theorem C90_malformed (cs : List ErrClass) (u : User) (hu : Quiet u) (status : Int)
    (hs : 200 ≤ status ∧ status ≤ 299) (any : Except Str Str) (line : Str) (hb : line.head? ≠ some bom) (hl : line ≠ [])
    (hn : '\n' ∉ line) (hj : ¬ ∃ j, JsonText line j) (hr : JsEngine.syntaxError line ≠ cannotReconnect) :
    ∃ e, e.cls.name = S "WebrpcBadResponse" ∧ e.code = .num (S "-5") ∧
      subscribe cs u (.response status any (some [.chunk (utf8 (line ++ ['\n']))])) =
        ([.opened, .error (.webrpc e) true, .message .undefined], .next) := by
  refine ⟨badResponseClass.construct .undefined .undefined (.num (intText status))
    (.str (S "JSON.parse(): " ++ JsEngine.syntaxError line)), rfl, rfl, ?_⟩
  rw [subscribe_response, sseResponse.eq_def, if_pos (by unfold okStatus; simpa using hs)]
  dsimp only
  rw [emit_quiet hu]
  dsimp only
  have hdec : (TextDecoder.new.decode (utf8 (line ++ ['\n']))).2 = line ++ ['\n'] := decode_text _ (by
    cases line with
    | nil => exact absurd rfl hl
    | cons c l => exact hb)
  rw [readLoop, onRead_chunk]
  have hc : content (line ++ ['\n']) = ([line], []) := by
    have := content_line (l := line) (t := []) hn
    rw [if_neg hl] at this
    exact this
  simp only [List.nil_append, hdec, hc]
  have hline : onLine cs status u [.opened] line = ([.opened, .error (.webrpc (badResponseClass.construct .undefined .undefined
      (.num (intText status)) (.str (S "JSON.parse(): " ++ JsEngine.syntaxError line)))) true, .message .undefined], .next) := by
    unfold onLine tryLine
    rw [if_neg hl, jsonParse_none.2 hj]
    dsimp only
    rw [if_neg hr, emit_quiet hu]
    dsimp only
    rw [emit_quiet hu]
    rfl
  rw [onLines, hline]
  rfl

/-- A body of one line. -/
theorem one_line (cs : List ErrClass) (u : User) (hu : u [.opened] = none) (status : Int)
    (hs : 200 ≤ status ∧ status ≤ 299) (any : Except Str Str) (line : Str) (hb : line.head? ≠ some bom) (hl : line ≠ [])
    (hn : '\n' ∉ line) :
    subscribe cs u (.response status any (some [.chunk (utf8 (line ++ ['\n']))])) = onLine cs status u [.opened] line := by
  rw [subscribe_response, sseResponse.eq_def, if_pos (by unfold okStatus; simpa using hs)]
  dsimp only
  have he : emit u [] .opened = ([.opened], .next) := by unfold emit; rw [List.nil_append, hu]
  rw [he]
  dsimp only
  have hdec : (TextDecoder.new.decode (utf8 (line ++ ['\n']))).2 = line ++ ['\n'] := decode_text _ (by
    cases line with
    | nil => exact absurd rfl hl
    | cons c l => exact hb)
  rw [readLoop, onRead_chunk]
  have hc : content (line ++ ['\n']) = ([line], []) := by
    have := content_line (l := line) (t := []) hn
    rw [if_neg hl] at this
    exact this
  simp only [List.nil_append, hdec, hc]
  rw [onLines]
  cases hx : onLine cs status u [.opened] line with
  | mk tr f => cases f <;> rfl

/-- C90 is false of the code when `onError` throws: it is called a second time, for an error that the server did not send, the
error document is passed to `onMessage` as if it were a message, and the stream goes on after its end. -/
theorem C90_thrown (cs : List ErrClass) (hd : DistinctCodes cs) (any : Except Str Str) (line : Str) (hb : line.head? ≠ some bom)
    (hn : '\n' ∉ line) (j : Json) (hj : JsonText line j) (t : TsError) (he : ErrorDoc cs j t) (x : Str) (hx : x ≠ cannotReconnect) :
    ∃ e, e.cls.name = S "WebrpcBadResponse" ∧ e.code = .num (S "-5") ∧
      subscribe cs (fun trace => if trace.length = 2 then some x else none)
          (.response 200 any (some [.chunk (utf8 (line ++ ['\n']))])) =
        ([.opened, .error (.webrpc t) true, .error (.webrpc e) true, .message (ofJson j)], .next) := by
  refine ⟨badResponseClass.construct .undefined .undefined (.num (intText 200))
    (.str (S "JSON.parse(): " ++ x)), rfl, rfl, ?_⟩
  have hl := json_ne hj
  rw [one_line cs _ rfl 200 (by decide) any line hb hl hn]
  obtain ⟨ms, w, code, rfl, h1, h2, h3, h4, h5, h6⟩ := he
  have hw : hasWebrpcError (ofJson (.obj ms)) = some true := by
    obtain ⟨l, e1, k1⟩ := obj_member (k := S "webrpcError") (ms := ms)
    obtain ⟨l', e2, k2⟩ := obj_member (k := S "hasOwnProperty") (ms := ms)
    rw [e1] at e2 ⊢
    cases e2
    have hno : l.lookup (S "hasOwnProperty") = none := by
      cases hx : l.lookup (S "hasOwnProperty") with
      | none => rfl
      | some v => exact absurd (k2.2 (by rw [hx]; rfl)) h2
    rw [hasWebrpcError, hno]
    dsimp only
    rw [k1.1 h1]
  unfold onLine tryLine
  rw [if_neg hl, jsonParse_iff.2 ⟨_, hj, rfl⟩]
  dsimp only
  rw [hw]
  dsimp only
  rw [h3, throw_unit hd h4 h5 h6]
  dsimp only [emit, List.append, List.length]
  simp [hx]

/-- C90 is false of the code when `fetch` fails or a refusal is `null`: `onError` gets an error that is no `WebrpcError`. -/
theorem C90_raw_error (cs : List ErrClass) (u : User) (hu : Quiet u) (t : Str) (status : Int) (hs : ¬ (200 ≤ status ∧ status ≤ 299)) (body) :
    subscribe cs u (.failed t) = ([.error (.other t) true], .returned) ∧
    subscribe cs u (.response status (.ok (S "null")) body) = ([.error (.other (JsEngine.typeError (S "code"))) true], .returned) := by
  constructor
  · unfold subscribe; dsimp only; rw [emit_quiet hu]; rfl
  · rw [subscribe_response, sseResponse.eq_def, if_neg (by unfold okStatus; simpa using hs)]
    dsimp only
    have : buildResponse cs status (S "null") = .error (.other (JsEngine.typeError (S "code"))) := by
      rw [buildResponse, show jsonParse (S "null") = some .null from jsonParse_print (j := .null) trivial false]
      dsimp only
      rw [if_neg (by unfold okStatus; simpa using hs)]
      rfl
    rw [this]
    dsimp only
    rw [emit_quiet hu]
    rfl

/-- C90. A response that is not 2xx: `onError` once, with the error that the response describes (as for a unary call, C87). -/
theorem C90_refused (cs : List ErrClass) (hd : DistinctCodes cs) (u : User) (hu : Quiet u) (status : Int) (hs : ¬ (200 ≤ status ∧ status ≤ 299))
    (text : Str) (j : Json) (code : Int) (hj : JsonText text j) (hn : j ≠ .null) (hc : CodeIn (ofJson j) code) (body) :
    ∃ e, Describes cs (ofJson j) code e ∧
      subscribe cs u (.response status (.ok text) body) = ([.error (.webrpc e) true], .returned) := by
  have hnl : nullish (ofJson j) = false := by
    cases j with
    | null => exact absurd rfl hn
    | _ => rfl
  obtain ⟨e, he, hdes⟩ := throw_describes hd hnl hc
  refine ⟨e, hdes, ?_⟩
  rw [subscribe_response, sseResponse.eq_def, if_neg (by unfold okStatus; simpa using hs)]
  dsimp only
  have : buildResponse cs status text = .error (.webrpc e) := by
    rw [buildResponse, jsonParse_iff.2 ⟨j, hj, rfl⟩]
    dsimp only
    rw [if_neg (by unfold okStatus; simpa using hs), he]
  rw [this]
  dsimp only
  rw [emit_quiet hu]
  rfl

end Verif.Ts
