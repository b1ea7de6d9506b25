import Verif.Ts.Timer
import Verif.Props.TsStream
/-!
# C92 - C94: the timer, the signals and the headers of TypeScript stream clients
-/

namespace Verif.Ts
open Verif.Schema hiding Json Method
open Verif.Json Verif.Gen Verif.Rpc Verif.RpcSpec Verif.Spec Verif.TsSpec Verif.Props Verif.Values

/-! ### C92: the timer -/

/-- The reads among the events, as they are. -/
def readsOf : List TimedEvent → List ReadEnd
  | [] => []
  | .tick _ :: r => readsOf r
  | .read _ x :: r => x :: readsOf r

/-- The times at which something arrived. -/
def readTimes : List TimedEvent → List Nat
  | [] => []
  | .tick _ :: r => readTimes r
  | .read t _ :: r => t :: readTimes r

/-- C92. A stream is not given up while it is alive: if whenever the timer fires something has arrived (or the response has
begun, at `start`) in the last eleven seconds, all reads are seen as they are. -/
theorem C92_alive (released : Str) (start : Nat) (evs : List TimedEvent) (hord : (start :: evs.map (·.time)).Pairwise (· ≤ ·))
    (h : ∀ pre t post, evs = pre ++ .tick t :: post → ∃ s ∈ start :: readTimes pre, t ≤ s + 11000) :
    timedReads released start evs = readsOf evs := by
  induction evs generalizing start with
  | nil => rfl
  | cons e evs ih =>
    rw [List.map_cons, List.pairwise_cons, List.pairwise_cons] at hord
    obtain ⟨h1, h2, h3⟩ := hord
    cases e with
    | tick t =>
      obtain ⟨s, hs, ht⟩ := h [] t evs rfl
      simp [readTimes] at hs
      subst hs
      rw [timedReads, if_neg (by unfold streamTimeout; omega), readsOf]
      refine ih s ?_ ?_
      · rw [List.pairwise_cons]
        exact ⟨fun x hx => h1 x (by simp [hx]), h3⟩
      · intro pre t' post he
        have := h (.tick t :: pre) t' post (by rw [he]; rfl)
        exact this
    | read t x =>
      rw [timedReads, readsOf]
      refine congrArg _ (ih t (by rw [List.pairwise_cons]; exact ⟨h2, h3⟩) ?_)
      intro pre t' post he
      obtain ⟨s, hs, ht⟩ := h (.read t x :: pre) t' post (by rw [he]; rfl)
      rw [readTimes] at hs
      rcases List.mem_cons.1 hs with rfl | hs
      · refine ⟨t, by simp, ?_⟩
        have := h1 t (by simp [TimedEvent.time])
        omega
      · exact ⟨s, hs, ht⟩

/-- C92. A Go server that sends something at least every ten seconds, over a connection that delays what is sent by at most
one second more at one time than at another, is never given up: here `sent` are the times of the pings (and messages),
`delay` how long each is on its way beyond the shortest way. -/
theorem C92_pings (released : Str) (evs : List TimedEvent) (start : Nat)
    (hord : (start :: evs.map (·.time)).Pairwise (· ≤ ·))
    (sent : Nat → Nat) (delay : Nat → Nat) (hgap : ∀ i, sent (i + 1) ≤ sent i + 10000) (hdelay : ∀ i, delay i ≤ 1000)
    (harr : ∀ i t, (start :: readTimes evs)[i]? = some t → t = sent i + delay i)
    (hnow : ∀ pre t post, evs = pre ++ .tick t :: post → ∀ n, (start :: readTimes pre).length = n → t ≤ sent n + delay n) :
    timedReads released start evs = readsOf evs := by
  refine C92_alive released start evs hord fun pre t post he => ?_
  have hn := hnow pre t post he _ rfl
  have hpre : ∃ more, start :: readTimes evs = (start :: readTimes pre) ++ more := by
    rw [he]
    have : ∀ a b, readTimes (a ++ b) = readTimes a ++ readTimes b := by
      intro a b
      induction a with
      | nil => rfl
      | cons x a ih => cases x <;> simp [readTimes, ih]
    exact ⟨readTimes (.tick t :: post), by rw [this]; rfl⟩
  obtain ⟨more, hmore⟩ := hpre
  generalize hl : start :: readTimes pre = l at *
  have hne : l ≠ [] := by rw [← hl]; simp
  refine ⟨l.getLast hne, List.getLast_mem hne, ?_⟩
  have hlen : 0 < l.length := List.length_pos_iff.2 hne
  have := harr (l.length - 1) (l.getLast hne) (by
    rw [hmore, List.getElem?_append_left (by omega), List.getLast_eq_getElem, List.getElem?_eq_getElem])
  have g := hgap (l.length - 1)
  rw [Nat.sub_add_cancel hlen] at g
  have d := hdelay l.length
  rw [this]
  omega

/-- C92. A stream that has fallen silent is given up: if the timer fires every eleven seconds, and nothing arrives after
`last`, then the pending read fails at most 22 seconds (and more than 11 seconds) after the last arrival. -/
theorem C92_silence (released : Str) (last first : Nat) (h1 : last ≤ first) (h2 : first ≤ last + 11000) (more : List TimedEvent) :
    ∃ n, timedReads released last ((List.range (n + 1)).map (fun k => .tick (first + 11000 * k)) ++ more) = [.failed released] ∧
      last + 11000 < first + 11000 * n ∧ first + 11000 * n ≤ last + 22000 := by
  by_cases hf : first = last
  · refine ⟨2, ?_, by omega, by omega⟩
    show timedReads released last (.tick (first + 11000 * 0) :: .tick (first + 11000 * 1) :: .tick (first + 11000 * 2) :: more) = _
    rw [timedReads, if_neg (by unfold streamTimeout; omega), timedReads, if_neg (by unfold streamTimeout; omega), timedReads,
      if_pos (by unfold streamTimeout; omega)]
  · refine ⟨1, ?_, by omega, by omega⟩
    show timedReads released last (.tick (first + 11000 * 0) :: .tick (first + 11000 * 1) :: more) = _
    rw [timedReads, if_neg (by unfold streamTimeout; omega), timedReads, if_pos (by unfold streamTimeout; omega)]

/-- C92. What is given up was silent for more than eleven seconds: if the reads seen are not those that were made, they are
those up to some tick more than eleven seconds after the last arrival, and then the pending read fails. -/
theorem C92_only_silence (released : Str) (start : Nat) (evs : List TimedEvent) :
    timedReads released start evs = readsOf evs ∨
    ∃ pre t post, evs = pre ++ .tick t :: post ∧ timedReads released start evs = readsOf pre ++ [.failed released] ∧
      ((start :: readTimes pre).getLast (by simp)) + 11000 < t := by
  induction evs generalizing start with
  | nil => exact .inl rfl
  | cons e evs ih =>
    cases e with
    | tick t =>
      rw [timedReads]
      by_cases ht : t - start > streamTimeout
      · rw [if_pos ht]
        unfold streamTimeout at ht
        exact .inr ⟨[], t, evs, rfl, rfl, by show start + 11000 < t; omega⟩
      · rw [if_neg ht]
        rcases ih start with h | ⟨pre, t', post, h1, h2, h3⟩
        · exact .inl (by rw [h]; rfl)
        · exact .inr ⟨.tick t :: pre, t', post, by rw [h1]; rfl, by rw [h2]; rfl, h3⟩
    | read t x =>
      rw [timedReads]
      rcases ih t with h | ⟨pre, t', post, h1, h2, h3⟩
      · exact .inl (by rw [h]; rfl)
      · refine .inr ⟨.read t x :: pre, t', post, by rw [h1]; rfl, by rw [h2]; rfl, ?_⟩
        have : (start :: readTimes (.read t x :: pre)).getLast (by simp) = (t :: readTimes pre).getLast (by simp) := by
          show (start :: t :: readTimes pre).getLast _ = _
          rw [List.getLast_cons (by simp)]
        rw [this]; exact h3

variable [JsEngine]

/-- C92. In terms of callbacks, with C90: when a stream of messages falls silent, `onError` is called with stream-lost, after
the messages. -/
theorem C92_reported (released : Str) (cs : List ErrClass) (hd : DistinctCodes cs) (u : User) (hu : Quiet u) (any : Except Str Str) (start : Nat)
    (evs : List TimedEvent) (pieces : List (List UInt8)) (ht : timedReads released start evs = pieces.map .chunk ++ [.failed released])
    (text : Str) (hb : text.head? ≠ some bom) (hp : pieces.flatten = utf8 text) (calls : List Event)
    (hr : Reports cs (content text).1 calls false) :
    ∃ e, BuiltIn (S "WebrpcStreamLost") (-9) (S "reader.read(): " ++ released) e ∧
      subscribe cs u (.response 200 any (some (timedReads released start evs))) = (.opened :: calls ++ [.error (.webrpc e) true], .returned) := by
  rw [ht]
  exact ((C90_stream_partial cs hd u hu 200 (by decide) any text hb pieces hp calls false hr).2.2 rfl []).2.1 released

omit [JsEngine] in
/-- C92. Cases that meet the hypotheses: pings after 10, 20 and 30.5 seconds with ticks between them; silence after them. -/
theorem C92_example (released : Str) :
    let ping : ReadEnd := .chunk [10]
    let evs := [TimedEvent.read 10000 ping, .tick 11000, .read 20000 ping, .tick 22000, .read 30500 ping, .tick 33000]
    (0 :: evs.map (·.time)).Pairwise (· ≤ ·) ∧ timedReads released 0 evs = [ping, ping, ping] ∧
    timedReads released 0 (evs ++ [.tick 44000]) = [ping, ping, ping, .failed released] := by
  refine ⟨by decide, rfl, rfl⟩

/-! ### C93: aborting -/

omit [JsEngine] in
theorem step_abort (s : AbortState) (r : Option Str) : s.own = none → (s.step (.abort r)).own = some r := by
  intro h
  unfold AbortState.step
  dsimp only
  rw [h]

omit [JsEngine] in
theorem step_aborted (s : AbortState) (r : Option Str) (x : Option Str) : s.own = some x → (s.step (.abort r)).own = some x := by
  intro h
  unfold AbortState.step
  dsimp only
  rw [h]
  exact h

/-- C93, for `abort()` without a reason: whatever happened to `options.signal`, the first `abort()` makes the pending read fail
with an `AbortError`, which the stream reports as client-aborted, once, after the messages. -/
theorem C93_abort_partial (cs : List ErrClass) (hd : DistinctCodes cs) (u : User) (hu : Quiet u) (any : Except Str Str)
    (given already : Bool) (before after : List AbortEvent) (hbefore : ∀ e ∈ before, e = .signal) (msg : Str)
    (text : Str) (hb : text.head? ≠ some bom) (pieces : List (List UInt8)) (hp : pieces.flatten = utf8 text) (calls : List Event)
    (hr : Reports cs (content text).1 calls false) :
    ∃ r e, ((before ++ .abort none :: after).foldl AbortState.step (.init given already)).read msg = some r ∧
      BuiltIn (S "WebrpcClientAborted") (-8) (S "AbortError: " ++ msg) e ∧
      subscribe cs u (.response 200 any (some (pieces.map .chunk ++ [r]))) = (.opened :: calls ++ [.error (.webrpc e) false], .returned) := by
  have h1 : ∀ (l : List AbortEvent) (s : AbortState), (∀ e ∈ l, e = .signal) → (l.foldl AbortState.step s).own = s.own := by
    intro l
    induction l with
    | nil => intro s _; rfl
    | cons e l ih =>
      intro s h
      rw [List.foldl_cons, ih _ fun x hx => h x (List.mem_cons_of_mem _ hx), h e (List.mem_cons_self ..)]
      rfl
  have h2 : ∀ (l : List AbortEvent) (s : AbortState) x, s.own = some x → (l.foldl AbortState.step s).own = some x := by
    intro l
    induction l with
    | nil => intro s x h; exact h
    | cons e l ih =>
      intro s x h
      rw [List.foldl_cons]
      refine ih _ x ?_
      cases e with
      | abort r => exact step_aborted _ _ _ h
      | signal => exact h
  obtain ⟨e, e1, e2⟩ := ((C90_stream_partial cs hd u hu 200 (by decide) any text hb pieces hp calls false hr).2.2 rfl []).2.2 msg
  refine ⟨.aborted msg, e, ?_, e1, e2⟩
  unfold AbortState.read
  rw [List.foldl_append, List.foldl_cons, h2 after _ none]
  · rfl
  · exact step_abort _ _ (h1 before _ hbefore)

omit [JsEngine] in
/-- C93 is false of the code for `options.signal`: whatever happens, the stream's own signal is aborted only by `abort()`; when
`options.signal` is aborted, any number of times, nothing happens. -/
theorem C93_signal_ignored (given already : Bool) (evs : List AbortEvent) :
    ((evs.foldl AbortState.step (.init given already)).own ≠ none ↔ ∃ reason, AbortEvent.abort reason ∈ evs) := by
  have key : ∀ (evs : List AbortEvent) (s : AbortState), (evs.foldl AbortState.step s).own ≠ none ↔
      s.own ≠ none ∨ ∃ reason, AbortEvent.abort reason ∈ evs := by
    intro evs
    induction evs with
    | nil => intro s; simp
    | cons e evs ih =>
      intro s
      rw [List.foldl_cons, ih]
      cases e with
      | abort r =>
        have : (s.step (.abort r)).own ≠ none := by
          cases h : s.own with
          | none => rw [step_abort s r h]; nofun
          | some x => rw [step_aborted s r x h]; nofun
        exact ⟨fun _ => .inr ⟨r, List.mem_cons_self ..⟩, fun _ => .inl this⟩
      | signal =>
        show s.own ≠ none ∨ _ ↔ _
        simp
  rw [key]
  simp [AbortState.init]

/-- C93 is false of the code for `abort(reason)`: the stream is reported as lost, with a `reconnect` that connects with a
signal that is aborted. -/
theorem C93_reason (cs : List ErrClass) (hd : DistinctCodes cs) (u : User) (hu : Quiet u) (any : Except Str Str) (given already : Bool) (reason msg : Str) :
    ∃ r e, ((AbortState.init given already).step (.abort (some reason))).read msg = some r ∧
      BuiltIn (S "WebrpcStreamLost") (-9) (S "reader.read(): " ++ reason) e ∧
      subscribe cs u (.response 200 any (some [r])) = ([.opened, .error (.webrpc e) true], .returned) := by
  obtain ⟨e, e1, e2⟩ := ((C90_stream_partial cs hd u hu 200 (by decide) any [] (by simp) [] rfl [] false .nil).2.2 rfl []).2.1 reason
  exact ⟨.failed reason, e, rfl, e1, e2⟩

/-! ### C94: headers -/

/-- C94, for headers given as an object: the stream's request has them (other than those the client sets itself). -/
theorem C94_record_partial (c : TsClient) (name : Str) (req : Js) (j : Json) (l : List (Str × Str)) (hv : JsOk req) (hj : toJson req = some j)
    (hb : c.table ≠ none ∨ hasBig req = false) (k : Str) (h1 : k ≠ S "Content-Type") (h2 : k ≠ S "Webrpc") :
    ∃ r, c.streamRequest name req (.record l) = .ok r ∧ r.headers.lookup k = l.lookup k := by
  obtain ⟨host, n, hh, hl⟩ : ∃ host n, c.hostname = host ++ List.replicate n '/' ∧ host.getLast? ≠ some '/' := by
    have key : ∀ s : Str, ∃ host n, s.reverse = host ++ List.replicate n '/' ∧ host.getLast? ≠ some '/' := by
      intro s
      induction s with
      | nil => exact ⟨[], 0, rfl, by simp⟩
      | cons x s ih =>
        by_cases hx : x = '/'
        · subst hx
          obtain ⟨host, n, h1, h2⟩ := ih
          refine ⟨host, n + 1, ?_, h2⟩
          rw [List.reverse_cons, h1, List.replicate_succ', List.append_assoc]
        · refine ⟨(x :: s).reverse, 0, by simp, ?_⟩
          rw [List.reverse_cons, List.getLast?_append]
          simp [hx]
    have := key c.hostname.reverse
    rwa [List.reverse_reverse] at this
  obtain ⟨r, hr, -, -, -, -, h6, -⟩ := C87_request c ⟨name, []⟩ req l j hv hj hb host n hh hl
  exact ⟨r, hr, h6 k h1 h2⟩

/-- C94 is false of the code for the other forms of `HeadersInit`: of a `Headers` nothing is sent, whatever is in it, and
pairs are sent as headers called 0, 1, ... -/
theorem C94_lost (c : TsClient) (name : Str) (req : Js) (l : List (Str × Str)) (k : Str) (h1 : k ≠ S "Content-Type") (h2 : k ≠ S "Webrpc")
    (r : TsRequest) :
    (c.streamRequest name req (.headers l) = .ok r → r.headers.lookup k = none) ∧
    (c.streamRequest name req (.pairs [(S "Authorization", S "x")]) = .ok r →
      r.headers.lookup (S "Authorization") = none ∧ r.headers.lookup (S "0") = some (S "Authorization,x")) := by
  have key : ∀ hs, c.streamRequest name req hs = .ok r → r.headers =
      Compile.mapSet (S "Webrpc") c.header (Compile.mapSet (S "Content-Type") (S "application/json") hs.spread) := by
    intro hs h
    unfold TsClient.streamRequest TsClient.request at h
    dsimp only at h
    split at h
    · cases h
    · cases h; rfl
  constructor
  · intro h
    rw [key _ h, Compile.mapSet_lookup, if_neg h2, Compile.mapSet_lookup, if_neg h1]; rfl
  · intro h
    rw [key _ h]
    have hsp : (HeadersInit.pairs [(S "Authorization", S "x")]).spread = [(S "0", S "Authorization,x")] := by decide +kernel
    rw [hsp]
    constructor
    · rw [Compile.mapSet_lookup, if_neg (by decide), Compile.mapSet_lookup, if_neg (by decide)]; decide +kernel
    · rw [Compile.mapSet_lookup, if_neg (by decide), Compile.mapSet_lookup, if_neg (by decide)]; decide +kernel

end Verif.Ts
