import Verif.Spec.Rpc
import Verif.Json.Grammar
import Verif.Props.Generate
import Verif.Props.Cache
/-!
# Properties of generated servers and clients (C51-C54)
-/

namespace Verif.Props
open Verif.Schema hiding Json Method
open Verif.Json Verif.Gen Verif.Rpc Verif.RpcSpec
open Verif.Compile (mapSet decimal? mapSet_lookup)

/-! ## Content types -/

theorem dropWhile_head {α : Type} (p : α → Bool) (l : List α) : ∀ c, (l.dropWhile p).head? = some c → p c = false := by
  induction l with
  | nil => intro c h; simp at h
  | cons a l ih =>
    intro c h
    rw [List.dropWhile_cons] at h
    split at h
    · exact ih c h
    · rename_i hh
      simp only [List.head?_cons, Option.some.injEq] at h
      subst h; simpa using hh

theorem dropWhile_all {α : Type} {p : α → Bool} {a b : List α} (ha : ∀ c ∈ a, p c = true) :
    (a ++ b).dropWhile p = b.dropWhile p := by
  induction a with
  | nil => rfl
  | cons c a ih =>
    rw [List.cons_append, List.dropWhile_cons, if_pos (ha c (by simp)), ih (fun d hd => ha d (by simp [hd]))]

theorem takeWhile_all {α : Type} {p : α → Bool} (l : List α) : ∀ c ∈ l.takeWhile p, p c = true := by
  induction l with
  | nil => simp
  | cons a l ih =>
    intro c hc
    rw [List.takeWhile_cons] at hc
    split at hc
    · rcases List.mem_cons.1 hc with rfl | hc
      · assumption
      · exact ih c hc
    · simp at hc

/-- `TrimSpace` gives `w` exactly if the text is `w` with white space around it. -/
theorem trimSpace_eq {w s : Str} (hw : w ≠ []) (h1 : ∀ c, w.head? = some c → isSpace c = false)
    (h2 : ∀ c, w.getLast? = some c → isSpace c = false) :
    trimSpace s = w ↔ ∃ a b, s = a ++ w ++ b ∧ (∀ c ∈ a, isSpace c = true) ∧ (∀ c ∈ b, isSpace c = true) := by
  constructor
  · intro h
    unfold trimSpace at h
    have e1 := (List.takeWhile_append_dropWhile (p := isSpace) (l := s)).symm
    have e2 := (List.takeWhile_append_dropWhile (p := isSpace) (l := (s.dropWhile isSpace).reverse)).symm
    have e3 := congrArg List.reverse e2
    rw [List.reverse_reverse, List.reverse_append, h] at e3
    refine ⟨s.takeWhile isSpace, ((s.dropWhile isSpace).reverse.takeWhile isSpace).reverse, ?_, takeWhile_all s, ?_⟩
    · rw [List.append_assoc, ← e3, ← e1]
    · intro c hc
      exact takeWhile_all _ c (List.mem_reverse.1 hc)
  · rintro ⟨a, b, rfl, ha, hb⟩
    unfold trimSpace
    rw [List.append_assoc, dropWhile_all ha]
    have d1 : (w ++ b).dropWhile isSpace = w ++ b := by
      cases w with
      | nil => exact absurd rfl hw
      | cons c w => rw [List.cons_append, List.dropWhile_cons, if_neg (by rw [h1 c rfl]; simp)]
    rw [d1, List.reverse_append, dropWhile_all (fun c hc => hb c (List.mem_reverse.1 hc))]
    have d2 : w.reverse.dropWhile isSpace = w.reverse := by
      cases hr : w.reverse with
      | nil => exact absurd (List.reverse_eq_nil_iff.1 hr) hw
      | cons c v =>
        rw [List.dropWhile_cons, if_neg]
        rw [h2 c (by rw [← List.head?_reverse, hr]; rfl)]; simp
    rw [d2, List.reverse_reverse]

theorem map_split {α β : Type} {f : α → β} {l : List α} {a b c : List β} (h : l.map f = a ++ b ++ c) :
    ∃ x y z, l = x ++ y ++ z ∧ x.map f = a ∧ y.map f = b ∧ z.map f = c := by
  obtain ⟨xy, z, e1, e2, e3⟩ := List.map_eq_append_iff.1 h
  obtain ⟨x, y, e4, e5, e6⟩ := List.map_eq_append_iff.1 e2
  exact ⟨x, y, z, by rw [e1, e4], e5, e6, e3⟩

theorem blank_map [GoUnicode] {s : Str} : (∀ c ∈ s.map lowerChar, isSpace c = true) ↔ Blank s := by
  simp [Blank]

/-- The server recognises exactly the content types that mean JSON. -/
theorem mediaType_iff [GoUnicode] (ct : Str) : mediaType ct = S "application/json" ↔ JsonType ct := by
  have hw : ∀ x : Str, trimSpace x = S "application/json" ↔
      ∃ a b, x = a ++ S "application/json" ++ b ∧ (∀ c ∈ a, isSpace c = true) ∧ (∀ c ∈ b, isSpace c = true) :=
    fun x => trimSpace_eq (by decide) (by decide) (by decide)
  have hc : ∃ x rest, ct = x ++ rest ∧ ';' ∉ x ∧ (rest = [] ∨ rest.head? = some ';') ∧
      mediaType ct = trimSpace (x.map lowerChar) := by
    unfold mediaType
    cases h : cut (S ";") ct with
    | none => exact ⟨ct, [], by simp, cut_char_none.1 h, Or.inl rfl, rfl⟩
    | some p =>
      obtain ⟨a, b⟩ := p
      obtain ⟨e1, e2⟩ := cut_char.1 h
      exact ⟨a, ';' :: b, e2, e1, Or.inr rfl, rfl⟩
  obtain ⟨x, rest, e1, e2, e3, e4⟩ := hc
  rw [e4, hw]
  constructor
  · rintro ⟨a, b, h1, h2, h3⟩
    obtain ⟨l, m, t, rfl, rfl, hm, rfl⟩ := map_split h1
    exact ⟨l, m, t, rest, e1, e2, e3, blank_map.1 h2, blank_map.1 h3, hm⟩
  · rintro ⟨l, m, t, p, h1, h2, h3, h4, h5, h6⟩
    have hx : x = l ++ m ++ t := by
      rw [e1] at h1
      rcases e3 with rfl | e3
      · rcases h3 with rfl | h3
        · simpa using h1
        · cases p with
          | nil => simp at h3
          | cons d p =>
            simp only [List.head?_cons, Option.some.injEq] at h3
            subst h3
            exact absurd (by rw [List.append_nil] at h1; rw [h1]; simp) e2
      · cases rest with
        | nil => simp at e3
        | cons d rest =>
          simp only [List.head?_cons, Option.some.injEq] at e3
          subst e3
          rcases h3 with rfl | h3
          · rw [List.append_nil] at h1
            exact absurd (by rw [← h1]; simp) h2
          · cases p with
            | nil => simp at h3
            | cons d p =>
              simp only [List.head?_cons, Option.some.injEq] at h3
              subst h3
              have g1 := (cut_char (a := x) (b := rest)).2 ⟨e2, rfl⟩
              have g2 := (cut_char (a := l ++ m ++ t) (b := p)).2 ⟨h2, h1⟩
              rw [g1] at g2
              exact (Prod.mk.inj (Option.some.inj g2)).1
    refine ⟨l.map lowerChar, t.map lowerChar, ?_, blank_map.2 h4, blank_map.2 h5⟩
    rw [hx, List.map_append, List.map_append, h6]

/-! ## Effects -/

/-- Neither a status nor a body is written. -/
def Silent (effs : List Eff) : Prop :=
  ∀ x ∈ effs, match x with
    | .writeHeader _ => False
    | .write _ => False
    | _ => True

theorem silent_append {a b : List Eff} : Silent (a ++ b) ↔ Silent a ∧ Silent b := by
  unfold Silent
  constructor
  · intro h; exact ⟨fun x hx => h x (by simp [hx]), fun x hx => h x (by simp [hx])⟩
  · rintro ⟨h1, h2⟩ x hx
    rcases List.mem_append.1 hx with hx | hx
    · exact h1 x hx
    · exact h2 x hx

theorem silent_of {effs : List Eff} (h : Silent effs) (p : Response) :
    (effs.foldl Response.apply p).status = p.status ∧ (effs.foldl Response.apply p).body = p.body ∧
    (effs.foldl Response.apply p).sent = p.sent := by
  induction effs generalizing p with
  | nil => exact ⟨rfl, rfl, rfl⟩
  | cons x l ih =>
    have hl : Silent l := fun y hy => h y (by simp [hy])
    have hx := h x (by simp)
    obtain ⟨i1, i2, i3⟩ := ih hl (p.apply x)
    rw [List.foldl_cons, i1, i2, i3]
    cases x <;> first | exact ⟨rfl, rfl, rfl⟩ | exact absurd hx id

theorem silent_writes {effs : List Eff} (h : Silent effs) (l : List Eff) : writes (effs ++ l) = writes l := by
  induction effs with
  | nil => rfl
  | cons x e ih =>
    have hl : Silent e := fun y hy => h y (by simp [hy])
    have hx := h x (by simp)
    rw [List.cons_append]
    cases x <;> first | exact ih hl | exact absurd hx id

/-- The header of the response after some effects. -/
def hdr (effs : List Eff) (k : Str) : Option (List Str) := (Response.of effs).headers.lookup k

/-- The effects never touch this header. -/
def Untouched (k : Str) (effs : List Eff) : Prop :=
  ∀ x ∈ effs, match x with
    | .setHeader k' _ => k' ≠ k
    | .addHeader k' _ => k' ≠ k
    | _ => True

theorem untouched_of {k : Str} {effs : List Eff} (h : Untouched k effs) (p : Response) :
    (effs.foldl Response.apply p).headers.lookup k = p.headers.lookup k := by
  induction effs generalizing p with
  | nil => rfl
  | cons x l ih =>
    have hl : Untouched k l := fun y hy => h y (by simp [hy])
    have hx := h x (by simp)
    rw [List.foldl_cons, ih hl]
    cases x with
    | setHeader k' v => simp only [Response.apply, mapSet_lookup]; rw [if_neg (Ne.symm hx)]
    | addHeader k' v => simp only [Response.apply, mapSet_lookup]; rw [if_neg (Ne.symm hx)]
    | writeHeader c => simp only [Response.apply]; split <;> rfl
    | write b =>
      simp only [Response.apply]
      split
      · rfl
      · split <;> rfl
    | _ => rfl

/-- A response after silent effects. -/
theorem answer_of {header : Str} {pre : List Eff} {status : Int} {doc : Json} (hp : Silent pre)
    (hu : Untouched (S "Webrpc") pre) (hs : Sendable status) :
    Answer header (.setHeader (S "Webrpc") header :: (pre ++
      [.setHeader (S "Content-Type") (S "application/json"), .writeHeader status, .write (print ⟨false, true⟩ 0 doc)]))
      status doc := by
  have hs' : Silent (Eff.setHeader (S "Webrpc") header :: pre) := by
    intro x hx
    rcases List.mem_cons.1 hx with rfl | hx
    · trivial
    · exact hp x hx
  have hq := silent_of hs' .empty
  have hh : ((Eff.setHeader (S "Webrpc") header :: pre).foldl Response.apply .empty).headers.lookup (S "Webrpc") =
      some [header] := by
    rw [List.foldl_cons, untouched_of hu]
    simp [Response.apply, Response.empty, mapSet]
  obtain ⟨a1, a2, a3, a4⟩ := hs
  have e : Response.of (.setHeader (S "Webrpc") header :: (pre ++
      [.setHeader (S "Content-Type") (S "application/json"), .writeHeader status, .write (print ⟨false, true⟩ 0 doc)])) =
      { status := some status,
        headers := mapSet (S "Content-Type") [S "application/json"]
          ((Eff.setHeader (S "Webrpc") header :: pre).foldl Response.apply .empty).headers
        sent := mapSet (S "Content-Type") [S "application/json"]
          ((Eff.setHeader (S "Webrpc") header :: pre).foldl Response.apply .empty).headers
        body := print ⟨false, true⟩ 0 doc } := by
    unfold Response.of
    rw [← List.cons_append, List.foldl_append]
    generalize (Eff.setHeader (S "Webrpc") header :: pre).foldl Response.apply .empty = p at hq hh
    obtain ⟨q1, q2, q3⟩ := hq
    have n1 : noBody status = false := by simp [noBody]; omega
    simp only [List.foldl_cons, List.foldl_nil, Response.apply, q1, Response.empty, Option.isSome_none, q2]
    rw [if_neg (by simp; omega)]
    simp [n1]
  constructor
  · rw [← List.cons_append, silent_writes hs']; rfl
  · rw [e]
  · rw [e]; simp only [mapSet_lookup]; rfl
  · rw [e]; simp only [mapSet_lookup]; rw [if_neg (by decide)]; exact hh
  · rw [e]

/-- What `sendErrorJSON` does with a status that can be sent. -/
theorem sendError_ok (s : Server) (e : RpcError) (h : Sendable (reported s e).httpStatus) :
    ∃ hook, sendErrorJSON s e = (hook ++ [.setHeader (S "Content-Type") (S "application/json"),
      .writeHeader (reported s e).httpStatus, .write (print ⟨false, true⟩ 0 (reported s e).toJson)], .ok ()) ∧
      Silent hook ∧ Untouched (S "Webrpc") hook ∧ calls hook = [] ∧
      (s.onError ≠ none → hook = [.onError e]) := by
  obtain ⟨a1, a2, a3, a4⟩ := h
  unfold sendErrorJSON
  unfold reported at a1 a2 ⊢
  cases ho : s.onError with
  | none =>
    rw [ho] at a1 a2
    dsimp only at a1 a2
    refine ⟨[], ?_, by simp [Silent], by simp [Untouched], rfl, by simp⟩
    simp only [ho]
    rw [if_neg (by omega)]
    rfl
  | some f =>
    rw [ho] at a1 a2
    dsimp only at a1 a2
    refine ⟨[.onError e], ?_, by simp [Silent], by simp [Untouched], rfl, by simp⟩
    simp only [ho]
    rw [if_neg (by omega)]
    rfl

theorem calls_append (a b : List Eff) : calls (a ++ b) = calls a ++ calls b := List.filterMap_append

theorem answersError_of {s : Server} {pre : List Eff} {e : RpcError} (hp : Silent pre)
    (hu : Untouched (S "Webrpc") pre) (hs : Sendable (reported s e).httpStatus) :
    AnswersError s (.setHeader (S "Webrpc") s.header :: (pre ++ (sendErrorJSON s e).1)) e := by
  obtain ⟨hook, h1, h2, h3, -, h4⟩ := sendError_ok s e hs
  rw [h1]
  refine ⟨?_, ?_⟩
  · rw [← List.append_assoc]
    exact answer_of (silent_append.2 ⟨hp, h2⟩) (fun x hx => by
      rcases List.mem_append.1 hx with hx | hx
      · exact hu x hx
      · exact h3 x hx) hs
  · intro ho
    rw [h4 ho]
    simp

/-! ## C51: dispatch -/

/-- What happens after the header is set. -/
theorem serve_shape [GoUnicode] (s : Server) (r : Request) :
    serveHTTP s r = match (dispatch s r).2 with
      | .ok () => (.setHeader (S "Webrpc") s.header :: (dispatch s r).1, .ok ())
      | .panic v => (.setHeader (S "Webrpc") s.header :: ((dispatch s r).1 ++ (sendErrorJSON s (errServerPanic.withCause v)).1),
          match (sendErrorJSON s (errServerPanic.withCause v)).2 with
          | .ok () => .panic v
          | .panic w => .panic w) := by
  unfold serveHTTP Run.andThen
  dsimp only
  cases h : (dispatch s r).2 with
  | ok u => rfl
  | panic v =>
    dsimp only
    cases (sendErrorJSON s (errServerPanic.withCause v)).2 <;> rfl

theorem calls_sendError (s : Server) (e : RpcError) : calls (sendErrorJSON s e).1 = [] := by
  unfold sendErrorJSON
  cases s.onError with
  | none => dsimp only; split <;> rfl
  | some f => dsimp only; split <;> rfl

theorem calls_serve [GoUnicode] (s : Server) (r : Request) : calls (serveHTTP s r).1 = calls (dispatch s r).1 := by
  rw [serve_shape]
  cases (dispatch s r).2 with
  | ok u => rfl
  | panic v =>
    show calls (_ ++ _) = _
    rw [calls_append, calls_sendError, List.append_nil]

theorem calls_callImpl (s : Server) (m : Method) (args : Json) : calls (callImpl s m args).1 = [(m.name, args)] := by
  unfold callImpl Run.andThen
  dsimp only
  show calls ([Eff.call m.name args] ++ _) = _
  rw [calls_append]
  have : ∀ x : List Eff, calls x = [] → calls [Eff.call m.name args] ++ calls x = [(m.name, args)] := by
    intro x hx; rw [hx]; rfl
  apply this
  cases m.impl args with
  | panic v => rfl
  | error e => exact calls_sendError s _
  | result j =>
    dsimp only
    split
    · cases j with
      | none => exact calls_sendError s _
      | some j => rfl
    · rfl

/-- The arguments, if the request has some. -/
theorem serveMethod_args (s : Server) (m : Method) (r : Request) {args : Json} (h : Arguments m r args) :
    serveMethod s m r = callImpl s m args := by
  unfold Arguments at h
  unfold serveMethod
  split at h
  · rename_i hm
    obtain ⟨body, j, h1, h2, h3⟩ := h
    rw [if_pos hm, h1]
    dsimp only
    rw [parse_iff.2 h2]
    show (match m.readArgs j with | none => _ | some args => callImpl s m args) = _
    rw [h3]
  · rename_i hm
    rw [if_neg hm, h]

theorem serveMethod_bad (s : Server) (m : Method) (r : Request) (h : ¬ ∃ args, Arguments m r args) :
    ∃ cause, serveMethod s m r = sendErrorJSON s (errBadRequest.withCause cause) := by
  unfold serveMethod
  by_cases hm : m.hasArgs
  · rw [if_pos hm]
    cases hb : r.body with
    | none => exact ⟨_, rfl⟩
    | some body =>
      dsimp only
      cases hp : (parse body).bind m.readArgs with
      | none => exact ⟨_, rfl⟩
      | some args =>
        obtain ⟨j, h1, h2⟩ := Option.bind_eq_some_iff.1 hp
        exact absurd ⟨args, by unfold Arguments; rw [if_pos hm]; exact ⟨body, j, hb, parse_iff.1 h1, h2⟩⟩ h
  · exact absurd ⟨.null, by unfold Arguments; rw [if_neg hm]⟩ h

theorem args_unique {m : Method} {r : Request} {a b : Json} (h1 : Arguments m r a) (h2 : Arguments m r b) : a = b := by
  unfold Arguments at h1 h2
  split at h1
  · rename_i hm
    rw [if_pos hm] at h2
    obtain ⟨x, j, e1, e2, e3⟩ := h1
    obtain ⟨y, k, f1, f2, f3⟩ := h2
    rw [e1] at f1; cases f1
    have f2' := parse_iff.2 f2
    rw [parse_iff.2 e2] at f2'; cases f2'
    rw [e3] at f3; cases f3
    rfl
  · rename_i hm
    rw [if_neg hm] at h2
    rw [h1, h2]

/-- A request for a method goes through the hook to `serve*JSON`. -/
theorem dispatch_for [GoUnicode] {s : Server} {r : Request} {m : Method} (h : For s r m) :
    dispatch s r = match s.onRequest with
      | none => serveMethod s m r
      | some hook =>
        Run.andThen ([.onRequest], .ok ()) <|
          match hook with
          | .panic v => ([], .panic v)
          | .ok (some e) => sendErrorJSON s e.toRpc
          | .ok none => serveMethod s m r := by
  unfold dispatch
  rw [h.path]
  dsimp only
  rw [if_neg (by simp [h.post]), if_pos ((mediaType_iff _).2 h.json)]
  cases s.onRequest with
  | none => rfl
  | some hook =>
    cases hook with
    | panic v => rfl
    | ok e => cases e <;> rfl

theorem dispatch_passes [GoUnicode] {s : Server} {r : Request} {m : Method} (h : For s r m) (hh : HookPasses s) :
    ∃ pre, Silent pre ∧ Untouched (S "Webrpc") pre ∧ calls pre = [] ∧
      dispatch s r = (pre ++ (serveMethod s m r).1, (serveMethod s m r).2) := by
  rw [dispatch_for h]
  rcases hh with hh | hh
  · rw [hh]; exact ⟨[], by simp [Silent], by simp [Untouched], rfl, rfl⟩
  · rw [hh]; exact ⟨[.onRequest], by simp [Silent], by simp [Untouched], rfl, rfl⟩

/-- C51. The implementation is called exactly if the request is a `POST` with a JSON content type to a known path,
the hook lets it through and its body can be decoded; it is then called once, with the arguments from the body. -/
theorem C51_called_iff [GoUnicode] (s : Server) (r : Request) :
    (∀ m args, Callable s r m args → calls (serveHTTP s r).1 = [(m.name, args)]) ∧
    ((¬ ∃ m args, Callable s r m args) → calls (serveHTTP s r).1 = []) := by
  rw [calls_serve]
  constructor
  · rintro m args ⟨h1, h2, h3⟩
    obtain ⟨pre, -, -, p1, p2⟩ := dispatch_passes h1 h2
    rw [p2]
    show calls (pre ++ _) = _
    rw [calls_append, p1, serveMethod_args s m r h3, calls_callImpl, List.nil_append]
  · intro hn
    by_cases hf : ∃ m, For s r m
    · obtain ⟨m, hf⟩ := hf
      by_cases hh : HookPasses s
      · obtain ⟨pre, -, -, p1, p2⟩ := dispatch_passes hf hh
        rw [p2]
        show calls (pre ++ _) = _
        obtain ⟨cause, hc⟩ := serveMethod_bad s m r (fun ⟨args, ha⟩ => hn ⟨m, args, hf, hh, ha⟩)
        rw [calls_append, p1, hc, calls_sendError, List.nil_append]
      · rw [dispatch_for hf]
        unfold HookPasses at hh
        cases ho : s.onRequest with
        | none => exact absurd (Or.inl ho) hh
        | some hook =>
          cases hook with
          | panic v => rfl
          | ok e =>
            cases e with
            | none => exact absurd (Or.inr ho) hh
            | some e =>
              show calls (_ ++ _) = _
              rw [calls_append, calls_sendError]; rfl
    · unfold dispatch
      cases hl : s.routes.lookup r.path with
      | none => exact calls_sendError s _
      | some m =>
        dsimp only
        split
        · show calls (_ ++ _) = _
          rw [calls_append, calls_sendError]; rfl
        · rename_i hp
          rw [if_neg]
          · exact calls_sendError s _
          · intro hm
            exact hf ⟨m, hl, by simpa using hp, (mediaType_iff _).1 hm⟩

/-- C51. A request that is refused gets exactly one response: the error for the reason (404, 405 or 400), as changed
by the error hook. -/
theorem C51_refused [GoUnicode] (s : Server) (r : Request) (e : RpcError) (h : Refused s r e)
    (hs : ∀ cause, Sendable (reported s (e.withCause cause)).httpStatus) :
    ∃ cause, AnswersError s (serveHTTP s r).1 (e.withCause cause) ∧ (serveHTTP s r).2 = .ok () := by
  have key : ∀ pre cause, Silent pre → Untouched (S "Webrpc") pre →
      dispatch s r = (pre ++ (sendErrorJSON s (e.withCause cause)).1, (sendErrorJSON s (e.withCause cause)).2) →
      ∃ cause, AnswersError s (serveHTTP s r).1 (e.withCause cause) ∧ (serveHTTP s r).2 = .ok () := by
    intro pre cause h1 h2 h3
    obtain ⟨hook, q1, -⟩ := sendError_ok s _ (hs cause)
    have q2 : (sendErrorJSON s (e.withCause cause)).2 = .ok () := by rw [q1]
    refine ⟨cause, ?_⟩
    rw [serve_shape, h3]
    dsimp only
    rw [q2]
    exact ⟨answersError_of h1 h2 (hs cause), rfl⟩
  cases h with
  | path h =>
    refine key [] (S "no webrpc method defined for path " ++ r.path) (by simp [Silent]) (by simp [Untouched]) ?_
    unfold dispatch; rw [h]; rfl
  | method m h1 h2 =>
    refine key [.addHeader (S "Allow") (S "POST")] (S "unsupported HTTP method " ++ r.method)
      (by simp [Silent]) (by simp [Untouched]; decide) ?_
    unfold dispatch; rw [h1]; dsimp only; rw [if_pos h2]; rfl
  | contentType m h1 h2 h3 =>
    refine key [] (S "unsupported Content-Type") (by simp [Silent]) (by simp [Untouched]) ?_
    unfold dispatch; rw [h1]; dsimp only
    rw [if_neg (by simp [h2]), if_neg (fun hh => h3 ((mediaType_iff _).1 hh))]
    rfl
  | arguments m h1 h2 h3 =>
    obtain ⟨pre, p0, p1, -, p2⟩ := dispatch_passes h1 h2
    obtain ⟨cause, hc⟩ := serveMethod_bad s m r h3
    rw [hc] at p2
    exact key pre cause p0 p1 p2

/-- C51. Without an error hook the response to a request that is refused has status 404, 405 or 400. -/
theorem C51_status [GoUnicode] (s : Server) (r : Request) (e : RpcError) (h : Refused s r e) (ho : s.onError = none) :
    ((Response.of (serveHTTP s r).1).status = some 404 ∧ s.routes.lookup r.path = none) ∨
    ((Response.of (serveHTTP s r).1).status = some 405 ∧ r.method ≠ S "POST") ∨
    ((Response.of (serveHTTP s r).1).status = some 400 ∧ s.routes.lookup r.path ≠ none ∧ r.method = S "POST") := by
  have hr : ∀ e, reported s e = e := by intro e; unfold reported; rw [ho]
  have hs : ∀ cause, Sendable (reported s (e.withCause cause)).httpStatus := by
    intro cause; rw [hr]
    cases h
    · show Sendable 404; unfold Sendable; decide
    · show Sendable 405; unfold Sendable; decide
    · show Sendable 400; unfold Sendable; decide
    · show Sendable 400; unfold Sendable; decide
  obtain ⟨cause, ⟨hA, -⟩, -⟩ := C51_refused s r e h hs
  have := hA.status
  rw [hr] at this
  cases h with
  | path h => exact Or.inl ⟨this, h⟩
  | method m h1 h2 => exact Or.inr (Or.inl ⟨this, h2⟩)
  | contentType m h1 h2 h3 => exact Or.inr (Or.inr ⟨this, by simp [h1], h2⟩)
  | arguments m h1 h2 h3 => exact Or.inr (Or.inr ⟨this, by simp [h1.path], h1.post⟩)

/-- C51. If the request hook refuses a request, its error is the response and nothing is called. -/
theorem C51_hook [GoUnicode] (s : Server) (r : Request) (m : Method) (e : GoError) (h : For s r m)
    (hh : s.onRequest = some (.ok (some e))) (hs : Sendable (reported s e.toRpc).httpStatus) :
    AnswersError s (serveHTTP s r).1 e.toRpc ∧ calls (serveHTTP s r).1 = [] ∧ (serveHTTP s r).2 = .ok () := by
  obtain ⟨hook, q1, -⟩ := sendError_ok s _ hs
  have q2 : (sendErrorJSON s e.toRpc).2 = .ok () := by rw [q1]
  have hd : dispatch s r = ([.onRequest] ++ (sendErrorJSON s e.toRpc).1, (sendErrorJSON s e.toRpc).2) := by
    rw [dispatch_for h, hh]; rfl
  refine ⟨?_, ?_, ?_⟩
  · rw [serve_shape, hd]; dsimp only; rw [q2]
    exact answersError_of (pre := [.onRequest]) (by simp [Silent]) (by simp [Untouched]) hs
  · rw [calls_serve, hd]
    show calls (_ ++ _) = _
    rw [calls_append, calls_sendError]; rfl
  · rw [serve_shape, hd]; dsimp only; rw [q2]

/-- C51. Every request is either for a method whose hook does not let it through, or leads to a call, or is
refused. -/
theorem C51_cases [GoUnicode] (s : Server) (r : Request) :
    (∃ m args, Callable s r m args) ∨ (∃ e, Refused s r e) ∨ (∃ m, For s r m ∧ ¬ HookPasses s) := by
  by_cases hf : ∃ m, For s r m
  · obtain ⟨m, hf⟩ := hf
    by_cases hh : HookPasses s
    · by_cases ha : ∃ args, Arguments m r args
      · obtain ⟨args, ha⟩ := ha
        exact Or.inl ⟨m, args, hf, hh, ha⟩
      · exact Or.inr (Or.inl ⟨_, .arguments m hf hh ha⟩)
    · exact Or.inr (Or.inr ⟨m, hf, hh⟩)
  · refine Or.inr (Or.inl ?_)
    cases hl : s.routes.lookup r.path with
    | none => exact ⟨_, .path hl⟩
    | some m =>
      by_cases hp : r.method = S "POST"
      · exact ⟨_, .contentType m hl hp (fun hj => hf ⟨m, hl, hp, hj⟩)⟩
      · exact ⟨_, .method m hl hp⟩

/-! ## C54: panics -/

/-- C54. If the implementation panics, a server-panic error is sent (status 500 unless the error hook changes it), the
error hook sees it, and the panic goes on to the HTTP server. -/
theorem C54_panic [GoUnicode] (s : Server) (r : Request) (m : Method) (args : Json) (v : Str) (h : Callable s r m args)
    (hp : m.impl args = .panic v) (hs : Sendable (reported s (errServerPanic.withCause v)).httpStatus) :
    AnswersError s (serveHTTP s r).1 (errServerPanic.withCause v) ∧ (serveHTTP s r).2 = .panic v := by
  obtain ⟨h1, h2, h3⟩ := h
  obtain ⟨pre, p0, p1, -, p2⟩ := dispatch_passes h1 h2
  have hc : callImpl s m args = ([.call m.name args], .panic v) := by unfold callImpl Run.andThen; rw [hp]; rfl
  rw [serveMethod_args s m r h3, hc] at p2
  obtain ⟨hook, q1, -⟩ := sendError_ok s _ hs
  have q2 : (sendErrorJSON s (errServerPanic.withCause v)).2 = .ok () := by rw [q1]
  rw [serve_shape, p2]
  dsimp only
  rw [q2]
  refine ⟨?_, rfl⟩
  refine answersError_of (silent_append.2 ⟨p0, by simp [Silent]⟩) ?_ hs
  intro x hx
  rcases List.mem_append.1 hx with hx | hx
  · exact p1 x hx
  · rw [List.mem_singleton.1 hx]; trivial

/-- C54. The same if the request hook panics; the implementation is not called then. -/
theorem C54_hook_panic [GoUnicode] (s : Server) (r : Request) (m : Method) (v : Str) (h : For s r m)
    (hp : s.onRequest = some (.panic v)) (hs : Sendable (reported s (errServerPanic.withCause v)).httpStatus) :
    AnswersError s (serveHTTP s r).1 (errServerPanic.withCause v) ∧ (serveHTTP s r).2 = .panic v ∧
    calls (serveHTTP s r).1 = [] := by
  have hd : dispatch s r = ([.onRequest], .panic v) := by rw [dispatch_for h, hp]; rfl
  obtain ⟨hook, q1, -⟩ := sendError_ok s _ hs
  have q2 : (sendErrorJSON s (errServerPanic.withCause v)).2 = .ok () := by rw [q1]
  refine ⟨?_, ?_, ?_⟩
  · rw [serve_shape, hd]; dsimp only
    exact answersError_of (by simp [Silent]) (by simp [Untouched]) hs
  · rw [serve_shape, hd]; dsimp only; rw [q2]
  · rw [calls_serve, hd]; rfl

/-- C54. Without an error hook the status is 500 and the body is the server-panic error with the panic value. -/
theorem C54_status [GoUnicode] (s : Server) (r : Request) (m : Method) (args : Json) (v : Str) (h : Callable s r m args)
    (hp : m.impl args = .panic v) (ho : s.onError = none) :
    (Response.of (serveHTTP s r).1).status = some 500 ∧
    (Response.of (serveHTTP s r).1).body = print ⟨false, true⟩ 0 (RpcError.toJson ⟨S "WebrpcServerPanic", -6, S "server panic", v, 500⟩) := by
  have hr : reported s (errServerPanic.withCause v) = errServerPanic.withCause v := by unfold reported; rw [ho]
  obtain ⟨⟨hA, -⟩, -⟩ := C54_panic s r m args v h hp (by rw [hr]; show Sendable 500; unfold Sendable; decide)
  have h1 := hA.status
  have h2 := hA.body
  rw [hr] at h1 h2
  exact ⟨h1, h2⟩

/-! ## C52: errors -/

theorem atoi_int {i : Int} (h1 : -(2 ^ 63) ≤ i) (h2 : i < 2 ^ 63) : atoi (intText i) = some i := by
  unfold intText
  by_cases hi : i < 0
  · rw [if_pos hi]
    obtain ⟨hne, hd⟩ := numeral_digits i.natAbs
    have hv : decimal? 0 (Spec.numeral i.natAbs) = some i.natAbs := by
      rw [decimal_val _ 0 hd]
      exact congrArg some (decimalValue_repr _)
    unfold atoi
    rw [show unsigned ('-' :: Spec.numeral i.natAbs) = Spec.numeral i.natAbs from rfl, if_neg hne, hv]
    dsimp only
    rw [List.head?_cons, if_pos rfl, if_pos (by omega)]
    congr 1; omega
  · rw [if_neg hi, atoi_numeral (by unfold Spec.FitsInt; omega)]
    congr 1; omega

theorem ints_error (e : RpcError) : Nums e.toJson := by
  unfold RpcError.toJson
  rw [Nums, NumsMembers_iff]
  intro p hp
  by_cases hc : e.cause = []
  · simp only [hc, if_true, List.append_nil, List.cons_append, List.nil_append, List.mem_cons, List.not_mem_nil, or_false] at hp
    rcases hp with rfl | rfl | rfl | rfl <;> first | exact nums_ofStr _ _ | (simp only [Nums]; exact numText_int _)
  · simp only [if_neg hc, List.cons_append, List.nil_append, List.mem_cons, List.not_mem_nil, or_false] at hp
    rcases hp with rfl | rfl | rfl | rfl | rfl <;> first | exact nums_ofStr _ _ | (simp only [Nums]; exact numText_int _)

theorem ofJson_toJson (e : RpcError) (h : Representable e) : RpcError.ofJson e.toJson = some e := by
  obtain ⟨⟨c1, c2⟩, ⟨s1, s2⟩⟩ := h
  have f : ∀ k ∈ [S "error", S "code", S "msg", S "cause", S "status"],
      fieldFor [S "error", S "code", S "msg", S "cause", S "status"] k = some k := by
    intro k hk
    unfold fieldFor
    rw [if_pos (by simpa using hk)]
  have g1 : ∀ (x : RpcError) n, x.setMember (S "error") (.ofStr true n) = some { x with name := n } := by
    intro x n; unfold RpcError.setMember; rw [f _ (by simp)]; simp only [Json.ofStr, decStr, cook_escape]; rfl
  have g2 : ∀ (x : RpcError), x.setMember (S "code") (.num (intText e.code)) = some { x with code := e.code } := by
    intro x; unfold RpcError.setMember; rw [f _ (by simp)]
    dsimp only
    rw [if_neg (by decide), if_pos rfl]
    simp only [decInt, atoi_int c1 c2]; rfl
  have g3 : ∀ (x : RpcError) n, x.setMember (S "msg") (.ofStr true n) = some { x with message := n } := by
    intro x n; unfold RpcError.setMember; rw [f _ (by simp)]; simp only [Json.ofStr, decStr, cook_escape]; rfl
  have g4 : ∀ (x : RpcError) n, x.setMember (S "cause") (.ofStr true n) = some { x with cause := n } := by
    intro x n; unfold RpcError.setMember; rw [f _ (by simp)]; simp only [Json.ofStr, decStr, cook_escape]; rfl
  have g5 : ∀ (x : RpcError), x.setMember (S "status") (.num (intText e.httpStatus)) =
      some { x with httpStatus := e.httpStatus } := by
    intro x; unfold RpcError.setMember; rw [f _ (by simp)]
    dsimp only
    rw [if_neg (by decide), if_neg (by decide), if_neg (by decide), if_neg (by decide)]
    simp only [decInt, atoi_int s1 s2]; rfl
  unfold RpcError.toJson RpcError.ofJson
  by_cases hc : e.cause = []
  · rw [if_pos hc]
    simp only [List.append_nil, List.cons_append, List.nil_append, RpcError.setMembers, g1, g2, g3, g5]
    obtain ⟨n, c, m, ca, st⟩ := e
    dsimp only at hc
    subst hc
    rfl
  · rw [if_neg hc]
    simp only [List.cons_append, List.nil_append, RpcError.setMembers, g1, g2, g3, g4, g5]

/-- C52. A client that receives a response with another status than 200 and an error as body returns that error, with
the same name, code, message, cause and status. -/
theorem C52_client (cm : ClientMethod) (e : RpcError) (h : Representable e) (status : Int) (hs : status ≠ 200) :
    readResponse cm (.response status (some (print ⟨false, true⟩ 0 e.toJson))) = .error e := by
  unfold readResponse
  dsimp only
  rw [if_pos hs]
  have hp := parse_printed ⟨false, true⟩ e.toJson (ints_error e) [] (by simp)
  rw [List.append_nil] at hp
  rw [hp]
  show (match RpcError.ofJson e.toJson with | none => _ | some e => Returned.error e) = _
  rw [ofJson_toJson e h]

/-- The request a client sends. -/
def requestFor (path : Str) (args : Option Json) : Request :=
  { method := S "POST", path := path, contentType := S "application/json", body := some (requestBody args) }

theorem json_type [GoUnicode] : JsonType (S "application/json") := by
  refine ⟨[], S "application/json", [], [], by simp, by decide, Or.inl rfl, by simp [Blank], by simp [Blank], ?_⟩
  rfl

/-- The arguments `args` given to the client reach method `m` as `sent`. -/
def Delivers (s : Server) (path : Str) (m : Method) (args : Option Json) (sent : Json) : Prop :=
  s.routes.lookup path = some m ∧ HookPasses s ∧ Nums (args.getD .null) ∧
  if m.hasArgs then m.readArgs (args.getD .null) = some sent else sent = .null

theorem callable_of [GoUnicode] {s : Server} {path : Str} {m : Method} {args : Option Json} {sent : Json}
    (h : Delivers s path m args sent) : Callable s (requestFor path args) m sent := by
  obtain ⟨h1, h2, h3, h4⟩ := h
  refine ⟨⟨h1, rfl, json_type⟩, h2, ?_⟩
  unfold Arguments
  split
  · rename_i hm
    rw [if_pos hm] at h4
    have hp := parse_printed ⟨false, true⟩ (args.getD .null) h3 [] (by simp)
    rw [List.append_nil] at hp
    exact ⟨_, _, rfl, parse_iff.1 hp, h4⟩
  · rename_i hm
    rw [if_neg hm] at h4
    exact h4

/-- The effects when the implementation returns an error or a result that cannot be encoded. -/
theorem serve_error [GoUnicode] {s : Server} {r : Request} {m : Method} {args : Json} {e : RpcError}
    (h : Callable s r m args)
    (he : (∃ g, m.impl args = .error g ∧ g.toRpc = e) ∨
      (m.impl args = .result none ∧ m.hasResult = true ∧ e = errBadResponse.withCause (S "failed to marshal json response")))
    (hs : Sendable (reported s e).httpStatus) :
    AnswersError s (serveHTTP s r).1 e ∧ (serveHTTP s r).2 = .ok () := by
  obtain ⟨h1, h2, h3⟩ := h
  obtain ⟨pre, p0, p1, -, p2⟩ := dispatch_passes h1 h2
  have hc : callImpl s m args = ([.call m.name args] ++ (sendErrorJSON s e).1, (sendErrorJSON s e).2) := by
    unfold callImpl Run.andThen
    rcases he with ⟨g, hg, rfl⟩ | ⟨hg, hm, rfl⟩
    · rw [hg]
    · rw [hg]; dsimp only; rw [if_pos hm]
  rw [serveMethod_args s m r h3, hc] at p2
  obtain ⟨hook, q1, -⟩ := sendError_ok s _ hs
  have q2 : (sendErrorJSON s e).2 = .ok () := by rw [q1]
  rw [serve_shape, p2]
  dsimp only
  rw [q2]
  refine ⟨?_, rfl⟩
  rw [← List.append_assoc]
  refine answersError_of (silent_append.2 ⟨p0, by simp [Silent]⟩) ?_ hs
  intro x hx
  rcases List.mem_append.1 hx with hx | hx
  · exact p1 x hx
  · rw [List.mem_singleton.1 hx]; trivial

theorem callOver_eq [GoUnicode] (s : Server) (path : Str) (cm : ClientMethod) (args : Option Json) :
    callOver s path cm args = readResponse cm (.response ((Response.of (serveHTTP s (requestFor path args)).1).status.getD 200)
      (some (Response.of (serveHTTP s (requestFor path args)).1).body)) := rfl

theorem callOver_answer [GoUnicode] {s : Server} {path : Str} {cm : ClientMethod} {args : Option Json} {e : RpcError}
    (h : AnswersError s (serveHTTP s (requestFor path args)).1 e) (h200 : (reported s e).httpStatus ≠ 200)
    (hr : Representable (reported s e)) : callOver s path cm args = .error (reported s e) := by
  rw [callOver_eq, h.1.status, h.1.body]
  exact C52_client cm _ hr _ h200

/-- C52. An error returned by the implementation is returned by the client, with the same name, code, message, cause
and status, for every status with which a body can be sent other than 200. -/
theorem C52_round_trip [GoUnicode] (s : Server) (path : Str) (m : Method) (cm : ClientMethod) (args : Option Json) (sent : Json)
    (hd : Delivers s path m args sent) (e : RpcError) (he : m.impl sent = .error (.rpc e)) (ho : s.onError = none)
    (hs : Sendable e.httpStatus) (h200 : e.httpStatus ≠ 200) (hc : -(2 ^ 63) ≤ e.code ∧ e.code < 2 ^ 63) :
    callOver s path cm args = .error e := by
  have hr : reported s e = e := by unfold reported; rw [ho]
  have ha := serve_error (e := e) (callable_of hd) (Or.inl ⟨.rpc e, he, rfl⟩) (by rw [hr]; exact hs)
  have := callOver_answer (cm := cm) ha.1 (by rw [hr]; exact h200)
    (by rw [hr]; exact ⟨hc, by have := hs.1; have := hs.2.1; omega⟩)
  rw [this, hr]

/-- C52. An error that is no webrpc error becomes the endpoint error with its text as cause. -/
theorem C52_other_error [GoUnicode] (s : Server) (path : Str) (m : Method) (cm : ClientMethod) (args : Option Json) (sent : Json)
    (hd : Delivers s path m args sent) (text : Str) (he : m.impl sent = .error (.other text)) (ho : s.onError = none) :
    callOver s path cm args = .error ⟨S "WebrpcEndpoint", 0, S "endpoint error", text, 400⟩ := by
  have hr : ∀ e, reported s e = e := by intro e; unfold reported; rw [ho]
  have ha := serve_error (e := errEndpoint.withCause text) (callable_of hd) (Or.inl ⟨.other text, he, rfl⟩)
    (by rw [hr]; show Sendable 400; unfold Sendable; decide)
  have := callOver_answer (cm := cm) ha.1 (by rw [hr]; show (400 : Int) ≠ 200; decide)
    (by rw [hr]; show (_ ∧ _) ∧ (_ ∧ _); exact ⟨⟨by show -(2^63) ≤ (0 : Int); decide, by show (0 : Int) < 2 ^ 63; decide⟩,
      ⟨by show -(2^63) ≤ (400 : Int); decide, by show (400 : Int) < 2 ^ 63; decide⟩⟩)
  rw [this, hr]
  rfl

/-- The error values generated for a schema: the built-in ones and those it declares. -/
def errorValues (s : Schema.Schema) : List RpcError :=
  generatedErrors ++ s.errors.map fun e => ⟨e.name, e.code, e.message, [], e.httpStatus⟩

theorem generated_builtin : generatedErrors = webrpcErrors.map fun e => ⟨e.name, e.code, e.message, [], e.httpStatus⟩ := by
  decide +kernel

theorem pairwise_inj {α β : Type} {f : α → β} {l : List α} (h : (l.map f).Pairwise (· ≠ ·)) {a b : α} (ha : a ∈ l) (hb : b ∈ l)
    (he : f a = f b) : a = b := by
  induction l with
  | nil => simp at ha
  | cons x l ih =>
    rw [List.map_cons, List.pairwise_cons] at h
    rcases List.mem_cons.1 ha with rfl | ha' <;> rcases List.mem_cons.1 hb with rfl | hb'
    · rfl
    · exact absurd he (h.1 _ (List.mem_map.2 ⟨b, hb', rfl⟩))
    · exact absurd he.symm (h.1 _ (List.mem_map.2 ⟨a, ha', rfl⟩))
    · exact ih h.2 ha' hb'

/-- C52. `errors.Is` on the client identifies the error: an error value of the schema, with any cause, matches exactly
itself among the error values generated for a schema that validates. -/
theorem C52_is [GoUnicode] (s s' : Schema.Schema) (h : validate s = .ok s') (e t : RpcError)
    (he : e ∈ errorValues s') (ht : t ∈ errorValues s') (cause : Str) :
    (e.withCause cause).is t = true ↔ e = t := by
  have hv : errorValues s' = (webrpcErrors ++ s'.errors).map fun e => ⟨e.name, e.code, e.message, [], e.httpStatus⟩ := by
    unfold errorValues; rw [generated_builtin, List.map_append]
  have hp : ((errorValues s').map (·.code)).Pairwise (· ≠ ·) := by
    rw [hv, List.map_map]; exact (C45_all_distinct s s' h).1
  show decide (t.code = e.code) = true ↔ _
  rw [decide_eq_true_iff]
  exact ⟨fun hc => pairwise_inj hp he ht hc.symm, fun hc => by rw [hc]⟩

/-! ## C53: results -/

/-- C53. A result of the implementation that can be encoded is what the client returns. -/
theorem C53_result [GoUnicode] (s : Server) (path : Str) (m : Method) (cm : ClientMethod) (args : Option Json) (sent : Json)
    (hd : Delivers s path m args sent) (j k : Json) (he : m.impl sent = .result (some j)) (hi : Nums j)
    (hm : m.hasResult = true) (hc : cm.hasResult = true) (hk : cm.readResult j = some k) :
    callOver s path cm args = .ok k := by
  obtain ⟨h1, h2, h3⟩ := callable_of hd
  obtain ⟨pre, p0, p1, -, p2⟩ := dispatch_passes h1 h2
  have hcall : callImpl s m sent = ([.call m.name sent] ++ [.setHeader (S "Content-Type") (S "application/json"), .writeHeader 200,
            .write (print ⟨false, true⟩ 0 j)], .ok ()) := by
    unfold callImpl Run.andThen
    rw [he]; dsimp only; rw [if_pos hm]
  rw [serveMethod_args s m _ h3, hcall] at p2
  have ha : Answer s.header (serveHTTP s (requestFor path args)).1 200 j := by
    rw [serve_shape, p2]
    dsimp only
    rw [← List.append_assoc]
    refine answer_of (silent_append.2 ⟨p0, by simp [Silent]⟩) ?_ (by unfold Sendable; decide)
    intro x hx
    rcases List.mem_append.1 hx with hx | hx
    · exact p1 x hx
    · rw [List.mem_singleton.1 hx]; trivial
  rw [callOver_eq, ha.status, ha.body]
  unfold readResponse
  have hp := parse_printed ⟨false, true⟩ j hi [] (by simp)
  rw [List.append_nil] at hp
  simp only [Option.getD_some, ne_eq, not_true, if_false, hc, if_true, hp]
  show (match cm.readResult j with | none => _ | some j => Returned.ok j) = _
  rw [hk]

/-- C53. A method without results: the client returns no error. -/
theorem C53_no_result [GoUnicode] (s : Server) (path : Str) (m : Method) (cm : ClientMethod) (args : Option Json) (sent : Json)
    (hd : Delivers s path m args sent) (j : Option Json) (he : m.impl sent = .result j)
    (hm : m.hasResult = false) (hc : cm.hasResult = false) : callOver s path cm args = .ok .null := by
  obtain ⟨h1, h2, h3⟩ := callable_of hd
  obtain ⟨pre, p0, p1, -, p2⟩ := dispatch_passes h1 h2
  have hcall : callImpl s m sent = ([.call m.name sent] ++ [.setHeader (S "Content-Type") (S "application/json"), .writeHeader 200,
            .write (print ⟨false, true⟩ 0 (.obj []))], .ok ()) := by
    unfold callImpl Run.andThen
    rw [he]; dsimp only; rw [if_neg (by simp [hm])]
    rfl
  rw [serveMethod_args s m _ h3, hcall] at p2
  have ha : Answer s.header (serveHTTP s (requestFor path args)).1 200 (.obj []) := by
    rw [serve_shape, p2]
    dsimp only
    rw [← List.append_assoc]
    refine answer_of (silent_append.2 ⟨p0, by simp [Silent]⟩) ?_ (by unfold Sendable; decide)
    intro x hx
    rcases List.mem_append.1 hx with hx | hx
    · exact p1 x hx
    · rw [List.mem_singleton.1 hx]; trivial
  rw [callOver_eq, ha.status, ha.body]
  unfold readResponse
  simp [hc]

/-- The status the implementation's error is reported with, if it returns one. -/
def ErrorStatusOk (s : Server) : Outcome → Prop
  | .error e => Sendable (reported s e.toRpc).httpStatus ∧ (reported s e.toRpc).httpStatus ≠ 200 ∧
      Representable (reported s e.toRpc)
  | .result none => ∀ e, e = errBadResponse.withCause (S "failed to marshal json response") →
      Sendable (reported s e).httpStatus ∧ (reported s e).httpStatus ≠ 200 ∧ Representable (reported s e)
  | .result (some _) => True
  | .panic v => Sendable (reported s (errServerPanic.withCause v)).httpStatus ∧
      (reported s (errServerPanic.withCause v)).httpStatus ≠ 200 ∧ Representable (reported s (errServerPanic.withCause v))

/-- C53, except for errors whose status is 200 or cannot be sent with a body: the client returns a value exactly if the
implementation returned one that can be encoded and read back; it is the same value. -/
theorem C53_value_iff_partial [GoUnicode] (s : Server) (path : Str) (m : Method) (cm : ClientMethod) (args : Option Json)
    (sent : Json) (hd : Delivers s path m args sent) (hm : m.hasResult = true) (hc : cm.hasResult = true)
    (hi : ∀ j, m.impl sent = .result (some j) → Nums j) (hs : ErrorStatusOk s (m.impl sent)) (k : Json) :
    callOver s path cm args = .ok k ↔ ∃ j, m.impl sent = .result (some j) ∧ cm.readResult j = some k := by
  constructor
  · intro h
    cases ho : m.impl sent with
    | panic v =>
      rw [ho] at hs
      have := callOver_answer (cm := cm) (C54_panic s _ m sent v (callable_of hd) ho hs.1).1 hs.2.1 hs.2.2
      rw [h] at this; cases this
    | error e =>
      rw [ho] at hs
      have := callOver_answer (cm := cm) (serve_error (callable_of hd) (Or.inl ⟨e, ho, rfl⟩) hs.1).1 hs.2.1 hs.2.2
      rw [h] at this; cases this
    | result j =>
      cases j with
      | none =>
        rw [ho] at hs
        obtain ⟨s1, s2, s3⟩ := hs _ rfl
        have := callOver_answer (cm := cm) (serve_error (callable_of hd) (Or.inr ⟨ho, hm, rfl⟩) s1).1 s2 s3
        rw [h] at this; cases this
      | some j =>
        refine ⟨j, rfl, ?_⟩
        cases hk : cm.readResult j with
        | some k' =>
          have := C53_result s path m cm args sent hd j k' ho (hi j ho) hm hc hk
          rw [h] at this; cases this; rfl
        | none =>
          exfalso
          have hid := C53_result s path m ⟨true, fun _ => some .null⟩ args sent hd j .null ho (hi j ho) hm rfl rfl
          have hb : callOver s path cm args = .error (errBadResponse.withCause (S "failed to unmarshal JSON response body")) := by
            obtain ⟨h1, h2, h3⟩ := callable_of hd
            obtain ⟨pre, p0, p1, -, p2⟩ := dispatch_passes h1 h2
            have hcall : callImpl s m sent = ([.call m.name sent] ++ [.setHeader (S "Content-Type") (S "application/json"),
                .writeHeader 200, .write (print ⟨false, true⟩ 0 j)], .ok ()) := by
              unfold callImpl Run.andThen
              rw [ho]; dsimp only; rw [if_pos hm]
            rw [serveMethod_args s m _ h3, hcall] at p2
            have ha : Answer s.header (serveHTTP s (requestFor path args)).1 200 j := by
              rw [serve_shape, p2]
              dsimp only
              rw [← List.append_assoc]
              refine answer_of (silent_append.2 ⟨p0, by simp [Silent]⟩) ?_ (by unfold Sendable; decide)
              intro x hx
              rcases List.mem_append.1 hx with hx | hx
              · exact p1 x hx
              · rw [List.mem_singleton.1 hx]; trivial
            rw [callOver_eq, ha.status, ha.body]
            unfold readResponse
            have hp := parse_printed ⟨false, true⟩ j (hi j ho) [] (by simp)
            rw [List.append_nil] at hp
            simp only [Option.getD_some, ne_eq, not_true, if_false, hc, if_true, hp]
            show (match cm.readResult j with | none => _ | some j => Returned.ok j) = _
            rw [hk]
          rw [h] at hb; cases hb
  · rintro ⟨j, h1, h2⟩
    exact C53_result s path m cm args sent hd j k h1 (hi j h1) hm hc h2

/-! ### Examples -/

section Examples

/-- A server with one method that answers with the outcome `o` and takes arguments. -/
def demo (o : Outcome) : Server :=
  { routes := [(S "/rpc/Demo/Get", { name := S "Get", hasArgs := true, hasResult := true, readArgs := some, impl := fun _ => o })],
    onRequest := none, onError := none, header := S "webrpc@v1;gen@v2;demo@v3" }

/-- The client for it. -/
def demoClient : ClientMethod := ⟨true, some⟩

/-- What the client returns, for comparison. -/
def outText : Returned → Str ⊕ RpcError
  | .ok j => .inl (print ⟨false, true⟩ 0 j)
  | .error e => .inr e

/-- A request that leads to a call. -/
example [GoUnicode] : ∃ m, Callable (demo (.result none)) (requestFor (S "/rpc/Demo/Get") (some (.obj []))) m (.obj []) :=
  ⟨_, callable_of ⟨rfl, Or.inl rfl, by simp [Nums, NumsMembers], rfl⟩⟩

/-- An unknown path, a wrong method, a wrong content type and an undecodable body are refused. -/
example [GoUnicode] : Refused (demo (.result none)) { requestFor (S "/nowhere") none with method := S "GET" } errBadRoute :=
  .path rfl
example [GoUnicode] : Refused (demo (.result none)) { requestFor (S "/rpc/Demo/Get") none with method := S "GET" } errBadMethod :=
  .method _ rfl (by decide)
example [GoUnicode] : Refused (demo (.result none)) { requestFor (S "/rpc/Demo/Get") none with body := some (S "{") } errBadRequest :=
  .arguments _ ⟨rfl, rfl, json_type⟩ (Or.inl rfl) (by
    rintro ⟨args, h⟩
    unfold Arguments at h
    obtain ⟨body, j, h1, h2, -⟩ := h
    cases h1
    have h2 := parse_iff.2 h2
    rw [show parse (S "{") = none from rfl] at h2
    cases h2)

/-- C53 is false of the code without the condition on statuses: an error with status 200 is taken for a result (here
the client reads the error document as the result), as is one with an informational status. -/
theorem C53_status_200 :
    (let _ := asciiOnly
     outText (callOver (demo (.error (.rpc ⟨S "Boom", 7, S "boom", [], 200⟩))) (S "/rpc/Demo/Get") demoClient (some (.obj [])))) =
      .inl (S "{\"error\":\"Boom\",\"code\":7,\"msg\":\"boom\",\"status\":200}") ∧
    (let _ := asciiOnly
     outText (callOver (demo (.error (.rpc ⟨S "Boom", 7, S "boom", [], 102⟩))) (S "/rpc/Demo/Get") demoClient (some (.obj [])))) =
      .inl (S "{\"error\":\"Boom\",\"code\":7,\"msg\":\"boom\",\"status\":102}") := by
  decide +kernel

/-- An error with status 418 comes back as it was. -/
example :
    (let _ := asciiOnly
     outText (callOver (demo (.error (.rpc ⟨S "Boom", 7, S "boom <x>", S "why", 418⟩))) (S "/rpc/Demo/Get") demoClient (some (.obj [])))) =
      .inr ⟨S "Boom", 7, S "boom <x>", S "why", 418⟩ := by
  decide +kernel

/-- A panic. -/
example :
    (let _ := asciiOnly
     outText (callOver (demo (.panic (S "oops"))) (S "/rpc/Demo/Get") demoClient (some (.obj [])))) =
      .inr ⟨S "WebrpcServerPanic", -6, S "server panic", S "oops", 500⟩ := by
  decide +kernel

/-- A result. -/
example :
    (let _ := asciiOnly
     outText (callOver (demo (.result (some (.arr [.num (S "1"), .str (S "x")])))) (S "/rpc/Demo/Get") demoClient (some (.obj [])))) =
      .inl (S "[1,\"x\"]") := by
  decide +kernel

/-- Content types. -/
example : (let _ := asciiOnly; JsonType (S " Application/JSON ; charset=utf-8")) :=
  let _ := asciiOnly; (mediaType_iff _).1 (by decide +kernel)
example : ¬ (let _ := asciiOnly; JsonType (S "text/json")) :=
  let _ := asciiOnly; fun h => absurd ((mediaType_iff _).2 h) (by decide +kernel)

end Examples

end Verif.Props
