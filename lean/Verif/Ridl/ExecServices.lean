import Verif.Ridl.ExecStructs
/-! # Running the parser over services -/

namespace Verif.Ridl
open Verif.Spec

/-! ### Arguments -/

def paramsToks : List Param → List (TT × Str)
  | [] => []
  | [p] => paramToks p.name p.optional p.type
  | p :: q :: r => paramToks p.name p.optional p.type ++ (.comma, [',']) :: (.whitespace, [' ']) :: paramsToks (q :: r)

def argToks : Params → List (TT × Str)
  | .list ps => (.openParen, ['(']) :: (paramsToks ps ++ [(.closeParen, [')'])])
  | .whole n => [(.openParen, ['(']), (.word, n), (.closeParen, [')'])]

/-- What is left of the tokens behind an argument list. -/
def argRest : Params → List Shape → List Shape
  | .list _, es => es
  | .whole _, es => es.tail

theorem param_solid {p : Param} (hp : IsWord p.name) (post : Str) : Solid (p.text ++ post) := by
  unfold Param.text
  simp only [List.append_assoc]
  exact solid_word hp

theorem piece_params {ps : List Param} (h : ∀ p ∈ ps, IsWord p.name ∧ p.type.Writable) {post : Str} (hp : Ends post) :
    Piece (join ", ".toList (ps.map Param.text)) (paramsToks ps) post := by
  induction ps with
  | nil => exact piece_nil _
  | cons p ps ih =>
    have h1 := h p (by simp)
    have ih := ih fun x hx => h x (by simp [hx])
    cases ps with
    | nil => exact piece_param h1.1 h1.2 hp
    | cons q r =>
      have h2 := h q (by simp)
      have e : join ", ".toList ((p :: q :: r).map Param.text) = p.text ++ (',' :: ' ' :: join ", ".toList ((q :: r).map Param.text)) := by
        show p.text ++ ", ".toList ++ join ", ".toList ((q :: r).map Param.text) = _
        rw [show ", ".toList = [',', ' '] from rfl]; simp
      rw [e]
      refine piece_append (piece_param h1.1 h1.2 (ends_cons (wordEnd_of (by decide)))) ?_
      refine piece_s rfl (by decide) (by decide) (piece_1 ?_ ih)
      cases r with
      | nil => exact param_solid h2.1 _
      | cons s r =>
        show Solid (q.text ++ ", ".toList ++ join ", ".toList ((s :: r).map Param.text) ++ post)
        simp only [List.append_assoc]
        exact param_solid h2.1 _

theorem piece_args {a : Params} (h : a.Ok) (post : Str) : Piece a.text (argToks a) post := by
  cases a with
  | list ps =>
    show Piece (['('] ++ join ", ".toList (ps.map Param.text) ++ [')']) _ _
    rw [List.append_assoc]
    show Piece ('(' :: (join ", ".toList (ps.map Param.text) ++ [')'])) _ _
    refine piece_s rfl (by decide) (by decide) ?_
    exact piece_append (piece_params h (ends_cons (wordEnd_of (by decide)))) (piece_s rfl (by decide) (by decide) (piece_nil _))
  | whole n =>
    show Piece (['('] ++ n ++ [')']) _ _
    rw [List.append_assoc]
    show Piece ('(' :: (n ++ [')'])) _ _
    refine piece_s rfl (by decide) (by decide) ?_
    exact piece_w h (ends_cons (wordEnd_of (by decide))) (piece_s rfl (by decide) (by decide) (piece_nil _))

/-- One round of `argumentLoop`. -/
def argBody (values : List ArgNode) : P (List ArgNode ⊕ List ArgNode) := do
  let tok ← cursor
  match tok.tt with
  | .whitespace =>
    let _ ← advance
    pure (.inl values)
  | .closeParen =>
    let _ ← advance
    pure (.inr values)
  | .comma =>
    let _ ← advance
    pure (.inl values)
  | .bar =>
    let _ ← advance
    pure (.inl values)
  | .word =>
    let r ← attempt (match_ [.word, .closeParen])
    match r with
    | .ok ms =>
      let m0 ← nth ms 0
      let _ ← advance
      pure (.inr (values ++ [{ inlineStruct := some m0 }]))
    | .error _ =>
      let r ← attempt (match_ [.word, .questionMark, .colon, .whitespace])
      match r with
      | .ok ms =>
        let m0 ← nth ms 0
        let t ← expectType
        pure (.inl (values ++ [{ name := some m0, argType := some t, optional := true }]))
      | .error _ =>
        let ms ← match_ [.word, .colon, .whitespace]
        let m0 ← nth ms 0
        let t ← expectType
        pure (.inl (values ++ [{ name := some m0, argType := some t, optional := false }]))
  | _ => fail .unexpectedToken

theorem argumentLoop_eq : argumentLoop = loop argBody [] := rfl

def Param.entry (p : Param) : ArgEntry := .one (some p.name) (some p.type.text) p.optional

theorem ex_argBody {p : Param} (hp : IsWord p.name ∧ p.type.Writable) {acc : List ArgNode} {l : Nat} {e : Shape} {es : List Shape} {cm : Comments} (he : TypeEnd e.1) :
    Ex (argBody acc) (lift l (paramToks p.name p.optional p.type) ++ e :: es) cm
      fun r es' cm' => ∃ a : ArgNode, r = .inl (acc ++ [a]) ∧ a.entry = Param.entry p ∧ es' = e :: es ∧ cm' = cm := by
  unfold argBody paramToks
  simp only [lift_cons, List.cons_append]
  refine ex_cursor fun p0 c0 => ?_
  dsimp only
  cases ho : p.optional with
  | true =>
    simp only [if_true, List.singleton_append, lift_cons, List.cons_append]
    refine ex_try_fail (by simp [matchShape]) (by decide) (by decide) fun _ => ?_
    dsimp only
    refine ex_try (vs := [(.word, p.name, l), (.questionMark, ['?'], l), (.colon, [':'], l), (.whitespace, [' '], l)])
      (es' := lift l (tyToks p.type) ++ e :: es) rfl (by decide) ?_
    intro vs hvs
    refine ex_nth hvs rfl fun p1 c1 => ?_
    refine ex_then (ex_type p.type (writable_ok hp.2) he) ?_
    rintro t _ _ ⟨t1, t2, rfl, rfl⟩
    exact ex_pure ⟨_, rfl, by simp [ArgNode.entry, Param.entry, t1, ho], rfl, rfl⟩
  | false =>
    simp only [Bool.false_eq_true, if_false, List.nil_append, lift_cons, List.cons_append]
    refine ex_try_fail (by simp [matchShape]) (by decide) (by decide) fun _ => ?_
    dsimp only
    refine ex_try_fail (by simp [matchShape]) (by decide) (by decide) fun _ => ?_
    dsimp only
    refine ex_match (vs := [(.word, p.name, l), (.colon, [':'], l), (.whitespace, [' '], l)])
      (es' := lift l (tyToks p.type) ++ e :: es) rfl (by decide) ?_
    intro vs hvs
    refine ex_nth hvs rfl fun p1 c1 => ?_
    refine ex_then (ex_type p.type (writable_ok hp.2) he) ?_
    rintro t _ _ ⟨t1, t2, rfl, rfl⟩
    exact ex_pure ⟨_, rfl, by simp [ArgNode.entry, Param.entry, t1, ho], rfl, rfl⟩

theorem ex_argLoop {ps : List Param} (h : ∀ p ∈ ps, IsWord p.name ∧ p.type.Writable) {acc : List ArgNode} {l : Nat} {es : List Shape} {cm : Comments} :
    Ex (loop argBody acc) (lift l (paramsToks ps) ++ (.closeParen, [')'], l) :: es) cm
      fun r es' cm' => ∃ as : List ArgNode, r = acc ++ as ∧ as.map ArgNode.entry = ps.map Param.entry ∧ es' = es ∧ cm' = cm := by
  have close : ∀ {acc : List ArgNode}, Ex (loop argBody acc) ((.closeParen, [')'], l) :: es) cm fun r es' cm' => r = acc ∧ es' = es ∧ cm' = cm := by
    intro acc
    refine ex_loop ?_
    rw [argBody]
    refine ex_cursor fun p0 c0 => ?_
    exact ex_advance (ex_pure ⟨rfl, rfl, rfl⟩)
  induction ps generalizing acc with
  | nil =>
    refine close.mono ?_
    rintro r _ _ ⟨rfl, rfl, rfl⟩
    exact ⟨[], by simp, rfl, rfl, rfl⟩
  | cons p ps ih =>
    have h1 := h p (by simp)
    have ih := fun acc => ih (fun x hx => h x (by simp [hx])) (acc := acc)
    refine ex_loop ?_
    cases ps with
    | nil =>
      refine (ex_argBody h1 (by simp [TypeEnd])).mono ?_
      rintro r _ _ ⟨a, rfl, ha, rfl, rfl⟩
      refine ⟨by simp [paramsToks, paramToks, lift]; omega, ?_⟩
      refine close.mono ?_
      rintro r _ _ ⟨rfl, rfl, rfl⟩
      exact ⟨[a], rfl, by simp [ha], rfl, rfl⟩
    | cons q r =>
      simp only [paramsToks, lift_append, List.append_assoc, lift_cons, List.cons_append]
      refine (ex_argBody h1 (by simp [TypeEnd])).mono ?_
      rintro s _ _ ⟨a, rfl, ha, rfl, rfl⟩
      refine ⟨by simp [paramToks, lift]; omega, ?_⟩
      refine ex_loop ?_
      rw [argBody]
      refine ex_cursor fun p0 c0 => ?_
      refine ex_advance (ex_pure ⟨by simp, ?_⟩)
      refine ex_loop ?_
      rw [argBody]
      refine ex_cursor fun p0 c0 => ?_
      refine ex_advance (ex_pure ⟨by simp, ?_⟩)
      refine (ih (acc ++ [a])).mono ?_
      rintro s _ _ ⟨as, rfl, has, rfl, rfl⟩
      exact ⟨a :: as, by simp, by simp [ha, has], rfl, rfl⟩

theorem ex_args {a : Params} (h : a.Ok) {l : Nat} {e : Shape} {es : List Shape} {cm : Comments} :
    Ex expectArgumentList (lift l (argToks a) ++ e :: es) cm
      fun as es' cm' => as.map ArgNode.entry = a.entries ∧ es' = argRest a (e :: es) ∧ cm' = cm := by
  unfold expectArgumentList
  refine ex_then (R := fun _ es' cm' => es' = lift l (argToks a) ++ e :: es ∧ cm' = cm) ?_ ?_
  · unfold optStream
    cases a with
    | list ps => exact ex_try_fail (by simp [argToks, matchShape]) (by decide) (by decide) fun _ => ex_pure ⟨rfl, rfl⟩
    | whole n => exact ex_try_fail (by simp [argToks, matchShape]) (by decide) (by decide) fun _ => ex_pure ⟨rfl, rfl⟩
  rintro _ _ _ ⟨rfl, rfl⟩
  rw [argumentLoop_eq]
  cases a with
  | list ps =>
    refine ex_match (vs := [(.openParen, ['('], l)]) (es' := lift l (paramsToks ps) ++ (.closeParen, [')'], l) :: e :: es) (by simp [argToks, matchShape]) (by decide) ?_
    intro _ _
    refine (ex_argLoop h).mono ?_
    rintro r _ _ ⟨as, rfl, has, rfl, rfl⟩
    refine ⟨?_, rfl, rfl⟩
    rw [has]; rfl
  | whole n =>
    refine ex_match (vs := [(.openParen, ['('], l)]) (es' := (.word, n, l) :: (.closeParen, [')'], l) :: e :: es) rfl (by decide) ?_
    intro _ _
    refine ex_loop ?_
    rw [argBody]
    refine ex_cursor fun p0 c0 => ?_
    dsimp only
    refine ex_try (vs := [(.word, n, l), (.closeParen, [')'], l)]) (es' := e :: es) rfl (by decide) ?_
    intro vs hvs
    refine ex_nth hvs rfl fun p1 c1 => ?_
    exact ex_advance (ex_pure ⟨rfl, rfl, rfl⟩)

end Verif.Ridl
