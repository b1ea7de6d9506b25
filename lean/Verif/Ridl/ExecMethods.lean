import Verif.Ridl.ExecServices
/-! # Running the parser over method signatures -/

namespace Verif.Ridl
open Verif.Spec

def outToks : Option (Bool × Params) → List (TT × Str)
  | none => []
  | some (s, ps) => (.whitespace, [' ']) :: (.rocket, ['=', '>']) :: (.whitespace, [' ']) ::
    ((if s then [(.word, "stream".toList), (.whitespace, [' '])] else []) ++ argToks ps)

/-- ` | <name>` for each further error. -/
def moreToks : List Str → List (TT × Str)
  | [] => []
  | e :: r => (.whitespace, [' ']) :: (.bar, ['|']) :: (.whitespace, [' ']) :: (.word, e) :: moreToks r

def errToks : List Str → List (TT × Str)
  | [] => []
  | e :: r => (.whitespace, [' ']) :: (.word, "errors".toList) :: (.whitespace, [' ']) :: (.word, e) :: moreToks r

def sigToks (m : MethodDecl) : List (TT × Str) :=
  match m.sig with
  | none => [(.word, "proxy".toList), (.whitespace, [' ']), (.word, m.name)]
  | some s => (if s.streamIn then [(.word, "stream".toList), (.whitespace, [' '])] else []) ++ ((.word, m.name) :: (argToks s.inputs ++ (outToks s.output ++ errToks s.errors)))

theorem word_chars {c : Char} {cs : Str} (h : WordStart c ∧ ∀ x ∈ cs, ¬ WordEnd x) : IsWord (c :: cs) := ⟨c, cs, rfl, h⟩

theorem stream_word : IsWord "stream".toList := by
  apply word_chars (c := 's') (cs := "tream".toList); unfold WordStart WordEnd; decide +kernel
theorem proxy_word : IsWord "proxy".toList := by
  apply word_chars (c := 'p') (cs := "roxy".toList); unfold WordStart WordEnd; decide +kernel
theorem errors_word : IsWord "errors".toList := by
  apply word_chars (c := 'e') (cs := "rrors".toList); unfold WordStart WordEnd; decide +kernel

theorem args_solid (a : Params) (post : Str) : Solid (a.text ++ post) := by
  cases a with
  | list ps => exact solid_cons (c := '(') (by unfold Blank; decide)
  | whole n => exact solid_cons (c := '(') (by unfold Blank; decide)

theorem piece_out {o : Option (Bool × Params)} (h : ∀ x, o = some x → x.2.Ok) (post : Str) : Piece (outputText o) (outToks o) post := by
  cases o with
  | none => exact piece_nil _
  | some x =>
    obtain ⟨s, ps⟩ := x
    have hp := piece_args (h _ rfl) post
    show Piece (" => ".toList ++ (if s then "stream ".toList else []) ++ ps.text) _ _
    rw [show " => ".toList = [' ', '=', '>', ' '] from rfl, List.append_assoc]
    refine piece_1 (solid_cons (by unfold Blank; decide)) (piece_rocket ?_)
    cases s with
    | false => exact piece_1 (args_solid _ _) hp
    | true =>
      show Piece (' ' :: ("stream".toList ++ (' ' :: ps.text))) _ _
      refine piece_1 (solid_cons (c := 's') (by unfold Blank; decide)) ?_
      exact piece_w stream_word (ends_cons (wordEnd_of (by decide))) (piece_1 (args_solid _ _) hp)

theorem piece_more {e : Str} {r : List Str} (h : ∀ x ∈ e :: r, IsWord x) {post : Str} (hp : Ends post) : Piece (join " | ".toList (e :: r)) ((.word, e) :: moreToks r) post := by
  induction r generalizing e with
  | nil => exact piece_word (h e (by simp)) hp
  | cons f r ih =>
    have := ih (e := f) (fun x hx => h x (List.mem_cons_of_mem e hx))
    have e' : join " | ".toList (e :: f :: r) = e ++ (' ' :: '|' :: ' ' :: join " | ".toList (f :: r)) := by
      show e ++ " | ".toList ++ join " | ".toList (f :: r) = _
      rw [show " | ".toList = [' ', '|', ' '] from rfl]; simp
    rw [e']
    refine piece_w (h e (by simp)) (ends_cons (wordEnd_of (by decide))) ?_
    refine piece_1 (solid_cons (by unfold Blank; decide)) (piece_s rfl (by decide) (by decide) (piece_1 ?_ this))
    have hf := h f (by simp)
    cases r with
    | nil => exact solid_word hf
    | cons g r =>
      show Solid (f ++ " | ".toList ++ join " | ".toList (g :: r) ++ post)
      simp only [List.append_assoc]
      exact solid_word hf

theorem piece_errors {es : List Str} (h : ∀ e ∈ es, IsWord e) {post : Str} (hp : Ends post) : Piece (errorsText es) (errToks es) post := by
  cases es with
  | nil => exact piece_nil _
  | cons e r =>
    have := piece_more h hp
    show Piece (if e :: r = [] then [] else " errors ".toList ++ join " | ".toList (e :: r)) _ _
    rw [if_neg (by simp)]
    show Piece (' ' :: ("errors".toList ++ (' ' :: join " | ".toList (e :: r)))) _ _
    refine piece_1 (solid_cons (c := 'e') (by unfold Blank; decide)) (piece_w errors_word (ends_cons (wordEnd_of (by decide))) (piece_1 ?_ this))
    have hf := h e (by simp)
    cases r with
    | nil => exact solid_word hf
    | cons g r =>
      show Solid (e ++ " | ".toList ++ join " | ".toList (g :: r) ++ post)
      simp only [List.append_assoc]
      exact solid_word hf

theorem errors_ends (es : List Str) : Ends (errorsText es ++ ['\n']) := by
  cases es with
  | nil => exact ends_nl
  | cons e r =>
    show Ends ((if e :: r = [] then [] else " errors ".toList ++ join " | ".toList (e :: r)) ++ ['\n'])
    rw [if_neg (by simp)]
    exact ends_cons (c := ' ') (wordEnd_of (by decide))

theorem sig_solid {m : MethodDecl} (hn : IsWord m.name) (post : Str) : Solid (m.signatureText ++ post) := by
  unfold MethodDecl.signatureText
  cases m.sig with
  | none => exact solid_cons (c := 'p') (by unfold Blank; decide)
  | some s =>
    dsimp only
    cases s.streamIn with
    | true => exact solid_cons (c := 's') (by unfold Blank; decide)
    | false =>
      simp only [Bool.false_eq_true, if_false, List.nil_append, List.append_assoc]
      exact solid_word hn

theorem args_ends (a : Params) (post : Str) : Ends (a.text ++ post) := by
  cases a with
  | list ps => exact ends_cons (c := '(') (wordEnd_of (by decide))
  | whole n => exact ends_cons (c := '(') (wordEnd_of (by decide))

theorem piece_sig {m : MethodDecl} (hn : IsWord m.name) (hs : ∀ s, m.sig = some s → s.Ok) : Piece m.signatureText (sigToks m) ['\n'] := by
  unfold MethodDecl.signatureText sigToks
  cases h : m.sig with
  | none =>
    show Piece ("proxy".toList ++ (' ' :: m.name)) _ _
    exact piece_w proxy_word (ends_cons (wordEnd_of (by decide))) (piece_1 (solid_word hn) (piece_word hn ends_nl))
  | some s =>
    obtain ⟨h1, h2, h3⟩ := hs s h
    have tail : Piece (m.name ++ (s.inputs.text ++ (outputText s.output ++ errorsText s.errors))) ((.word, m.name) :: (argToks s.inputs ++ (outToks s.output ++ errToks s.errors))) ['\n'] := by
      refine piece_w hn ?_ (piece_append (piece_args h1 _) (piece_append (piece_out h2 _) (piece_errors h3 ends_nl)))
      rw [List.append_assoc]
      exact args_ends _ _
    have e : m.name ++ s.inputs.text ++ outputText s.output ++ errorsText s.errors = m.name ++ (s.inputs.text ++ (outputText s.output ++ errorsText s.errors)) := by simp
    dsimp only
    cases s.streamIn with
    | false =>
      simp only [Bool.false_eq_true, if_false, List.nil_append]
      rw [e]; exact tail
    | true =>
      simp only [if_true, List.append_assoc]
      show Piece ("stream".toList ++ (' ' :: (m.name ++ (s.inputs.text ++ (outputText s.output ++ errorsText s.errors))))) _ _
      refine piece_w stream_word (ends_cons (wordEnd_of (by decide))) (piece_1 ?_ tail)
      rw [List.append_assoc]; exact solid_word hn

/-! ### Execution -/

/-- The parser may have lost the token before it. -/
def Off (a b : List Shape) : Prop := a = b ∨ a = b.tail

theorem off_args {a : Params} {es : List Shape} : Off (argRest a es) es := by
  cases a
  · exact .inl rfl
  · exact .inr rfl

theorem off_quiet {a es : List Shape} {v : Str} {l : Nat} (hq : Quiet es) (h : Off a ((.newLine, v, l) :: es)) (pat : List TT)
    (hp : pat = [.whitespace, .rocket, .whitespace] ∨ pat = [.whitespace, .word]) : matchShape pat a = none := by
  rcases h with rfl | rfl
  · rcases hp with rfl | rfl <;> rfl
  · rcases hq with ⟨v, k, es', rfl⟩ | ⟨v, k, tt, w, k', es', rfl, ht⟩
    · rcases hp with rfl | rfl <;> rfl
    · rcases ht with rfl | rfl | rfl | rfl <;> rcases hp with rfl | rfl <;> rfl

def outStream : Option (Bool × Params) → Bool
  | none => false
  | some x => x.1

def outEntries : Option (Bool × Params) → List ArgEntry
  | none => []
  | some x => x.2.entries

theorem ex_outputs {o : Option (Bool × Params)} (ho : ∀ x, o = some x → x.2.Ok) {errs : List Str} {l : Nat} {a es : List Shape} {cm : Comments} (hq : Quiet es)
    (ha : Off a (lift l (outToks o ++ errToks errs) ++ (.newLine, ['\n'], l) :: es)) {mn : MethodNode} (hm : mn.streamOutput = false ∧ mn.outputs = []) :
    Ex (methodOutputs mn) a cm fun mn' es' cm' =>
      (∃ outs : List ArgNode, mn' = { mn with streamOutput := outStream o, outputs := outs } ∧
        outs.map ArgNode.entry = outEntries o) ∧
      Off es' (lift l (errToks errs) ++ (.newLine, ['\n'], l) :: es) ∧ cm' = cm := by
  unfold methodOutputs
  cases o with
  | none =>
    simp only [outToks, List.nil_append] at ha
    refine ex_try_fail ?_ (by decide) (by decide) fun _ => ex_pure ⟨⟨[], ?_, rfl⟩, ha, rfl⟩
    · cases errs with
      | nil => exact off_quiet hq ha _ (.inl rfl)
      | cons e r => rcases ha with rfl | rfl <;> rfl
    · show mn = { mn with streamOutput := false, outputs := [] }
      rw [← hm.1, ← hm.2]
  | some x =>
    obtain ⟨s, ps⟩ := x
    have hps := ho _ rfl
    have next : Ex (do
        let streamOutput ← outputStream
        let outs ← expectArgumentList
        pure { mn with streamOutput := streamOutput, outputs := outs }) (lift l ((if s then [(.word, "stream".toList), (.whitespace, [' '])] else []) ++ (argToks ps ++ errToks errs)) ++ (.newLine, ['\n'], l) :: es) cm
        fun mn' es' cm' => (∃ outs : List ArgNode, mn' = { mn with streamOutput := s, outputs := outs } ∧ outs.map ArgNode.entry = ps.entries) ∧
          Off es' (lift l (errToks errs) ++ (.newLine, ['\n'], l) :: es) ∧ cm' = cm := by
      have hcons : ∃ e es1, lift l (errToks errs) ++ (.newLine, ['\n'], l) :: es = e :: es1 := by
        cases errs with
        | nil => exact ⟨_, _, rfl⟩
        | cons e r => exact ⟨_, _, rfl⟩
      obtain ⟨e1, es1, he1⟩ := hcons
      refine ex_then (R := fun b es' cm' => b = s ∧ es' = lift l (argToks ps ++ errToks errs) ++ (.newLine, ['\n'], l) :: es ∧ cm' = cm) ?_ ?_
      · unfold outputStream
        cases s with
        | false =>
          simp only [Bool.false_eq_true, if_false, List.nil_append]
          refine ex_try_fail ?_ (by decide) (by decide) fun _ => ex_pure ⟨rfl, rfl, rfl⟩
          cases ps <;> rfl
        | true =>
          refine ex_try (vs := [(.word, "stream".toList, l), (.whitespace, [' '], l)]) (es' := lift l (argToks ps ++ errToks errs) ++ (.newLine, ['\n'], l) :: es) rfl (by decide) ?_
          intro vs hvs
          refine ex_nth hvs rfl fun p c => ?_
          rw [if_pos rfl]
          exact ex_pure ⟨rfl, rfl, rfl⟩
      rintro _ _ _ ⟨rfl, rfl, rfl⟩
      rw [lift_append, List.append_assoc, he1]
      refine ex_then (ex_args hps) ?_
      rintro outs _ _ ⟨h1, rfl, rfl⟩
      exact ex_pure ⟨⟨outs, rfl, h1⟩, off_args, rfl⟩
    have hmatch : ∃ vs, matchShape [.whitespace, .rocket, .whitespace] a = some (vs, lift l ((if s then [(.word, "stream".toList), (.whitespace, [' '])] else []) ++ (argToks ps ++ errToks errs)) ++ (.newLine, ['\n'], l) :: es) := by
      simp only [outToks, List.cons_append, List.append_assoc, lift_cons] at ha
      rcases ha with rfl | rfl
      · exact ⟨_, rfl⟩
      · exact ⟨_, rfl⟩
    obtain ⟨vs, hv⟩ := hmatch
    exact ex_try hv (by decide) fun _ _ => next

theorem ex_more {r : List Str} {l : Nat} {es : List Shape} {cm : Comments} {acc : List Token} :
    Ex (loop (fun (names : List Token) => do
      let r ← attempt (match_ [.whitespace, .bar, .whitespace, .word])
      match r with
      | .error _ => pure (.inr names)
      | .ok ms =>
        let m3 ← nth ms 3
        pure (.inl (names ++ [m3]))) acc) (lift l (moreToks r) ++ (.newLine, ['\n'], l) :: es) cm
      fun ts es' cm' => ts.map Token.val = acc.map Token.val ++ r ∧ es' = (.newLine, ['\n'], l) :: es ∧ cm' = cm := by
  induction r generalizing acc with
  | nil =>
    refine ex_loop ?_
    exact ex_try_fail rfl (by decide) (by decide) fun _ => ex_pure ⟨by simp, rfl, rfl⟩
  | cons e r ih =>
    refine ex_loop ?_
    refine ex_try (vs := [(.whitespace, [' '], l), (.bar, ['|'], l), (.whitespace, [' '], l), (.word, e, l)]) (es' := lift l (moreToks r) ++ (.newLine, ['\n'], l) :: es) rfl (by decide) ?_
    intro vs hvs
    refine ex_nth hvs rfl fun p c => ?_
    refine ex_pure ⟨?_, ?_⟩
    · simp [moreToks, lift]; omega
    refine ih.mono ?_
    rintro ts es' cm' ⟨h1, h2, h3⟩
    exact ⟨by rw [h1]; simp, h2, h3⟩

theorem ex_errors {errs : List Str} {l : Nat} {a es : List Shape} {cm : Comments} (hq : Quiet es)
    (ha : Off a (lift l (errToks errs) ++ (.newLine, ['\n'], l) :: es)) {mn : MethodNode} (hm : mn.errors = []) :
    Ex (methodErrors mn) a cm fun mn' es' cm' =>
      (∃ ts : List Token, mn' = { mn with errors := ts } ∧ ts.map Token.val = errs) ∧ Off es' ((.newLine, ['\n'], l) :: es) ∧ cm' = cm := by
  unfold methodErrors
  cases errs with
  | nil =>
    refine ex_try_fail (off_quiet hq ha _ (.inr rfl)) (by decide) (by decide) fun _ => ex_pure ⟨⟨[], ?_, rfl⟩, ha, rfl⟩
    rw [← hm]
  | cons e r =>
    have hmatch : ∃ k, matchShape [.whitespace, .word] a = some ([(.whitespace, [' '], k), (.word, "errors".toList, l)], (.whitespace, [' '], l) :: (.word, e, l) :: (lift l (moreToks r) ++ (.newLine, ['\n'], l) :: es)) := by
      rcases ha with rfl | rfl
      · exact ⟨_, rfl⟩
      · exact ⟨_, rfl⟩
    obtain ⟨k, hv⟩ := hmatch
    refine ex_try hv (by decide) ?_
    intro vs hvs
    refine ex_nth hvs rfl fun p c => ?_
    rw [if_pos rfl]
    refine ex_then (R := fun ts es' cm' => ts.map Token.val = e :: r ∧ es' = (.newLine, ['\n'], l) :: es ∧ cm' = cm) ?_ ?_
    · unfold expectErrorList
      refine ex_match (vs := [(.whitespace, [' '], l), (.word, e, l)]) (es' := lift l (moreToks r) ++ (.newLine, ['\n'], l) :: es) rfl (by decide) ?_
      intro vs hvs
      refine ex_nth hvs rfl fun p c => ?_
      refine ex_more.mono ?_
      rintro ts es' cm' ⟨h1, h2, h3⟩
      exact ⟨by rw [h1]; simp, h2, h3⟩
    · rintro ts _ _ ⟨h1, rfl, rfl⟩
      exact ex_pure ⟨⟨ts, rfl, h1⟩, .inl rfl, rfl⟩

end Verif.Ridl
