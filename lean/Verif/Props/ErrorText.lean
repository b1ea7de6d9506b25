import Verif.Compile.Message
import Verif.Compile.Meaning
import Verif.Props.Imports

/-! # C63: the files in the messages of import errors -/

namespace Verif.Props
open Verif.Schema Verif.Compile
open Verif.Spec hiding advance

theorem lines_append (a b : Str) : splitNewline (a ++ '\n' :: b) = splitNewline a ++ splitNewline b := by
  induction a with
  | nil => simp [splitNewline]
  | cons c a ih =>
    by_cases hc : c = '\n'
    · simp [splitNewline, hc, ih]
    · have hne := splitNewline_ne a
      cases h : splitNewline a with
      | nil => exact absurd h hne
      | cons x xs => simp [splitNewline, hc, ih, h]

theorem lines_one {a : Str} (h : '\n' ∉ a) : splitNewline a = [a] := by
  induction a with
  | nil => rfl
  | cons c a ih =>
    simp only [List.mem_cons, not_or] at h
    have hc : c ≠ '\n' := fun e => h.1 e.symm
    simp [splitNewline, hc, ih h.2]

theorem lines_stack {fs : List Str} (hne : fs ≠ []) (h : ∀ f ∈ fs, '\n' ∉ f) : splitNewline (stackLines fs) = fs.map (S "  - " ++ ·) := by
  induction fs with
  | nil => exact absurd rfl hne
  | cons f fs ih =>
    have hf : '\n' ∉ S "  - " ++ f := by
      have : '\n' ∉ S "  - " := by decide
      simp [this, h f (by simp)]
    cases fs with
    | nil => simp [stackLines, lines_one hf]
    | cons g fs =>
      have e : stackLines (f :: g :: fs) = (S "  - " ++ f) ++ '\n' :: stackLines (g :: fs) := by
        simp only [stackLines, List.append_assoc]; rfl
      rw [e, lines_append, lines_one hf, ih (by simp) fun x hx => h x (by simp [hx])]
      simp

/-- **C63.** The message of an import error has, after the lines of the cause, a line `stack trace:` and one line for each file of the
chain, in order. -/
theorem C63_lines (err : Str) (stack : List Str) (hne : stack ≠ []) (h : ∀ f ∈ stack, '\n' ∉ f) :
    splitNewline (importErrorText err stack) = splitNewline err ++ S "stack trace:" :: stack.map (S "  - " ++ ·) := by
  have e : importErrorText err stack = err ++ '\n' :: (S "stack trace:" ++ '\n' :: stackLines stack) := by
    unfold importErrorText
    rw [if_neg hne, show S "\nstack trace:\n" = '\n' :: (S "stack trace:" ++ ['\n']) from by decide]
    simp
  rw [e, lines_append, lines_append, lines_one (a := S "stack trace:") (by decide), lines_stack hne h]
  rfl

/-- **C63.** So the message tells the files: two errors with the same message name the same files, if no line of their causes is
`stack trace:`. -/
theorem C63_told (err err' : Str) (stack stack' : List Str) (hne : stack ≠ []) (hne' : stack' ≠ []) (h : ∀ f ∈ stack, '\n' ∉ f)
    (h' : ∀ f ∈ stack', '\n' ∉ f) (he : S "stack trace:" ∉ splitNewline err) (he' : S "stack trace:" ∉ splitNewline err')
    (e : importErrorText err stack = importErrorText err' stack') : splitNewline err = splitNewline err' ∧ stack = stack' := by
  have e2 := congrArg splitNewline e
  rw [C63_lines err stack hne h, C63_lines err' stack' hne' h'] at e2
  have key : ∀ {a b c d : List Str} {x : Str}, x ∉ a → x ∉ b → a ++ x :: c = b ++ x :: d → a = b ∧ c = d := by
    intro a
    induction a with
    | nil =>
      intro b c d x _ hb e
      cases b with
      | nil => simpa using e
      | cons y b =>
        simp only [List.nil_append, List.cons_append, List.cons.injEq] at e
        exact absurd (by simp [e.1]) hb
    | cons z a ih =>
      intro b c d x ha hb e
      cases b with
      | nil =>
        simp only [List.nil_append, List.cons_append, List.cons.injEq] at e
        exact absurd (by simp [e.1]) ha
      | cons y b =>
        simp only [List.cons_append, List.cons.injEq] at e
        simp only [List.mem_cons, not_or] at ha hb
        obtain ⟨h1, h2⟩ := ih ha.2 hb.2 e.2
        exact ⟨by rw [e.1, h1], h2⟩
  obtain ⟨h1, h2⟩ := key he he' e2
  exact ⟨h1, List.map_inj_right (fun a b hab => List.append_cancel_left hab) |>.1 h2⟩

/-- **C63.** The message of a failing import ends with the lines of the chain of files, from the one with the error up to the main file,
each as the name `shown` of a path (the root directory joined with it) without line ends. -/
theorem C63_message [GoUnicode] (fs : Files) (path : Str) (st : List Str) (c : SErr) (h : compile fs path = .err (.inImport st c))
    (shown : Str → Str) (hn : ∀ f ∈ st, '\n' ∉ shown f) (err : Str) :
    ∃ f pre, st = f :: pre ++ [path] ∧ ImportChain fs st ∧ Cause fs f c ∧
      splitNewline (importErrorText err (stackOf shown st)) =
        splitNewline err ++ S "stack trace:" :: (f :: pre ++ [path]).map (fun p => S "  - " ++ shown p) := by
  obtain ⟨f, pre, rfl, h1, h2⟩ := C63_import_stack fs path st c h
  refine ⟨f, pre, rfl, h1, h2, ?_⟩
  rw [C63_lines err _ (by simp [stackOf]) fun g hg => ?_]
  · simp [stackOf]
  · obtain ⟨f', hf', rfl⟩ := List.mem_map.1 hg
    exact hn f' hf'

/-- C63, example. -/
theorem C63_message_example : importErrorText (S "open c: no file") [S "c", S "b", S "a"] = S "open c: no file\nstack trace:\n  - c\n  - b\n  - a" ∧
    S "stack trace:" ∉ splitNewline (S "open c: no file") := by decide

end Verif.Props
