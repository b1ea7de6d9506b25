import Verif.Compile.Clean
/-! The stack of files in an import error. -/

namespace Verif.Compile
open Verif.Schema Verif.Spec
open Verif.Ridl hiding Str

variable [GoUnicode]

/-- Each file of the list is imported by the next one. -/
def ImportChain (fs : Files) : List Str → Prop
  | [] => True
  | [_] => True
  | x :: y :: r => Imports fs y x ∧ ImportChain fs (y :: r)

/-- The cause of an error, as it occurs in the file `f`. -/
def Cause (fs : Files) (f : Str) (c : SErr) : Prop :=
  (∀ st e, c ≠ .inImport st e) ∧ (Unreadable c → readNodes fs f = .err c) ∧
  (¬ Unreadable c → ∃ ns, readNodes fs f = .ok ns)

/-- What an error of the file at the head of `chain` looks like. -/
def StackOk (fs : Files) (chain : List Str) (e : SErr) : Prop :=
  match e with
  | .inImport st c => ∃ f pre, st = f :: pre ++ chain ∧ ImportChain fs st ∧ Cause fs f c
  | e => ∃ f rest, chain = f :: rest ∧ Cause fs f e

theorem cause_plain {fs : Files} {f : Str} {ns : List Node} {c : SErr} (h : Plain c)
    (hf : readNodes fs f = .ok ns) : Cause fs f c := by
  refine ⟨?_, ?_, fun _ => ⟨ns, hf⟩⟩ <;> cases c <;> simp_all [Plain, Unreadable]

theorem stackOk_cause {fs : Files} {f : Str} {rest : List Str} {e : SErr} (h : Cause fs f e) :
    StackOk fs (f :: rest) e := by
  cases e with
  | inImport st c => exact absurd rfl (h.1 st c)
  | _ => exact ⟨f, rest, rfl, h⟩

theorem importOne_stack {fs : Files} {rec : List Str → Str → Shared → Res (Schema × Shared)}
    {path : Str} {parents : List Str} {a : Schema × Shared} {n : ImportNode} {ns : List Node} {e : SErr}
    (hread : readNodes fs path = .ok ns)
    (hchain : ImportChain fs (importPath path n :: path :: parents))
    (hrec : ∀ st e, rec (path :: parents) (importPath path n) st = .err e →
      StackOk fs (importPath path n :: path :: parents) e)
    (h : importOne rec (path :: parents) path a n = .err e) : StackOk fs (path :: parents) e := by
  rcases err_bind h with h | ⟨_, _, h⟩
  · unfold importSchema at h
    split at h
    · simp at h
    · unfold importFile at h
      simp only at h
      split at h
      · simp at h
      · simp only [Res.err.injEq] at h
        subst h
        exact stackOk_cause ⟨by simp, by simp [Unreadable], fun _ => ⟨ns, hread⟩⟩
      · split at h
        · simp at h
        · next e' he =>
          simp only [Res.err.injEq] at h
          subst h
          have := hrec _ _ he
          cases e' with
          | inImport st c =>
            obtain ⟨f, pre, h1, h2, h3⟩ := this
            exact ⟨f, pre ++ [importPath path n], by simp [h1], h2, h3⟩
          | _ =>
            obtain ⟨f, rest, h1, h2⟩ := this
            simp only [List.cons.injEq] at h1
            obtain ⟨rfl, rfl⟩ := h1
            exact ⟨importPath path n, [], rfl, hchain, h2⟩
        · simp at h
        · simp at h
  · simp at h

theorem compileN_stack {fs : Files} (n : Nat) (parents : List Str) (path : Str) (st : Shared) {e : SErr}
    (hchain : ImportChain fs (path :: parents)) (h : compileN fs n parents path st = .err e) :
    StackOk fs (path :: parents) e := by
  induction n generalizing parents path st e with
  | zero => simp [compileN] at h
  | succ n ih =>
    unfold compileN at h
    rcases err_bind h with h | ⟨ns, h1, h⟩
    · have hu := readNodes_err h
      refine stackOk_cause ⟨?_, fun _ => h, fun hn => absurd hu hn⟩
      intro st c hc
      subst hc
      exact hu
    rcases err_bind h with h | ⟨s0, h2, h⟩
    · have := clean_fold (@clean_applyDef) {} (definitions ns)
      rw [h] at this
      exact stackOk_cause (cause_plain this h1)
    rcases err_bind h with h | ⟨r, h3, h⟩
    · have key : ∀ (l : List ImportNode), (∀ i ∈ l, i ∈ imports ns) → ∀ a : Schema × Shared,
          foldRes (importOne (compileN fs n) (path :: parents) path) a l = .err e → StackOk fs (path :: parents) e := by
        intro l
        induction l with
        | nil => intro _ a ha; simp [foldRes] at ha
        | cons i l ihl =>
          intro hl a ha
          simp only [foldRes] at ha
          rcases err_bind ha with ha | ⟨b, _, ha⟩
          · have hc : ImportChain fs (importPath path i :: path :: parents) :=
              ⟨⟨ns, h1, i, hl i (by simp), rfl⟩, hchain⟩
            exact importOne_stack h1 hc (fun st e he => ih _ _ st hc he) ha
          · exact ihl (fun j hj => hl j (by simp [hj])) b ha
      exact key _ (fun _ h => h) _ h
    rcases err_bind h with h | ⟨s1, h4, h⟩
    · have := @clean_declare _ path ns r.1
      rw [h] at this
      exact stackOk_cause (cause_plain this h1)
    rcases err_bind h with h | ⟨s2, h5, h⟩
    · have := @clean_validate _ s1
      rw [h] at this
      exact stackOk_cause (cause_plain this h1)
    · simp at h

theorem compile_stack {fs : Files} {path : Str} {e : SErr} (h : compile fs path = .err e) : StackOk fs [path] e := by
  rcases err_bind h with h | ⟨_, _, h⟩
  · exact compileN_stack _ _ _ _ trivial h
  · simp at h

end Verif.Compile
