import Verif.Compile.Clean
/-!
# More fuel does not change a result
-/

namespace Verif.Compile
open Verif.Schema Verif.Spec
open Verif.Ridl (Node ImportNode Graph)

/-- `r` is the result `r'`, unless it ran out of fuel. -/
def Below {α : Type} (r r' : Res α) : Prop := r = .fuel ∨ r = r'

theorem Below.refl {α : Type} (r : Res α) : Below r r := .inr rfl

theorem Below.bind {α β : Type} {r r' : Res α} {f f' : α → Res β} (h : Below r r') (hf : ∀ a, Below (f a) (f' a)) :
    Below (r >>= f) (r' >>= f') := by
  rcases h with rfl | rfl
  · exact .inl rfl
  · cases r with
    | ok a => exact hf a
    | err e => exact .inr rfl
    | panic => exact .inr rfl
    | fuel => exact .inr rfl

theorem Below.fold {α σ : Type} {f f' : σ → α → Res σ} (hf : ∀ s a, Below (f s a) (f' s a)) (s : σ) (xs : List α) :
    Below (foldRes f s xs) (foldRes f' s xs) := by
  induction xs generalizing s with
  | nil => exact .inr rfl
  | cons x xs ih => exact Below.bind (hf s x) ih

theorem importOne_below {rec rec' : List Str → Str → Shared → Res (Schema × Shared)}
    (h : ∀ c p st, Below (rec c p st) (rec' c p st)) (chain : List Str) (path : Str) (a : Schema × Shared)
    (n : ImportNode) : Below (importOne rec chain path a n) (importOne rec' chain path a n) := by
  unfold importOne
  refine Below.bind ?_ (fun _ => .inr rfl)
  unfold importSchema
  split
  · exact .inr rfl
  · unfold importFile
    dsimp only
    split
    · exact .inr rfl
    · exact .inr rfl
    · rcases h chain (importPath path n)
        { a.2 with graph := (a.2.graph.addNode (importPath path n)).addEdge path (importPath path n) } with h | h
      · rw [h]; exact .inl rfl
      · rw [h]; exact .inr rfl

variable [GoUnicode]

theorem compileN_below (fs : Files) (n : Nat) (parents : List Str) (path : Str) (st : Shared) :
    Below (compileN fs n parents path st) (compileN fs (n + 1) parents path st) := by
  induction n generalizing parents path st with
  | zero => exact .inl rfl
  | succ n ih =>
    rw [compileN, compileN]
    refine Below.bind (.inr rfl) fun ns => Below.bind (.inr rfl) fun s => Below.bind ?_ fun r => .inr rfl
    exact Below.fold (fun a b => importOne_below ih _ _ a b) _ _

theorem compileN_le (fs : Files) {n k : Nat} (h : n ≤ k) (parents : List Str) (path : Str) (st : Shared) :
    Below (compileN fs n parents path st) (compileN fs k parents path st) := by
  induction h with
  | refl => exact .inr rfl
  | step _ ih =>
    rcases ih with ih | ih
    · exact .inl ih
    · rw [ih]; exact compileN_below fs _ _ _ _

/-- Results with different bounds agree. -/
theorem compileN_agree (fs : Files) {n k : Nat} (parents : List Str) (path : Str) (st : Shared)
    (h1 : compileN fs n parents path st ≠ .fuel) (h2 : compileN fs k parents path st ≠ .fuel) :
    compileN fs n parents path st = compileN fs k parents path st := by
  rcases Nat.le_total n k with h | h
  · exact (compileN_le fs h parents path st).resolve_left h1
  · exact ((compileN_le fs h parents path st).resolve_left h2).symm

/-- Compilation depends on the files with a valid path only. -/
theorem compile_agree {fs fs' : Files} (hfs : ∀ p, validPath p = true → fs.lookup p = fs'.lookup p) (path : Str)
    (h1 : compile fs path ≠ .fuel) (h2 : compile fs' path ≠ .fuel) : compile fs path = compile fs' path := by
  have hr : readNodes fs = readNodes fs' := by
    funext p
    unfold readNodes
    by_cases hp : validPath p = true
    · rw [hfs p hp]
    · simp only [Bool.not_eq_true] at hp
      simp only [hp]
      rfl
  have hc : ∀ n, compileN fs n = compileN fs' n := by
    intro n
    induction n with
    | zero => rfl
    | succ n ih => funext a b c; rw [compileN, compileN, hr, ih]
  unfold compile at *
  rw [hc] at *
  generalize ha : compileN fs' (fs.length + 2) [] path { graph := Graph.new [path], cache := [] } = a at h1 ⊢
  generalize hb : compileN fs' (fs'.length + 2) [] path { graph := Graph.new [path], cache := [] } = b at h2 ⊢
  have ha' : a ≠ .fuel := by rintro rfl; exact h1 rfl
  have hb' : b ≠ .fuel := by rintro rfl; exact h2 rfl
  have := compileN_agree fs' [] path { graph := Graph.new [path], cache := [] } (ha ▸ ha') (hb ▸ hb')
  rw [ha, hb] at this
  rw [this]

end Verif.Compile
