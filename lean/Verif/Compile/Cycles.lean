import Verif.Compile.Clean
/-! A cycle of imports is reported as such. -/

namespace Verif.Compile
open Verif.Schema Verif.Spec
open Verif.Ridl hiding Str

variable [GoUnicode]

/-- A result, an import cycle, or out of bounds. -/
def Mild {α : Type} (r : Res α) : Prop :=
  match r with
  | .ok _ => True
  | .err e => IsCircularErr e
  | .panic => False
  | .fuel => True

/-- No cycle of imports can be reached from the file. -/
def NoCycleBelow (fs : Files) (f : Str) : Prop := ∀ g, Reach (Imports fs) f g → ¬ Path (Imports fs) g g

/-- The file can be read and its header is fine; if no cycle is below, it compiles. -/
def Sane (fs : Files) (f : Str) : Prop :=
  (∃ ns s0, readNodes fs f = .ok ns ∧ foldRes applyDef {} (definitions ns) = .ok s0) ∧
  (NoCycleBelow fs f → ∃ s, Compiled fs f s)

theorem compiled_noCycle {fs : Files} {f : Str} {s : Schema} (h : Compiled fs f s) : NoCycleBelow fs f := by
  intro g hr hp
  obtain ⟨m, hm⟩ := compiled_reach h hr
  exact acc_no_cycle (compiled_acc hm) hp

omit [GoUnicode] in
theorem importOne_mild {rec : List Str → Str → Shared → Res (Schema × Shared)} {chain : List Str} {path : Str}
    {a : Schema × Shared} {n : ImportNode} (hrec : ∀ st, Mild (rec chain (importPath path n) st)) :
    Mild (importOne rec chain path a n) := by
  unfold importOne
  have h : Mild (importSchema rec chain path (importPath path n) a.2) := by
    unfold importSchema
    split
    · trivial
    · simp only [importFile]
      split
      · trivial
      · trivial
      · have := hrec { a.2 with graph := (a.2.graph.addNode (importPath path n)).addEdge path (importPath path n) }
        revert this
        generalize rec chain (importPath path n) _ = r
        intro h
        cases r with
        | ok b => trivial
        | err e => cases e <;> simp_all [Mild, importError, IsCircularErr]
        | panic => exact h
        | fuel => trivial
  revert h
  generalize importSchema rec chain path (importPath path n) a.2 = r
  intro h
  cases r with
  | ok b => trivial
  | err e => exact h
  | panic => exact h
  | fuel => trivial

omit [GoUnicode] in
theorem imports_mild {rec : List Str → Str → Shared → Res (Schema × Shared)} {chain : List Str} {path : Str}
    {ns : List ImportNode} {a : Schema × Shared} (hrec : ∀ n ∈ ns, ∀ st, Mild (rec chain (importPath path n) st)) :
    Mild (foldRes (importOne rec chain path) a ns) := by
  induction ns generalizing a with
  | nil => trivial
  | cons n ns ih =>
    simp only [foldRes]
    have h := importOne_mild (a := a) (hrec n (by simp))
    revert h
    generalize importOne rec chain path a n = r
    intro h
    cases r with
    | ok b => exact ih fun m hm => hrec m (by simp [hm])
    | err e => exact h
    | panic => exact h
    | fuel => trivial

/-- Files that are fine except for cycles give a result or a cycle error; the cache must be right. -/
theorem compileN_mild {fs : Files} (n : Nat) (parents : List Str) (path : Str) (st : Shared)
    (hc : CacheOk fs st) (hs : ∀ f, Reach (Imports fs) path f → Sane fs f) :
    Mild (compileN fs n parents path st) ∧ ∀ s st', compileN fs n parents path st = .ok (s, st') → CacheOk fs st' := by
  refine ⟨?_, fun s st' h => (compileN_sound fs n _ _ _ _ _ hc h).2⟩
  have key : ∀ (n : Nat) (parents : List Str) (path : Str) (st : Shared), CacheOk fs st →
      (∀ f, Reach (Imports fs) path f → Sane fs f) → Mild (compileN fs n parents path st) := by
    intro n
    induction n with
    | zero => intros; trivial
    | succ n ih =>
      intro parents path st hc hs
      obtain ⟨⟨ns, s0, h1, h2⟩, hcomp⟩ := hs path (.inl rfl)
      unfold compileN
      rw [h1]
      change Mild (Res.bind _ _)
      dsimp only [Res.bind]
      rw [h2]
      change Mild (Res.bind _ _)
      dsimp only [Res.bind]
      -- the imports, one after the other, with a right cache
      have hfold : ∀ (l : List ImportNode), (∀ i ∈ l, i ∈ imports ns) → ∀ a : Schema × Shared, CacheOk fs a.2 →
          Mild (foldRes (importOne (compileN fs n) (path :: parents) path) a l) := by
        intro l
        induction l with
        | nil => intros; trivial
        | cons i l ihl =>
          intro hl a ha
          simp only [foldRes]
          have hi : Mild (importOne (compileN fs n) (path :: parents) path a i) := by
            have hrec : ∀ g, Mild (compileN fs n (path :: parents) (importPath path i) { a.2 with graph := g }) := by
              intro g
              refine ih _ _ _ ha fun f hf => hs f ?_
              have he : Imports fs path (importPath path i) := ⟨ns, h1, i, hl i (by simp), rfl⟩
              rcases hf with rfl | hf
              · exact .inr (.edge he)
              · exact .inr (.step he hf)
            -- only states with this cache are passed on
            have := importOne_mild (rec := fun c p st' => compileN fs n c p { a.2 with graph := st'.graph })
              (chain := path :: parents) (path := path) (a := a) (n := i) (fun st' => hrec _)
            exact this
          revert hi
          cases hr : importOne (compileN fs n) (path :: parents) path a i with
          | ok b =>
            intro _
            obtain ⟨m, _, _, hb⟩ := importOne_sound (compileN_sound fs n) ha hr
            exact ihl (fun j hj => hl j (by simp [hj])) b hb
          | err e => exact fun h => h
          | panic => exact fun h => h
          | fuel => exact fun h => h
      have hf := hfold (imports ns) (fun _ h => h) (s0, st) hc
      revert hf
      cases hr : foldRes (importOne (compileN fs n) (path :: parents) path) (s0, st) (imports ns) with
      | ok r =>
        intro _
        obtain ⟨ps, k1, k2, k3, k4⟩ := imports_sound (compileN_sound fs n) hc hr
        -- all imports have a meaning, so no cycle is below
        have hno : NoCycleBelow fs path := by
          have hacc : Acc (fun b a => Imports fs a b) path := by
            constructor
            rintro b ⟨ns', g1, i, hi, rfl⟩
            rw [h1] at g1
            simp only [Res.ok.injEq] at g1
            subst g1
            rw [← k1, List.mem_map] at hi
            obtain ⟨p, hp, rfl⟩ := hi
            exact compiled_acc (k2 p hp)
          intro g hg hp
          rcases hg with rfl | hg
          · exact acc_no_cycle hacc hp
          · exact acc_no_cycle (acc_of_path hacc hg) hp
        obtain ⟨s, hs⟩ := hcomp hno
        cases hs with
        | @intro _ ns' s0' s1 _ ps' g1 g2 g3 g4 g5 g6 =>
          rw [h1] at g1
          simp only [Res.ok.injEq] at g1
          subst g1
          rw [h2] at g2
          simp only [Res.ok.injEq] at g2
          subst g2
          have hps : ps = ps' := by
            have hm : ps.map Prod.fst = ps'.map Prod.fst := k1.trans g3.symm
            clear k1 g3 k3 g5 hr
            induction ps generalizing ps' with
            | nil => cases ps' with
              | nil => rfl
              | cons _ _ => simp at hm
            | cons p ps ih =>
              cases ps' with
              | nil => simp at hm
              | cons q qs =>
                simp only [List.map_cons, List.cons.injEq] at hm
                have e := g4 q (by simp)
                rw [← hm.1] at e
                have := compiled_det (k2 p (by simp)) e
                rw [Prod.ext hm.1 this, ih (fun x hx => k2 x (by simp [hx])) (fun x hx => g4 x (by simp [hx])) hm.2]
          subst hps
          change Mild (Res.bind _ _)
          dsimp only [Res.bind]
          rw [k3, g5]
          change Mild (Res.bind _ _)
          dsimp only [Res.bind]
          rw [g6]
          trivial
      | err e => exact fun h => h
      | panic => exact fun h => h
      | fuel => exact fun h => h
  exact key n parents path st hc hs

theorem cycle_reported {fs : Files} {path f : Str} (hs : ∀ f, Reach (Imports fs) path f → Sane fs f)
    (hr : Reach (Imports fs) path f) (hf : Path (Imports fs) f f) :
    ∃ e, compile fs path = .err e ∧ IsCircularErr e := by
  have hm := (compileN_mild (fs.length + 2) [] path { graph := Graph.new [path], cache := [] }
    (by intro p m hm; simp at hm) hs).1
  cases h2 : compileN fs (fs.length + 2) [] path { graph := Graph.new [path], cache := [] } with
  | ok a =>
    exfalso
    have : compile fs path = .ok a.1 := by simp only [compile, h2]; rfl
    exact compiled_noCycle (compile_sound this) f hr hf
  | err e =>
    rw [h2] at hm
    exact ⟨e, by simp only [compile, h2]; rfl, hm⟩
  | panic => rw [h2] at hm; exact hm.elim
  | fuel =>
    exfalso
    have : compile fs path = .fuel := by simp only [compile, h2]; rfl
    obtain ⟨p, src, hr, hl, hp⟩ := (compile_outcome fs path).1 this
    obtain ⟨⟨ns, s0, h1, _⟩, _⟩ := hs p hr
    obtain ⟨src', k1, k2, _⟩ := readNodes_file h1
    rw [hl] at k1
    simp only [Option.some.injEq] at k1
    subst k1
    rw [hp] at k2
    simp at k2

end Verif.Compile
