import Verif.Props.Imports
/-!
# C109: files that are not imported do not matter
-/

namespace Verif.Props
open Verif.Schema Verif.Compile Verif.Spec
open Verif.Ridl (Token Node ImportNode Graph ParseResult parseDoc parseN)

theorem foldRes_congr {α σ : Type} {f f' : σ → α → Res σ} (xs : List α) (h : ∀ x ∈ xs, ∀ s, f s x = f' s x) (s : σ) :
    foldRes f s xs = foldRes f' s xs := by
  induction xs generalizing s with
  | nil => rfl
  | cons x xs ih =>
    unfold foldRes
    rw [h x (List.mem_cons_self ..) s]
    cases f' s x with
    | ok a => exact ih (fun y hy => h y (List.mem_cons_of_mem _ hy)) a
    | err e => rfl
    | panic => rfl
    | fuel => rfl

theorem reach_cons {α : Type} {E : α → α → Prop} {x y z : α} (h1 : E x y) (h2 : Reach E y z) : Reach E x z := by
  rcases h2 with rfl | h2
  · exact .inr (.edge h1)
  · exact .inr (.step h1 h2)

theorem readNodes_same {fs fs' : Files} {path : Str} (h : fs.lookup path = fs'.lookup path) : readNodes fs path = readNodes fs' path := by
  unfold readNodes
  rw [h]

/-- The same files are reached. -/
theorem reach_frame {fs fs' : Files} {path f : Str} (h : ∀ f, Reach (Imports fs) path f → fs.lookup f = fs'.lookup f)
    (hr : Reach (Imports fs') path f) : Reach (Imports fs) path f := by
  rcases hr with rfl | hr
  · exact .inl rfl
  · induction hr with
    | @edge x y he =>
      obtain ⟨ns, h1, h2⟩ := he
      exact .inr (.edge ⟨ns, by rw [readNodes_same (h x (.inl rfl))]; exact h1, h2⟩)
    | @step x y z he _ ih =>
      obtain ⟨ns, h1, h2⟩ := he
      have he' : Imports fs x y := ⟨ns, by rw [readNodes_same (h x (.inl rfl))]; exact h1, h2⟩
      exact reach_cons he' (ih fun f hf => h f (reach_cons he' hf))

variable [GoUnicode]

theorem compileN_frame {fs fs' : Files} (n : Nat) (parents : List Str) (path : Str) (st : Shared)
    (h : ∀ f, Reach (Imports fs) path f → fs.lookup f = fs'.lookup f) : compileN fs n parents path st = compileN fs' n parents path st := by
  induction n generalizing parents path st with
  | zero => rfl
  | succ n ih =>
    have hr : readNodes fs path = readNodes fs' path := by
      unfold readNodes
      rw [h path (.inl rfl)]
    rw [compileN, compileN, ← hr]
    cases hn : readNodes fs path with
    | err e => rfl
    | panic => rfl
    | fuel => rfl
    | ok ns =>
      show (foldRes applyDef {} (definitions ns) >>= _) = (foldRes applyDef {} (definitions ns) >>= _)
      cases foldRes applyDef {} (definitions ns) with
      | err e => rfl
      | panic => rfl
      | fuel => rfl
      | ok s =>
        show (foldRes _ (s, st) (imports ns) >>= _) = (foldRes _ (s, st) (imports ns) >>= _)
        rw [foldRes_congr (imports ns) (fun i hi a => ?_) (s, st)]
        unfold importOne importSchema importFile
        have key : ∀ chain st, compileN fs n chain (importPath path i) st = compileN fs' n chain (importPath path i) st :=
          fun chain st => ih chain _ st fun f hf => h f (reach_cons ⟨ns, hn, i, hi, rfl⟩ hf)
        simp only [key]

/-- C109. What a schema file means depends only on the files that it imports, directly or not: if these have the same content,
compilation has the same outcome, schema or error (or none, if the syntax parser hangs, see C08), whatever other files there are. -/
theorem C109_frame (fs fs' : Files) (path : Str) (h : ∀ f, Reach (Imports fs) path f → fs.lookup f = fs'.lookup f) :
    compile fs path = compile fs' path := by
  have e1 := C28_bound_is_enough fs path (max (fs.length + 2) (fs'.length + 2)) (by omega)
  have e2 := C28_bound_is_enough fs' path (max (fs.length + 2) (fs'.length + 2)) (by omega)
  rw [← e1, ← e2, compileN_frame _ [] path _ h]

/-- C109. A file that is not there, or cannot be reached, can be added, changed or removed. -/
theorem C109_add (fs : Files) (path other : Str) (src : Str) (ho : ¬ Reach (Imports fs) path other) :
    compile ((other, src) :: fs) path = compile fs path ∧ compile (fs.filter fun p => p.1 != other) path = compile fs path := by
  constructor
  · refine (C109_frame fs _ path (fun f hf => ?_)).symm
    rw [List.lookup_cons]
    have : (f == other) = false := by
      rw [beq_eq_false_iff_ne]
      intro h
      subst h
      exact ho hf
    rw [this]
  · refine (C109_frame fs _ path (fun f hf => ?_)).symm
    have hne : f ≠ other := by intro h; subst h; exact ho hf
    clear ho hf
    induction fs with
    | nil => rfl
    | cons p fs ih =>
      rw [List.filter_cons]
      by_cases hp : p.1 = other
      · rw [if_neg (by simp [hp]), List.lookup_cons]
        have : (f == p.1) = false := by simpa using fun h => hne (h.trans hp)
        rw [this]; exact ih
      · rw [if_pos (by simp [hp]), List.lookup_cons, List.lookup_cons]
        split
        · rfl
        · exact ih

omit [GoUnicode] in
/-- The files imported by one file. -/
def directImports (fs : Files) (path : Str) : List Str :=
  match readNodes fs path with
  | .ok ns => (imports ns).map (importPath path)
  | _ => []

omit [GoUnicode] in
theorem directImports_iff (fs : Files) (a b : Str) : Imports fs a b ↔ b ∈ directImports fs a := by
  unfold Imports directImports
  cases readNodes fs a with
  | ok ns =>
    simp only [List.mem_map]
    constructor
    · rintro ⟨_, h, n, hn, rfl⟩; cases h; exact ⟨n, hn, rfl⟩
    · rintro ⟨n, hn, rfl⟩; exact ⟨ns, rfl, n, hn, rfl⟩
  | _ => simp

omit [GoUnicode] in
/-- Files: the first imports the second; the third is not even RIDL. -/
def frameFiles : Files :=
  [(S "api/a.ridl", S "webrpc = v1\nname = a\nversion = v1\nimport\n  - ../b.ridl\nstruct A\n  - b: B\n"),
   (S "b.ridl", S "webrpc = v1\nstruct B\n  - x: string\n"), (S "c.ridl", S "}{ @")]

omit [GoUnicode] in
/-- C109. A case that meets the hypotheses: the third file can be removed. -/
theorem C109_example : let _ := asciiOnly
    ¬ Reach (Imports frameFiles) (S "api/a.ridl") (S "c.ridl") ∧
    sizes (compile frameFiles (S "api/a.ridl")) = some (2, 0, 0) ∧
    sizes (compile (frameFiles.filter fun p => p.1 != S "c.ridl") (S "api/a.ridl")) = some (2, 0, 0) := by
  intro _
  have h1 : directImports frameFiles (S "api/a.ridl") = [S "b.ridl"] := by decide +kernel
  have h2 : directImports frameFiles (S "b.ridl") = [] := by decide +kernel
  have hb : ∀ f, ¬ Path (Imports frameFiles) (S "b.ridl") f := by
    intro f h
    cases h with
    | edge h => rw [directImports_iff, h2] at h; cases h
    | step h _ => rw [directImports_iff, h2] at h; cases h
  have hr : ∀ f, Reach (Imports frameFiles) (S "api/a.ridl") f → f = S "api/a.ridl" ∨ f = S "b.ridl" := by
    rintro f (rfl | h)
    · exact .inl rfl
    · cases h with
      | edge h => rw [directImports_iff, h1] at h; exact .inr (List.mem_singleton.1 h)
      | step h h' =>
        rw [directImports_iff, h1] at h
        rw [List.mem_singleton.1 h] at h'
        exact absurd h' (hb f)
  refine ⟨fun h => ?_, by decide +kernel, by decide +kernel⟩
  · rcases hr _ h with h | h
    · exact absurd h (by decide +kernel)
    · exact absurd h (by decide +kernel)

end Verif.Props
