import Verif.Schema.Required
import Verif.Props.Written

/-! # C116: required fields -/

namespace Verif.Props
open Verif.Schema Verif.Compile
open Verif.Spec hiding advance
open Verif.Spec.Grammar hiding Path

/-- `l` is made of `a` and `b`, in this order each. -/
inductive Shuffled {α : Type} : List α → List α → List α → Prop
  | nil : Shuffled [] [] []
  | left {a b l : List α} (x : α) (h : Shuffled a b l) : Shuffled (x :: a) b (x :: l)
  | right {a b l : List α} (x : α) (h : Shuffled a b l) : Shuffled a (x :: b) (x :: l)

theorem requiredLoop_eq (acc fs : List Field) : requiredLoop acc fs = acc ++ fs.filter fun f => !f.optional := by
  induction fs generalizing acc with
  | nil => simp [requiredLoop]
  | cons f fs ih =>
    rw [requiredLoop, ih]
    cases h : f.optional <;> simp [h]

/-- **C116.** The required fields of a type, and its optional ones, each in order and as often as they are there, are its fields. -/
theorem C116_required (t : TypeDecl) : ∃ os, Shuffled t.requiredFields os t.fields ∧ (∀ f ∈ t.requiredFields, f.optional = false) ∧
    ∀ f ∈ os, f.optional = true := by
  unfold TypeDecl.requiredFields
  rw [requiredLoop_eq, List.nil_append]
  refine ⟨t.fields.filter (·.optional), ?_, by simp, by simp⟩
  induction t.fields with
  | nil => exact .nil
  | cons f fs ih =>
    cases h : f.optional
    · simpa [h] using Shuffled.left f ih
    · simpa [h] using Shuffled.right f ih

/-- **C116.** In a schema made from RIDL files a field of a struct is required exactly if it is written without `?`. -/
theorem C116_written [GoUnicode] (fs : Files) (path : Str) (s : Schema) (h : compile fs path = .ok s) (t : TypeDecl) (ht : t ∈ s.types)
    (hk : t.kind = S "struct") :
    ∃ l pre g body, FileOf fs path t.ptr.1 l ∧ l = pre ++ (.word, "struct".toList) :: (g ++ (.word, t.name) :: body) ∧ Gap g ∧
      ∀ f ∈ t.fields, ∃ pre' m c g1 g2 j k r v, body = pre' ++ (.minusSign, m) :: (g1 ++ (.word, f.name) :: j) ∧ Gap g1 ∧ Gap g2 ∧
        TypeE k v r ∧ (f ∈ t.requiredFields → j = (.colon, c) :: (g2 ++ k)) ∧
        (f ∉ t.requiredFields → ∃ q, j = (.questionMark, q) :: (.colon, c) :: (g2 ++ k)) := by
  obtain ⟨l, hl, h1 | h1 | h1⟩ := C114_types fs path s h t ht
  · rw [hk] at h1; exact absurd h1.1 (by decide)
  · rw [hk] at h1; exact absurd h1.1 (by decide)
  · obtain ⟨-, pre, g, body, e, hg, hf⟩ := h1
    refine ⟨l, pre, g, body, hl, e, hg, fun f hfm => ?_⟩
    obtain ⟨pre', m, c, g1, g2, j, k, r, v, k1, k2, k3, k4, k5⟩ := hf f hfm
    have hm : f ∈ t.requiredFields ↔ f.optional = false := by
      unfold TypeDecl.requiredFields
      rw [requiredLoop_eq]
      simp [hfm]
    refine ⟨pre', m, c, g1, g2, j, k, r, v, k1, k2, k4, k5, fun h => ?_, fun h => ?_⟩
    · rw [hm.1 h] at k3
      cases k3; rfl
    · have : f.optional = true := by
        cases ho : f.optional
        · exact absurd (hm.2 ho) h
        · rfl
      rw [this] at k3
      cases k3
      exact ⟨_, rfl⟩

/-- C116, example: of the structs of the files of C114, one has a required field and one has none. -/
theorem C116_example : let _ := asciiOnly
    partOf (fun s => (s.types.filter fun t => t.kind = S "struct").map fun t => (t.name, t.requiredFields.map (·.name), t.fields.map (·.name)))
      (compile writtenFiles (S "a.ridl")) = some [(S "B", [S "k"], [S "k"]), (S "A", [], [S "b"])] := by
  intro _
  decide +kernel

end Verif.Props
