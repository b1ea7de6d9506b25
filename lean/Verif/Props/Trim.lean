import Verif.Spec.White
import Verif.Props.Rpc
import Verif.Props.Complete
/-!
# C66, C51: what the trimming done by validation and by content types is
-/

namespace Verif.Props
open Verif.Schema hiding Json Method
open Verif.Json Verif.Gen Verif.Rpc Verif.RpcSpec
open Verif.Spec (WhiteSpace Trims)

theorem isSpace_iff (c : Char) : isSpace c = true ↔ c ∈ WhiteSpace := by
  have e : ∀ d : Char, c = d ↔ c.toNat = d.toNat := fun d => ⟨fun h => h ▸ rfl, fun h => Char.toNat_inj.1 h⟩
  simp only [WhiteSpace, List.mem_cons, List.not_mem_nil, or_false, e, isSpace, Bool.or_eq_true, Bool.and_eq_true, decide_eq_true_eq, beq_iff_eq, Char.reduceToNat]
  omega

theorem dropWhile_nil {p : Char → Bool} {l : Str} : l.dropWhile p = [] ↔ ∀ c ∈ l, p c = true := by
  induction l with
  | nil => simp
  | cons a l ih =>
    simp only [List.dropWhile_cons, List.mem_cons, forall_eq_or_imp, ← ih]
    cases h : p a <;> simp

/-- C66. Trimming a name removes the white space at its ends, all of it and nothing else. -/
theorem C66_trim (s t : Str) : trimSpace s = t ↔ Trims s t := by
  have hb : ∀ c, isSpace c = false ↔ c ∉ WhiteSpace := by
    intro c; rw [← isSpace_iff]; simp
  by_cases ht : t = []
  · subst ht
    constructor
    · intro h
      refine ⟨s, [], by simp, ?_, by simp⟩
      intro c hc
      rw [← isSpace_iff]
      unfold trimSpace at h
      rw [List.reverse_eq_nil_iff, dropWhile_nil] at h
      have h2 : s.dropWhile isSpace = [] := by
        cases hs : s.dropWhile isSpace with
        | nil => rfl
        | cons x l =>
          have := dropWhile_head isSpace s x (by rw [hs]; rfl)
          rw [h x (by rw [hs]; simp)] at this
          cases this
      rw [dropWhile_nil] at h2
      simp only [List.append_nil] at hc
      exact h2 c hc
    · rintro ⟨a, b, e, hw, -⟩
      have : s.dropWhile isSpace = [] := by
        rw [dropWhile_nil]
        intro c hc
        rw [isSpace_iff]
        apply hw
        rw [e] at hc
        simpa using hc
      simp [trimSpace, this]
  · constructor
    · intro h
      have h1 : ∀ c, t.head? = some c → isSpace c = false := by
        intro c hc
        have hi := trimSpace_idem s
        rw [h] at hi
        cases hcs : isSpace c with
        | false => rfl
        | true =>
          exfalso
          unfold trimSpace at hi
          have hl := congrArg List.length hi
          cases t with
          | nil => cases hc
          | cons x t =>
            simp only [List.head?_cons, Option.some.injEq] at hc
            subst hc
            have l1 := (List.dropWhile_suffix isSpace (l := (List.dropWhile isSpace (x :: t)).reverse)).length_le
            have l2 := (List.dropWhile_suffix isSpace (l := t)).length_le
            simp only [List.dropWhile_cons, hcs, if_true, List.length_reverse, List.length_cons] at hl l1
            omega
      have h2 : ∀ c, t.getLast? = some c → isSpace c = false := by
        intro c hc
        unfold trimSpace at h
        rw [← h, List.getLast?_reverse] at hc
        exact dropWhile_head _ _ _ hc
      obtain ⟨a, b, e, ha, hbb⟩ := (trimSpace_eq ht h1 h2).1 h
      refine ⟨a, b, e, ?_, ?_⟩
      · intro c hc
        rw [← isSpace_iff]
        rcases List.mem_append.1 hc with hc | hc
        · exact ha c hc
        · exact hbb c hc
      · rintro c (hc | hc)
        · exact (hb c).1 (h1 c hc)
        · exact (hb c).1 (h2 c hc)
    · rintro ⟨a, b, e, hw, hn⟩
      refine (trimSpace_eq ht (fun c hc => (hb c).2 (hn c (.inl hc))) (fun c hc => (hb c).2 (hn c (.inr hc)))).2 ⟨a, b, e, ?_, ?_⟩
      · intro c hc
        exact (isSpace_iff c).2 (hw c (by simp [hc]))
      · intro c hc
        exact (isSpace_iff c).2 (hw c (by simp [hc]))

/-- C51. The blanks allowed around the media type are the white space characters. -/
theorem C51_blank [GoUnicode] (s : Str) : Blank s ↔ ∀ c ∈ s, lowerChar c ∈ WhiteSpace := by
  unfold Blank
  constructor
  · intro h c hc; exact (isSpace_iff _).1 (h c hc)
  · intro h c hc; exact (isSpace_iff _).2 (h c hc)

/-- A tab, spaces and an ideographic space around a name with a blank inside. -/
example : trimSpace (S "\t  Not found\u3000\n") = S "Not found" := by decide +kernel

end Verif.Props
