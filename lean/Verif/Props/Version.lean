import Verif.Gen.Version
import Verif.Props.Trim

/-! # C117: the version of webrpc-gen -/

namespace Verif.Props
open Verif.Schema hiding Json Method
open Verif.Gen
open Verif.Spec (WhiteSpace Trims)

/-- **C117.** The version is the one injected when building; without one it is what `go list` prints, without the white space around it;
if this prints nothing, what `git describe` prints; and `unknown` if neither does. -/
theorem C117_version (injected goList git : Str) :
    (injected ≠ [] → runtimeVersion injected goList git = injected) ∧
    (goList ≠ [] → Trims goList (runtimeVersion [] goList git)) ∧
    (git ≠ [] → Trims git (runtimeVersion [] [] git)) ∧
    runtimeVersion [] [] [] = S "unknown" := by
  have hlen : ∀ {l : Str}, l ≠ [] → l.length > 0 := fun h => List.length_pos_iff.2 h
  refine ⟨fun h => if_neg h, fun h => ?_, fun h => ?_, rfl⟩
  · unfold runtimeVersion inferRuntimeVersion
    rw [if_pos rfl, if_pos (hlen h)]
    exact (C66_trim _ _).1 rfl
  · unfold runtimeVersion inferRuntimeVersion
    rw [if_pos rfl, if_neg (by simp), if_pos (hlen h)]
    exact (C66_trim _ _).1 rfl

theorem trims_nil {s : Str} (h : Trims s []) : ∀ c ∈ s, c ∈ WhiteSpace := by
  obtain ⟨a, b, rfl, h, -⟩ := h
  simpa using h

/-- **C117.** There is a version, if no command prints nothing but white space. -/
theorem C117_known_partial (injected goList git : Str) (h1 : goList ≠ [] → ∃ c ∈ goList, c ∉ WhiteSpace)
    (h2 : git ≠ [] → ∃ c ∈ git, c ∉ WhiteSpace) : runtimeVersion injected goList git ≠ [] := by
  intro h
  obtain ⟨k1, -, -, -⟩ := C117_version injected goList git
  obtain ⟨-, k2, k3, k4⟩ := C117_version [] goList git
  by_cases hi : injected = []
  · subst hi
    by_cases hg : goList = []
    · subst hg
      by_cases hd : git = []
      · subst hd
        rw [k4] at h
        exact absurd h (by decide)
      · have := k3 hd
        rw [h] at this
        obtain ⟨c, hc, hn⟩ := h2 hd
        exact hn (trims_nil this c hc)
    · have := k2 hg
      rw [h] at this
      obtain ⟨c, hc, hn⟩ := h1 hg
      exact hn (trims_nil this c hc)
  · rw [k1 hi] at h
    exact hi h

/-- **C117, false of the code:** where `go list` prints an empty line, as it does in the module itself, whose version is not known, there is
no version, whatever `git describe` would print: it is not asked. -/
theorem C117_blank (git : Str) : runtimeVersion [] (S "\n") git = [] := by
  unfold runtimeVersion inferRuntimeVersion
  rw [if_pos rfl, if_pos (by decide)]
  decide

/-- C117, example. -/
theorem C117_example : runtimeVersion [] (S "v0.22.0\n") (S "v0.15.1\n") = S "v0.22.0" ∧ runtimeVersion [] [] (S "v0.15.1-6-g550333d\n") = S "v0.15.1-6-g550333d" ∧
    runtimeVersion (S "v1") (S "v0.22.0\n") [] = S "v1" := by decide

end Verif.Props
