import Verif.Props.Basics
/-!
# C86: the other methods of the golang-basics example
-/

namespace Verif.Values
open Verif.Schema hiding Json Method
open Verif.Json Verif.Gen Verif.Rpc Verif.RpcSpec Verif.Props

section
variable [GoFloat] [GoUnicode]

omit [GoFloat] [GoUnicode] in
theorem eq_bool {i : Bool} {w : GoVal} (h : deepEqual (.bool i) w = true) : w = .bool i := by
  cases w <;> unfold deepEqual at h <;> first | cases h | skip
  rw [eq_of_beq h]

omit [GoFloat] [GoUnicode] in
theorem eq_list {l : List GoVal} {w : GoVal} (h : deepEqual (.list l) w = true) : ∃ l', w = .list l' ∧ deepEqualList l l' = true := by
  cases w <;> unfold deepEqual at h <;> first | cases h | exact ⟨_, rfl, h⟩

/-- C86. The other methods of the example give what main.go:88-98 and 155-165 return: `Ping` nothing, `Status` true, `Version`
the three versions compiled into the program, `GetIntents` the three intents in this order and `CountIntents`, for any user, the
count of each of them. -/
theorem C86_others :
    basicsCall (S "Ping") [] = .ok [] ∧
    basicsCall (S "Status") [] = .ok [.bool true] ∧
    basicsCall (S "Version") [] =
      .ok [.ptr (.struct [.str (S "v1"), .str (S "v1.0.0"), .str (S "7bfed0257958d00737ced09f9818372bfa89bc42")])] ∧
    basicsCall (S "GetIntents") [] =
      .ok [.list [.str (S "openSession"), .str (S "closeSession"), .str (S "validateSession")]] ∧
    (∀ uid, FitsUnsigned 64 uid → ∃ vals, basicsCall (S "CountIntents") [.int uid] = .ok vals ∧
      deepEqualList [.map [(.str (S "openSession"), .int 1), (.str (S "closeSession"), .int 2), (.str (S "validateSession"), .int 3)]]
        vals = true) := by
  refine ⟨?_, ?_, ?_, ?_, ?_⟩
  · obtain ⟨hm, hn⟩ := example_method (name := S "Ping") (by decide +kernel)
    obtain ⟨r, args', -, -, -, -, h5, -⟩ := C86_runs_partial exampleImpl adminImpl _ hm (by rw [hn]; decide) []
      (show CarriedArgs basicsDecls (.list []) [] from .nil)
    rw [hn] at h5
    obtain ⟨vals, h1, h2⟩ := h5 [] rfl (show CarriedResults basicsDecls (.list []) [] from .nil)
    have := eq_nil h2
    subst this
    exact h1
  · obtain ⟨hm, hn⟩ := example_method (name := S "Status") (by decide +kernel)
    obtain ⟨r, args', -, -, -, -, h5, -⟩ := C86_runs_partial exampleImpl adminImpl _ hm (by rw [hn]; decide) []
      (show CarriedArgs basicsDecls (.list []) [] from .nil)
    rw [hn] at h5
    obtain ⟨vals, h1, h2⟩ := h5 [.bool true] rfl (show CarriedResults basicsDecls (.list [fld (S "status") .bool]) _ from plainField (.bool _) .nil)
    obtain ⟨b, l, rfl, hb, hl⟩ := eq_cons h2
    have := eq_nil hl
    subst this
    have := eq_bool hb
    subst this
    exact h1
  · obtain ⟨hm, hn⟩ := example_method (name := S "Version") (by decide +kernel)
    obtain ⟨r, args', -, -, -, -, h5, -⟩ := C86_runs_partial exampleImpl adminImpl _ hm (by rw [hn]; decide) []
      (show CarriedArgs basicsDecls (.list []) [] from .nil)
    rw [hn] at h5
    obtain ⟨vals, h1, h2⟩ := h5 [basicsVersion] rfl
      (show CarriedResults basicsDecls (.list [fld (S "version") (.ref (S "Version"))]) _ from
        plainField (.ref (plainField (.str _) (plainField (.str _) (plainField (.str _) .nil)))) .nil)
    obtain ⟨b, l, rfl, hb, hl⟩ := eq_cons h2
    have := eq_nil hl
    subst this
    obtain ⟨l', rfl, hl'⟩ := eq_ptr hb
    obtain ⟨l', rfl, hl'⟩ := eq_struct hl'
    obtain ⟨b1, l, rfl, hb1, hl⟩ := eq_cons hl'
    obtain ⟨b2, l, rfl, hb2, hl⟩ := eq_cons hl
    obtain ⟨b3, l, rfl, hb3, hl⟩ := eq_cons hl
    have := eq_nil hl
    subst this
    rw [eq_str hb1, eq_str hb2, eq_str hb3] at h1
    exact h1
  · obtain ⟨hm, hn⟩ := example_method (name := S "GetIntents") (by decide +kernel)
    obtain ⟨r, args', -, -, -, -, h5, -⟩ := C86_runs_partial exampleImpl adminImpl _ hm (by rw [hn]; decide) []
      (show CarriedArgs basicsDecls (.list []) [] from .nil)
    rw [hn] at h5
    obtain ⟨vals, h1, h2⟩ := h5 [.list [.str (S "openSession"), .str (S "closeSession"), .str (S "validateSession")]] rfl
      (show CarriedResults basicsDecls (.list [fld (S "intents") (.list .string)]) _ from plainField (.list (by decide) (by
        intro v hv
        simp only [List.mem_cons, List.not_mem_nil, or_false] at hv
        rcases hv with rfl | rfl | rfl <;> exact .str _)) .nil)
    obtain ⟨b, l, rfl, hb, hl⟩ := eq_cons h2
    have := eq_nil hl
    subst this
    obtain ⟨l', rfl, hl'⟩ := eq_list hb
    obtain ⟨b1, l, rfl, hb1, hl⟩ := eq_cons hl'
    obtain ⟨b2, l, rfl, hb2, hl⟩ := eq_cons hl
    obtain ⟨b3, l, rfl, hb3, hl⟩ := eq_cons hl
    have := eq_nil hl
    subst this
    rw [eq_str hb1, eq_str hb2, eq_str hb3] at h1
    exact h1
  · intro uid hu
    obtain ⟨hm, hn⟩ := example_method (name := S "CountIntents") (by decide +kernel)
    obtain ⟨r, args', -, -, -, -, h5, -⟩ := C86_runs_partial exampleImpl adminImpl _ hm (by rw [hn]; decide) [.int uid]
      (show CarriedArgs basicsDecls (.list [fld (S "userId") (.uint 64)]) _ from plainField (.uint hu) .nil)
    rw [hn] at h5
    refine h5 _ rfl (show CarriedResults basicsDecls (.list [fld (S "count") (.map .string (.uint 32))]) _ from
      plainField (.map (by decide) ?_ ?_) .nil)
    · intro p hp
      simp only [List.mem_cons, List.not_mem_nil, or_false] at hp
      rcases hp with rfl | rfl | rfl <;> exact .str _
    · intro p hp
      simp only [List.mem_cons, List.not_mem_nil, or_false] at hp
      rcases hp with rfl | rfl | rfl <;> exact .uint (by unfold FitsUnsigned; decide)

end

end Verif.Values
