import Verif.Ridl.ExecDocument
import Verif.Props.Parser
/-!
# Documents are understood as they are written (C65)

`document` (Spec/Document.lean) is the text an author writes for a list of declarations, `Item.entries` what a reader
understands, `Node.entry` what the nodes of the parser say.
-/

namespace Verif.Ridl
open Verif.Spec

/-- C65: the parser reads the text of every document and understands each declaration as it was written: all of them, in
order, with every name, type, value, argument, annotation, meta line and doc comment, and nothing else. -/
theorem C65_document (items : List Item) (h : ∀ i ∈ items, i.Ok) :
    ∃ nodes, parseDoc (document items) = .ok nodes ∧ nodes.map Node.entry = items.flatMap Item.entries := by
  obtain ⟨ts, cm, h1, h2, h3⟩ := document_tokens (itemRows items) (items_ok h)
  obtain ⟨fuel, nodes, h4, h5⟩ := runs_end (run_items h .default (Nat.le_refl 1) h3) ts h2
  have hnp : newParser (document items) = some { tokens := ts, comments := cm } := by
    have : document items = (itemRows items).flatMap (· ++ ['\n']) := rfl
    rw [this]
    simp [newParser, h1]
  have hN : parseN fuel (document items) = .ok nodes := by
    unfold parseN; rw [hnp]; exact h4
  refine ⟨nodes, ?_, by simpa using h5⟩
  have hne : parseDoc (document items) ≠ .outOfFuel := by
    intro ho
    have := Props.parseDoc_hangs ho fuel
    rw [hN] at this; cases this
  unfold parseDoc at hne ⊢
  rw [hnp] at hne ⊢
  dsimp only at hne ⊢
  have m1 := run_mono fuel (bound { tokens := ts, comments := cm }) _ _ _ _ h4 (by simp)
  have m2 := run_mono (bound { tokens := ts, comments := cm }) fuel _ _ _ _ rfl hne
  rw [Nat.add_comm] at m2
  rw [← m2]; exact m1

/-! ### A document that meets the hypotheses -/

instance (w : Str) : Decidable (IsWord w) :=
  match w with
  | [] => isFalse (by rintro ⟨_, _, h, _⟩; cases h)
  | c :: cs => decidable_of_iff (((('a' ≤ c ∧ c ≤ 'z') ∨ ('A' ≤ c ∧ c ≤ 'Z') ∨ ('0' ≤ c ∧ c ≤ '9')) ∨ c = '_') ∧ ∀ x ∈ cs, ¬ x ∈ "\x00 \t\r\n[]()<>{}=:¿?¡!,\"".toList)
      ⟨fun h => ⟨c, cs, rfl, h⟩, by rintro ⟨_, _, e, h⟩; cases e; exact h⟩

instance (s : Str) : Decidable (Clear s) := inferInstanceAs (Decidable ((∀ c ∈ s, c.toNat < 128) ∧ '\\' ∉ s))
instance (s : Str) : Decidable (Quotable s) := inferInstanceAs (Decidable (_ ∧ _))
instance (s : Str) : Decidable (DocLine s) := inferInstanceAs (Decidable (_ ∧ _))
instance (s : Str) : Decidable (Digits s) := inferInstanceAs (Decidable (_ ∧ _))
instance (s : Str) : Decidable (IsTypeWord s) := inferInstanceAs (Decidable (_ ∧ _))

def sampleItems : List Item := [
  .define ["the version".toList] "webrpc".toList (.bare "v1".toList),
  .define [] "name".toList (.quoted "a\tb".toList),
  .importFiles [.bare "../types.ridl".toList],
  .error "404".toList "NotFound".toList (.quoted "no such user".toList) (some "404".toList),
  .enum [] "Kind".toList "uint8".toList [⟨["first".toList], "USER".toList, some (.bare "1".toList)⟩, ⟨[], "ADMIN".toList, none⟩],
  .alias [] "Id".toList (.scalar "string".toList) [],
  .struct ["a user".toList, "of the system".toList] "User".toList
    [⟨["tags".toList], "tags".toList, true, .map "string".toList (.list (.named "Kind".toList)), [("json".toList, .bare "tags,omitempty".toList)]⟩],
  .service [] "Users".toList
    [⟨["find".toList], [[⟨"auth".toList, some (.bare "jwt".toList)⟩, ⟨"note".toList, some (.quoted "a b".toList)⟩]], "Find".toList,
        some ⟨false, .list [⟨"id".toList, false, .named "Id".toList⟩, ⟨"n".toList, true, .scalar "int".toList⟩], some (true, .whole "User".toList), ["NotFound".toList]⟩⟩,
     ⟨[], [], "Old".toList, none⟩]]

example : ∀ i ∈ sampleItems, i.Ok := by
  intro i hi
  simp only [sampleItems, List.mem_cons, List.not_mem_nil, or_false] at hi
  rcases hi with rfl | rfl | rfl | rfl | rfl | rfl | rfl | rfl
  · exact ⟨by decide +kernel, by decide, by decide, by decide +kernel, [], _, rfl, by decide, .inr (by decide +kernel)⟩
  · exact ⟨by decide, by decide, (by decide +kernel : Quotable _)⟩
  · intro p hp
    rw [List.mem_singleton.1 hp]
    exact ⟨by decide, by decide +kernel, ['.', '.', '/'], "types.ridl".toList, rfl, by decide, .inr (by decide +kernel)⟩
  · exact ⟨by decide +kernel, by decide +kernel, by decide +kernel, (by decide +kernel : Quotable _), by
      intro s hs; cases hs; decide +kernel⟩
  · refine ⟨by decide, by decide +kernel, by decide +kernel, ?_⟩
    intro m hm
    simp only [List.mem_cons, List.not_mem_nil, or_false] at hm
    rcases hm with rfl | rfl
    · exact ⟨by decide +kernel, by decide +kernel, by
        intro v hv; cases hv; exact ⟨by decide, by decide +kernel, [], _, rfl, by decide, .inr (by decide +kernel)⟩⟩
    · exact ⟨by decide +kernel, by decide +kernel, by intro v hv; cases hv⟩
  · exact ⟨by decide, by decide +kernel, (by decide +kernel : IsTypeWord _), by simp⟩
  · refine ⟨by decide +kernel, by decide +kernel, ?_⟩
    intro m hm
    rw [List.mem_singleton.1 hm]
    refine ⟨by decide +kernel, by decide +kernel, ⟨by decide +kernel, (by decide +kernel : IsTypeWord _)⟩, ?_⟩
    intro m hm
    rw [List.mem_singleton.1 hm]
    refine ⟨by decide +kernel, by decide +kernel, by decide, by decide +kernel, by decide, ?_⟩
    unfold Blank; decide
  · refine ⟨by decide, by decide +kernel, by decide +kernel, ?_⟩
    intro m hm
    simp only [List.mem_cons, List.not_mem_nil, or_false] at hm
    rcases hm with rfl | rfl
    · refine ⟨by decide +kernel, ?_, by decide, by decide +kernel, by decide, by decide, ?_⟩
      · intro l hl
        rw [List.mem_singleton.1 hl]
        refine ⟨by simp, ?_⟩
        intro a ha
        simp only [List.mem_cons, List.not_mem_nil, or_false] at ha
        rcases ha with rfl | rfl
        · exact ⟨by decide +kernel, by intro v hv; cases hv; exact (by decide +kernel : IsWord "jwt".toList)⟩
        · exact ⟨by decide +kernel, by intro v hv; cases hv; exact (by decide +kernel : Quotable "a b".toList)⟩
      · intro s hs
        cases hs
        refine ⟨?_, ?_, by decide +kernel⟩
        · intro p hp
          simp only [List.mem_cons, List.not_mem_nil, or_false] at hp
          rcases hp with rfl | rfl
          · exact ⟨by decide +kernel, (by decide +kernel : IsTypeWord _)⟩
          · exact ⟨by decide +kernel, (by decide +kernel : IsTypeWord _)⟩
        · intro o ho; cases ho; exact (by decide +kernel : IsWord "User".toList)
    · exact ⟨by decide, by simp, by decide, by decide +kernel, by decide, by decide, by simp⟩

/-- The same document, run through the parser. -/
example : (match parseDoc (document sampleItems) with | .ok nodes => some (nodes.map Node.entry) | _ => none) = some (sampleItems.flatMap Item.entries) := by
  decide +kernel

/-! ### What the layout is needed for -/

/-- The entries the parser finds in a text. -/
def entriesOf (src : Str) : Option (List Entry) :=
  match parseDoc src with
  | .ok nodes => some (nodes.map Node.entry)
  | _ => none

/-- C65: a blank row between a service and the next declaration is needed: after `F(R)` the first word of the next row is
dropped, and the rest of the document with it. -/
theorem C65_blank_row_needed :
    entriesOf "service A\n  - F(R)\n\nstruct B\n".toList =
      some [.service [] ['A'] [{ doc := [], anns := [], name := ['F'], proxy := false, streamIn := false, inputs := [.whole ['R']], streamOut := false, outputs := [], errors := [] }], .struct [] ['B'] []] ∧
    entriesOf "service A\n  - F(R)\nstruct B\n".toList = none := by
  decide +kernel

/-- C65: one word after the signature of a method is dropped without an error. -/
theorem C65_junk_dropped : entriesOf "service A\n  - F() junk\n".toList = entriesOf "service A\n  - F()\n".toList ∧ entriesOf "service A\n  - F()\n".toList ≠ none := by
  decide +kernel

/-- C65: the doc comment of an enum is lost when a member has an explicit value. -/
theorem C65_enum_doc_lost :
    entriesOf "# doc\nenum K: uint8\n  - A\n".toList = some [.enum "doc".toList ['K'] "uint8".toList [{ doc := [], name := ['A'], value := none, optional := false, metas := [] }]] ∧
    entriesOf "# doc\nenum K: uint8\n  - A = 1\n".toList = some [.enum [] ['K'] "uint8".toList [{ doc := [], name := ['A'], value := some ['1'], optional := false, metas := [] }]] := by
  decide +kernel

/-- C65: the doc comment of a method is lost when two annotation lines follow it. -/
theorem C65_method_doc_lost :
    entriesOf "service A\n  # doc\n  @a\n  @b\n  - proxy P\n".toList =
      some [.service [] ['A'] [{ doc := [], anns := [(['a'], none), (['b'], none)], name := ['P'], proxy := true, streamIn := false, inputs := [], streamOut := false, outputs := [], errors := [] }]] ∧
    entriesOf "service A\n  # doc\n  @a @b\n  - proxy P\n".toList =
      some [.service [] ['A'] [{ doc := "doc".toList, anns := [(['a'], none), (['b'], none)], name := ['P'], proxy := true, streamIn := false, inputs := [], streamOut := false, outputs := [], errors := [] }]] := by
  decide +kernel

end Verif.Ridl
