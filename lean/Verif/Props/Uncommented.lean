import Verif.Ridl.CmTokens

/-! # C110: what a comment says does not matter -/

namespace Verif.Props
open Verif.Ridl
open Verif.Spec.Uncommented

/-- **C110.** Changing what a comment says changes neither whether the document is accepted nor its declarations, apart from their
documentation comments and the places where they stand.  The comment stands on a line of its own, or follows, after a blank, a row
without quotes that does not end in `=`. -/
theorem C110_comment_text_partial {above row text text' below : Str} (ha : LinesBefore above) (hr : BeforeComment row)
    (ht : CommentText text) (ht' : CommentText text') (hb : LinesAfter below) :
    SameMeaning (above ++ row ++ ('#' :: text) ++ below) (above ++ row ++ ('#' :: text') ++ below) := by
  refine ⟨fun ds h => Verif.Ridl.Cm.comment_rel ha hr ht ht' hb h, fun ds' h => ?_⟩
  obtain ⟨ds, h1, -⟩ := Verif.Ridl.Cm.comment_rel ha hr ht' ht hb h
  obtain ⟨ds2, h2, h3⟩ := Verif.Ridl.Cm.comment_rel ha hr ht ht' hb h1
  rw [h] at h2
  cases h2
  exact ⟨ds, h1, h3⟩

/-- How many errors each method lists. -/
def errorCounts (ds : List Node) : List (List Nat) :=
  ds.map fun
    | .service s => s.methods.map (·.errors.length)
    | _ => []

theorem counts_same {ds ds' : List Node} (h : SameDecls ds ds') : errorCounts ds' = errorCounts ds := by
  have hm : ∀ ms ms' : List MethodNode, Verif.Schema.Pointwise MethodRel ms ms' → ms'.map (·.errors.length) = ms.map (·.errors.length) := by
    intro ms ms' h
    induction h with
    | nil => rfl
    | cons h _ ih =>
      have : ∀ es es' : List Token, Verif.Schema.Pointwise TokS es es' → es'.length = es.length := by
        intro es es' h
        induction h with
        | nil => rfl
        | cons _ _ ih => simp [ih]
      simp [ih, this _ _ h.errors]
  unfold SameDecls at h
  unfold errorCounts
  induction h with
  | nil => rfl
  | cons h _ ih =>
    cases h <;> simp only [List.map_cons, ih]
    next h => rw [hm _ _ h.methods]

/-- What `parseDoc` says about the errors of the methods. -/
def errorsOfDoc (src : Str) : Option (List (List Nat)) :=
  match parseDoc src with
  | .ok ds => some (errorCounts ds)
  | _ => none

theorem counts_of_meaning {src src' : Str} (h : SameMeaning src src') : errorsOfDoc src' = errorsOfDoc src := by
  unfold errorsOfDoc
  cases h1 : parseDoc src with
  | ok ds =>
    obtain ⟨ds', h2, h3⟩ := h.1 ds h1
    rw [h2]
    exact congrArg some (counts_same h3)
  | _ =>
    cases h2 : parseDoc src' with
    | ok ds' => obtain ⟨ds, h3, -⟩ := h.2 ds' h2; rw [h1] at h3; cases h3
    | _ => rfl

/-- A comment right behind the parenthesis of an argument list that names a struct is obeyed: here its text makes the method
return an error, and another text makes the document rejected. -/
theorem C110_comment_obeyed :
    errorsOfDoc "service S\n- A(Foo)# errors Bar\n".toList = some [[1]] ∧
    errorsOfDoc "service S\n- A(Foo)#\n".toList = some [[0]] ∧
    errorsOfDoc "service S\n- A(Foo)# see below\n".toList = none ∧
    ¬ SameMeaning "service S\n- A(Foo)#\n".toList "service S\n- A(Foo)# errors Bar\n".toList := by
  have h : errorsOfDoc "service S\n- A(Foo)# errors Bar\n".toList = some [[1]] ∧
      errorsOfDoc "service S\n- A(Foo)#\n".toList = some [[0]] ∧
      errorsOfDoc "service S\n- A(Foo)# see below\n".toList = none := by decide +kernel
  refine ⟨h.1, h.2.1, h.2.2, fun hm => ?_⟩
  have := counts_of_meaning hm
  rw [h.1, h.2.1] at this
  cases this

/-- After a blank the same comment is only a comment. -/
example : errorsOfDoc "service S\n- A(Foo) # errors Bar\n".toList = some [[0]] := by
  rw [← show errorsOfDoc "service S\n- A(Foo) # see \"below\"\n".toList = some [[0]] by decide +kernel]
  refine counts_of_meaning (C110_comment_text_partial (above := "service S\n".toList) (row := "- A(Foo) ".toList)
    (text := " see \"below\"".toList) (text' := " errors Bar".toList) (below := ['\n']) ?_ ?_ ?_ ?_ ?_)
  · exact ⟨by decide, Or.inr ⟨"service S".toList, rfl, by decide⟩⟩
  · exact ⟨by decide, by decide, by decide, by decide,
      Or.inr ⟨"- A(Foo".toList, ')', ' ', [], rfl, by unfold Blanks; decide, by unfold Blanks; decide, by decide⟩⟩
  · exact ⟨by decide, by decide⟩
  · exact ⟨by decide, by decide⟩
  · exact ⟨by decide, Or.inr rfl⟩

end Verif.Props
