import Verif.Ridl.Emit

/-! What the arguments of the methods of an accepted document look like. -/

namespace Verif.Ridl
open Verif.Spec

/-- `(Name)`, or name and type. -/
def ArgOK (a : ArgNode) : Prop :=
  (∃ t, a = { inlineStruct := some t }) ∨ ∃ n t o, a = { name := some n, argType := some t, optional := o }

def MethodArgs (m : MethodNode) : Prop := ∀ a ∈ m.inputs ++ m.outputs, ArgOK a

def ServiceArgs (n : ServiceNode) : Prop := ∀ m ∈ n.methods, MethodArgs m

def StArgs : St → Prop
  | .serviceMethod n => ServiceArgs n
  | .methodDef n => ServiceArgs n
  | _ => True

def NodeArgs : Node → Prop
  | .service n => ServiceArgs n
  | _ => True

def StepArgs : Step → Prop
  | .goto st' em => StArgs st' ∧ ∀ n ∈ em, NodeArgs n
  | .done => True

theorem args_none {st : St} (h : StArgs st) : Tri (pure (.goto st []) : P Step) StepArgs :=
  tri_pure ⟨h, by simp⟩

theorem args_one {st : St} {n : Node} (h : StArgs st) (hn : NodeArgs n) :
    Tri (pure (.goto st [n]) : P Step) StepArgs := tri_pure ⟨h, by simpa using hn⟩

theorem tri_argsOK : Tri expectArgumentList fun as => ∀ a ∈ as, ArgOK a := by
  unfold expectArgumentList optStream argumentLoop
  have snoc : ∀ {l : List ArgNode} {a : ArgNode}, (∀ x ∈ l, ArgOK x) → ArgOK a → ∀ x ∈ l ++ [a], ArgOK x := by
    intro l a h1 h2 x hx
    rcases List.mem_append.1 hx with hx | hx
    · exact h1 x hx
    · rw [List.mem_singleton.1 hx]; exact h2
  refine tri_bind (R := fun _ => True) ?_ fun _ _ => tri_bind (tri_any (tri_match _)) fun _ _ =>
    tri_loop (fun l => ∀ a ∈ l, ArgOK a) (by simp) fun l hl => ?_
  · refine tri_bind (tri_any (tri_attempt (tri_match _))) fun _ _ => ?_
    tri_auto
  · refine tri_bind (tri_any tri_cursor) fun _ _ => ?_
    split
    · exact tri_bind (tri_any tri_advance) fun _ _ => tri_pure hl
    · exact tri_bind (tri_any tri_advance) fun _ _ => tri_pure hl
    · exact tri_bind (tri_any tri_advance) fun _ _ => tri_pure hl
    · exact tri_bind (tri_any tri_advance) fun _ _ => tri_pure hl
    · refine tri_bind (tri_any (tri_attempt (tri_match _))) fun _ _ => ?_
      split
      · exact tri_bind (tri_any tri_nth) fun _ _ => tri_bind (tri_any tri_advance) fun _ _ => tri_pure (snoc hl (.inl ⟨_, rfl⟩))
      · refine tri_bind (tri_any (tri_attempt (tri_match _))) fun _ _ => ?_
        split
        · exact tri_bind (tri_any tri_nth) fun _ _ => tri_bind tri_expectType fun _ _ => tri_pure (snoc hl (.inr ⟨_, _, _, rfl⟩))
        · exact tri_bind (tri_any (tri_match _)) fun _ _ => tri_bind (tri_any tri_nth) fun _ _ =>
            tri_bind tri_expectType fun _ _ => tri_pure (snoc hl (.inr ⟨_, _, _, rfl⟩))
    · exact tri_fail

theorem tri_outputsOK {mn : MethodNode} (hi : ∀ a ∈ mn.inputs, ArgOK a) (ho : mn.outputs = []) :
    Tri (methodOutputs mn) MethodArgs := by
  unfold methodOutputs outputStream
  refine tri_bind (tri_any (tri_attempt (tri_match _))) fun _ _ => ?_
  split
  · exact tri_pure (by unfold MethodArgs; rw [ho, List.append_nil]; exact hi)
  · refine tri_bind (R := fun _ => True) ?_ fun _ _ => tri_bind tri_argsOK fun as has => tri_pure ?_
    · refine tri_bind (tri_any (tri_attempt (tri_match _))) fun _ _ => ?_
      tri_auto
    · intro a ha
      rcases List.mem_append.1 ha with ha | ha
      · exact hi a ha
      · exact has a ha

theorem tri_errorsOK {mn : MethodNode} (h : MethodArgs mn) : Tri (methodErrors mn) MethodArgs := by
  unfold methodErrors
  refine tri_bind (tri_any (tri_attempt (tri_match _))) fun _ _ => ?_
  split
  · exact tri_pure h
  · refine tri_bind (tri_any tri_nth) fun _ _ => ?_
    split
    · exact tri_bind tri_errorList fun _ _ => tri_pure h
    · exact tri_pure h

/-- Every transition keeps the invariant. -/
theorem args_step (st : St) (hi : StArgs st) : Tri (step st) StepArgs := by
  cases st with
  | service =>
    change Tri stService _
    unfold stService
    refine tri_bind (tri_any (tri_match _)) fun _ _ => tri_bind (tri_any tri_nth) fun _ _ => ?_
    split
    · exact tri_fail
    · refine tri_bind (tri_any tri_literalValue) fun _ _ => tri_bind tri_expectEOL fun _ _ => tri_bind tri_takeComments fun _ _ => args_none ?_
      intro m hm
      cases hm
  | serviceMethod n =>
    change Tri (stServiceMethod n) _
    unfold stServiceMethod
    refine tri_bind (tri_any tri_cursor) fun _ _ => ?_
    split
    · exact tri_bind (tri_any tri_advance) fun _ _ => args_none hi
    · exact tri_bind (tri_any tri_advance) fun _ _ => args_none hi
    · exact tri_bind tri_annotations fun _ _ => args_none hi
    · exact tri_bind tri_continueUntilEOL fun _ _ => args_none hi
    · exact args_none hi
    · exact args_one trivial hi
  | methodDef n =>
    change Tri (stMethodDef n) _
    unfold stMethodDef
    have add : ∀ {mn : MethodNode} {anns : List AnnNode}, MethodArgs mn →
        ServiceArgs { n with methods := n.methods ++ [mn], methodAnnotations := anns } := by
      intro mn anns h m hm
      rcases List.mem_append.1 hm with hm | hm
      · exact hi m hm
      · rw [List.mem_singleton.1 hm]; exact h
    split
    · exact tri_fail
    refine tri_bind (tri_any (tri_match _)) fun _ _ => tri_bind (tri_any tri_nth) fun _ _ => tri_bind (tri_any tri_nth) fun _ _ =>
      tri_bind (tri_prefixedName _ _) fun _ _ => tri_bind (tri_prefixedName _ _) fun _ _ => ?_
    refine tri_bind tri_takeComments fun _ _ => ?_
    dsimp only
    split
    · exact args_none (add (by intro a ha; cases ha))
    · exact tri_bind tri_argsOK fun as has => tri_bind (tri_outputsOK has rfl) fun _ h => tri_bind (tri_errorsOK h) fun _ h => args_none (add h)
  | _ =>
    simp only [step]
    (try simp only [stDefault, stSkip, stDeclaration, stComment, stEOL, stContinue, stDefinition, stDefinitionValue, stImportMembers, stImportValue,
      stImport, stError, stErrorMessage, stErrorStatus, stEnum, stEnumDef, stEnumValue,
      stTypeAlias, stAliasMeta, stAliasMetaDef, stStruct, stStructField,
      stFieldMeta, stFieldMetaDef, stFieldDef])
    repeat' first
      | with_reducible exact tri_fail
      | with_reducible exact tri_crash
      | ((with_reducible refine args_none ?_); exact trivial)
      | ((with_reducible refine args_one ?_ ?_) <;> exact trivial)
      | ((with_reducible refine tri_pure ?_); exact trivial)
      | (with_reducible refine tri_bind (tri_any tri_cursor) fun _ _ => ?_)
      | (with_reducible refine tri_bind (tri_any tri_advance) fun _ _ => ?_)
      | (with_reducible refine tri_bind (tri_any tri_nth) fun _ _ => ?_)
      | (with_reducible refine tri_bind (tri_any tri_rewind) fun _ _ => ?_)
      | (with_reducible refine tri_bind (tri_any tri_takeComments) fun _ _ => ?_)
      | (with_reducible refine tri_bind (tri_any (tri_match _)) fun _ _ => ?_)
      | (with_reducible refine tri_bind (tri_any (tri_attempt (tri_match _))) fun _ _ => ?_)
      | (with_reducible refine tri_bind tri_continueUntilEOL fun _ _ => ?_)
      | (with_reducible refine tri_bind tri_expectEOL fun _ _ => ?_)
      | (with_reducible refine tri_bind tri_metaLine fun _ _ => ?_)
      | (with_reducible refine tri_bind tri_expectType fun _ _ => ?_)
      | (with_reducible refine tri_bind (tri_any tri_string) fun _ _ => ?_)
      | (with_reducible refine tri_bind (tri_any tri_path) fun _ _ => ?_)
      | (with_reducible refine tri_bind (tri_any tri_literalValue) fun _ _ => ?_)
      | (with_reducible refine tri_bind (R := fun _ => True) (tri_loop (fun _ => True) trivial fun _ _ => ?_) fun _ _ => ?_)
      | split

theorem run_args (fuel : Nat) (st : St) (p : PS) (nodes : List Node) (hp : p.Full) (hi : StArgs st)
    (hn : ∀ n ∈ nodes, NodeArgs n) (out : List Node) (h : runN fuel st p nodes = .ok out) :
    ∀ n ∈ out, NodeArgs n := by
  induction fuel generalizing st p nodes with
  | zero => simp [runN] at h
  | succ fuel ih =>
    unfold runN at h
    rcases hm : step st p with ⟨o, p'⟩
    rw [hm] at h
    have hs := args_step st hi p o p' hp hm
    cases o with
    | ok r =>
      have hs2 := hs.2 r rfl
      cases r with
      | done => simp only [ParseResult.ok.injEq] at h; exact h ▸ hn
      | goto st' em =>
        refine ih st' p' (nodes ++ em) hs.1 hs2.1 ?_ h
        intro n hmem
        rcases List.mem_append.1 hmem with hmem | hmem
        · exact hn n hmem
        · exact hs2.2 n hmem
    | err e => simp at h
    | panic => simp at h
    | hang => simp at h

/-- Every argument of an accepted document is `(Name)` or has a name and a type. -/
theorem parseDoc_args {src : Str} {out : List Node} (h : parseDoc src = .ok out) : ∀ n ∈ out, NodeArgs n := by
  unfold parseDoc at h
  obtain ⟨ts, h1, h2⟩ := tokenize_ok src
  have hnp : newParser src = some { tokens := ts, comments := (ts.foldl tokenizeStep {}).lineComments } := by
    simp [newParser, h1]
  rw [hnp] at h
  refine run_args _ .default _ [] ?_ trivial (by simp) out h
  intro t ht
  obtain ⟨post, hp⟩ := segments_mem h2.seg (t.tt, t.val) (List.mem_map_of_mem ht)
  exact hp.ne_nil

end Verif.Ridl
