import Verif.Ridl.ParserRun

/-! Partial-correctness reasoning about results only: if a function returns `a`, then `Q a`. -/

namespace Verif.Ridl

def Post {α : Type} (m : P α) (Q : α → Prop) : Prop := ∀ p a p', m p = (.ok a, p') → Q a

variable {α β : Type}

theorem post_bind {m : P α} {f : α → P β} {R : α → Prop} {Q : β → Prop} (h : Post m R)
    (hf : ∀ a, R a → Post (f a) Q) : Post (m >>= f) Q := by
  intro p b p' hb
  change P.bind m f p = _ at hb
  unfold P.bind at hb
  rcases hm : m p with ⟨o, q⟩
  rw [hm] at hb
  cases o with
  | ok a => exact hf a (h p a q hm) q b p' hb
  | err e => simp at hb
  | panic => simp at hb
  | hang => simp at hb

theorem post_bind' {m : P α} {f : α → P β} {Q : β → Prop} (hf : ∀ a, Post (f a) Q) : Post (m >>= f) Q :=
  post_bind (R := fun _ => True) (fun _ _ _ _ => trivial) (fun a _ => hf a)

theorem post_pure {a : α} {Q : α → Prop} (h : Q a) : Post (pure a : P α) Q := by
  intro p b p' hb
  change P.pure a p = _ at hb
  simp only [P.pure, Prod.mk.injEq, Out.ok.injEq] at hb
  exact hb.1 ▸ h

theorem post_fail {e : PErr} {Q : α → Prop} : Post (fail e : P α) Q := by
  intro p b p' hb; simp [fail] at hb

theorem post_crash {Q : α → Prop} : Post (crash : P α) Q := by
  intro p b p' hb; simp [crash] at hb

/-- Invariant of the states and of the emitted nodes, kept by every transition, holds of the result. -/
theorem run_invariant {I : St → Prop} {N : Node → Prop}
    (hs : ∀ st, I st → Post (step st) fun r => match r with
      | .goto st' em => I st' ∧ ∀ n ∈ em, N n
      | .done => True)
    (fuel : Nat) (st : St) (p : PS) (nodes : List Node) (hi : I st) (hn : ∀ n ∈ nodes, N n)
    (out : List Node) (h : runN fuel st p nodes = .ok out) : ∀ n ∈ out, N n := by
  induction fuel generalizing st p nodes with
  | zero => simp [runN] at h
  | succ fuel ih =>
    unfold runN at h
    rcases hm : step st p with ⟨o, p'⟩
    rw [hm] at h
    cases o with
    | ok r =>
      have := hs st hi p r p' hm
      cases r with
      | done => simp only [ParseResult.ok.injEq] at h; exact h ▸ hn
      | goto st' em =>
        refine ih st' p' (nodes ++ em) this.1 ?_ h
        intro n hmem
        rcases List.mem_append.1 hmem with hmem | hmem
        · exact hn n hmem
        · exact this.2 n hmem
    | err e => simp at h
    | panic => simp at h
    | hang => simp at h

/-- Names of a method's annotations. -/
def annNames (l : List AnnNode) : List Str := l.map fun a => a.annType.val

theorem hasDup_false (l : List AnnNode) (h : hasDupAnnotation l = false) : (annNames l).Nodup := by
  induction l with
  | nil => simp [annNames]
  | cons a l ih =>
    unfold hasDupAnnotation at h
    simp only [Bool.or_eq_false_iff] at h
    simp only [annNames, List.map_cons, List.nodup_cons]
    refine ⟨?_, ih h.2⟩
    intro hmem
    rw [List.mem_map] at hmem
    obtain ⟨b, hb, he⟩ := hmem
    have := h.1
    rw [List.any_eq_false] at this
    exact this b hb (by simp [he])

theorem hasDup_true (l : List AnnNode) (h : ¬ (annNames l).Nodup) : hasDupAnnotation l = true := by
  cases hd : hasDupAnnotation l with
  | true => rfl
  | false => exact absurd (hasDup_false l hd) h

/-- Every method of the service has annotations with distinct names. -/
def SvcOK (n : ServiceNode) : Prop := ∀ m ∈ n.methods, (annNames m.annotations).Nodup

def StSvcOK : St → Prop
  | .serviceMethod n => SvcOK n
  | .methodDef n => SvcOK n
  | _ => True

def NodeSvcOK : Node → Prop
  | .service n => SvcOK n
  | _ => True

macro "post_auto" : tactic => `(tactic| repeat' first
  | exact post_fail
  | exact post_crash
  | (refine post_bind' fun _ => ?_)
  | (refine post_pure ⟨?_, ?_⟩)
  | split)

theorem svc_invariant (st : St) (hi : StSvcOK st) : Post (step st) fun r => match r with
    | .goto st' em => StSvcOK st' ∧ ∀ n ∈ em, NodeSvcOK n
    | .done => True := by
  cases st with
  | serviceMethod n =>
    change Post (stServiceMethod n) _
    unfold stServiceMethod
    post_auto
    all_goals first | exact hi | (intro n hn; simp at hn; try (subst hn; exact hi)) | trivial
  | methodDef n =>
    change Post (stMethodDef n) _
    unfold stMethodDef
    split
    · exact post_fail
    · rename_i hd
      have hd := hasDup_false _ (by simpa using hd)
      refine post_bind' fun _ => post_bind' fun _ => post_bind' fun _ => post_bind' fun _ =>
        post_bind' fun _ => post_bind' fun _ => ?_
      simp only
      split
      · refine post_pure ⟨?_, by simp⟩
        intro m hm
        simp only [List.mem_append, List.mem_singleton] at hm
        rcases hm with hm | rfl
        · exact hi m hm
        · exact hd
      · refine post_bind' fun ins => ?_
        refine post_bind (R := fun mn => mn.annotations = n.methodAnnotations) ?_ fun mn1 h1 => ?_
        · unfold methodOutputs
          refine post_bind' fun r => ?_
          split
          · exact post_pure rfl
          · exact post_bind' fun _ => post_bind' fun _ => post_pure rfl
        · refine post_bind (R := fun mn => mn.annotations = n.methodAnnotations) ?_ fun mn2 h2 => ?_
          · unfold methodErrors
            refine post_bind' fun r => ?_
            split
            · exact post_pure h1
            · refine post_bind' fun _ => ?_
              split
              · exact post_bind' fun _ => post_pure h1
              · exact post_pure h1
          · refine post_pure ⟨?_, by simp⟩
            intro m hm
            simp only [List.mem_append, List.mem_singleton] at hm
            rcases hm with hm | rfl
            · exact hi m hm
            · rw [h2]; exact hd
  | _ =>
    simp only [step]
    (try simp only [stDefault, stSkip, stDeclaration, stComment, stEOL, stContinue, stDefinition,
      stDefinitionValue, stImport, stImportValue, stImportMembers, stError, stErrorMessage, stErrorStatus,
      stEnum, stEnumDef, stEnumValue, stTypeAlias, stAliasMeta, stAliasMetaDef, stStruct, stStructField,
      stFieldMeta, stFieldMetaDef, stFieldDef, stService])
    post_auto
    all_goals first
      | trivial
      | (intro n hn; simp at hn; done)
      | (intro n hn; simp at hn; subst hn; trivial)
      | (intro m hm; simp at hm; done)
      | exact post_pure trivial

end Verif.Ridl
