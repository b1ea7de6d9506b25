import Verif.Props.Accepts
import Verif.Props.JsonText
/-!
# Properties of decoding: unknown and missing members, and their order (C79)
-/

namespace Verif.Values
open Verif.Schema hiding Json Method
open Verif.Json Verif.Gen Verif.Rpc Verif.RpcSpec Verif.Props Verif.Spec

variable [GoFloat]

theorem members_append (d : Decls) (fs : List FieldDecl) (l m : List (Str × Json)) (vals : List GoVal) :
    decodeMembers d fs vals (l ++ m) = (decodeMembers d fs vals l).bind fun v => decodeMembers d fs v m := by
  induction l generalizing vals with
  | nil => rw [List.nil_append, decodeMembers]; rfl
  | cons p l ih =>
    obtain ⟨key, j⟩ := p
    rw [List.cons_append, decodeMembers, decodeMembers]
    cases fieldIndex fs key with
    | none => exact ih vals
    | some i =>
      dsimp only
      cases fs[i]? with
      | none => rfl
      | some f =>
        dsimp only
        cases decode d f.type (vals[i]?.getD (zero f.type)) j with
        | none => rfl
        | some v => exact ih _

/-- C79. Members that are for no field are ignored, whatever they hold: adding fields to a type on one side does not
break the other side. -/
theorem C79_unknown (d : Decls) {fs : List FieldDecl} (hfs : (fs.filterMap (·.tag)).Pairwise (· ≠ ·)) (key : Str) (j : Json)
    (l m : List (Str × Json)) (h : ∀ f, ¬ FieldOf fs key f) :
    decodePayload d fs (.obj (l ++ (key, j) :: m)) = decodePayload d fs (.obj (l ++ m)) := by
  rw [decodePayload, decodePayload, members_append, members_append]
  congr 1
  funext v
  rw [decodeMembers]
  rcases field_of hfs key with ⟨h1, -⟩ | ⟨i, f, -, -, h3⟩
  · rw [h1]
  · exact absurd ((h3 f).2 rfl) (h f)

theorem members_absent {d : Decls} {fs : List FieldDecl} (hfs : (fs.filterMap (·.tag)).Pairwise (· ≠ ·)) {l : List (Str × Json)}
    {vals vs : List GoVal} {i : Nat} {f : FieldDecl} (hf : fs[i]? = some f) (hl : ∀ p ∈ l, ¬ FieldOf fs p.1 f)
    (h : decodeMembers d fs vals l = some vs) : vs[i]? = vals[i]? := by
  induction l generalizing vals with
  | nil => cases h; rfl
  | cons p l ih =>
    obtain ⟨key, j⟩ := p
    have ih' := fun vals h => @ih vals (fun p hp => hl p (List.mem_cons_of_mem _ hp)) h
    rw [decodeMembers] at h
    rcases field_of hfs key with ⟨h1, -⟩ | ⟨k, g, h1, h2, h3⟩
    · rw [h1] at h; exact ih' _ h
    · rw [h1] at h
      dsimp only at h
      rw [h2] at h
      dsimp only at h
      have hik : k ≠ i := by
        rintro rfl
        rw [hf] at h2
        cases h2
        exact hl (key, j) List.mem_cons_self ((h3 f).2 rfl)
      cases hd : decode d g.type (vals[k]?.getD (zero g.type)) j with
      | none => rw [hd] at h; cases h
      | some v =>
        rw [hd] at h
        rw [ih' _ h, List.getElem?_set_ne hik]

/-- C79. A field without a member has the zero value of its type. -/
theorem C79_absent (d : Decls) {fs : List FieldDecl} (hfs : (fs.filterMap (·.tag)).Pairwise (· ≠ ·)) (l : List (Str × Json))
    (vals : List GoVal) (i : Nat) (f : FieldDecl) (hf : fs[i]? = some f) (hl : ∀ p ∈ l, ¬ FieldOf fs p.1 f)
    (h : decodePayload d fs (.obj l) = some vals) : vals[i]? = some (zero f.type) := by
  rw [decodePayload] at h
  rw [members_absent hfs hf hl h]
  unfold zeros
  rw [List.getElem?_map, hf]; rfl

/-- Two members for different fields, if they are for fields at all. -/
def Apart (fs : List FieldDecl) (p q : Str × Json) : Prop := ∀ f, ¬ (FieldOf fs p.1 f ∧ FieldOf fs q.1 f)

/-- One member. -/
def step (d : Decls) (fs : List FieldDecl) (vals : List GoVal) (p : Str × Json) : Option (List GoVal) :=
  decodeMembers d fs vals [p]

theorem members_cons (d : Decls) (fs : List FieldDecl) (vals : List GoVal) (p : Str × Json) (l : List (Str × Json)) :
    decodeMembers d fs vals (p :: l) = (step d fs vals p).bind fun v => decodeMembers d fs v l := by
  rw [← List.singleton_append, members_append]; rfl

theorem step_swap (d : Decls) {fs : List FieldDecl} (hfs : (fs.filterMap (·.tag)).Pairwise (· ≠ ·)) {p q : Str × Json}
    (h : Apart fs p q) (vals : List GoVal) :
    ((step d fs vals p).bind fun v => step d fs v q) = ((step d fs vals q).bind fun v => step d fs v p) := by
  obtain ⟨k, j⟩ := p
  obtain ⟨k', j'⟩ := q
  unfold step
  simp only [decodeMembers]
  rcases field_of hfs k with ⟨h1, -⟩ | ⟨a, f, h1, h2, h3⟩ <;> rcases field_of hfs k' with ⟨g1, -⟩ | ⟨b, g, g1, g2, g3⟩
  · rw [h1, g1]
  · rw [h1, g1]
    dsimp only
    rw [g2]
    simp only [Option.bind_some]
    cases decode d g.type (vals[b]?.getD (zero g.type)) j' <;> rfl
  · rw [h1, g1]
    dsimp only
    rw [h2]
    simp only [Option.bind_some]
    cases decode d f.type (vals[a]?.getD (zero f.type)) j <;> rfl
  · have hab : a ≠ b := by
      rintro rfl
      rw [h2] at g2
      cases g2
      exact h f ⟨(h3 f).2 rfl, (g3 f).2 rfl⟩
    rw [h1, g1]
    dsimp only
    rw [h2, g2]
    dsimp only
    cases e1 : decode d f.type (vals[a]?.getD (zero f.type)) j with
    | none =>
      cases e2 : decode d g.type (vals[b]?.getD (zero g.type)) j' with
      | none => rfl
      | some w =>
        simp only [Option.bind_some, Option.bind_none]
        rw [List.getElem?_set_ne hab.symm, e1]
    | some v =>
      simp only [Option.bind_some]
      rw [List.getElem?_set_ne hab]
      cases e2 : decode d g.type (vals[b]?.getD (zero g.type)) j' with
      | none => rfl
      | some w =>
        simp only [Option.bind_some]
        rw [List.getElem?_set_ne hab.symm, e1]
        dsimp only
        rw [List.set_comm _ _ hab]

theorem members_perm (d : Decls) {fs : List FieldDecl} (hfs : (fs.filterMap (·.tag)).Pairwise (· ≠ ·)) {l m : List (Str × Json)}
    (h : l.Perm m) : l.Pairwise (Apart fs) → ∀ vals, decodeMembers d fs vals l = decodeMembers d fs vals m := by
  induction h with
  | nil => intro _ _; rfl
  | cons p _ ih =>
    intro hp vals
    rw [members_cons, members_cons]
    congr 1
    funext v
    exact ih (List.pairwise_cons.1 hp).2 v
  | swap p q l =>
    intro hp vals
    have h1 := (List.pairwise_cons.1 hp).1 p List.mem_cons_self
    have h2 := step_swap d hfs h1 vals
    rw [members_cons, members_cons]
    simp only [members_cons d fs _ _ l]
    rw [← Option.bind_assoc, ← Option.bind_assoc, h2]
  | trans h1 _ ih1 ih2 =>
    intro hp vals
    rw [ih1 hp vals]
    refine ih2 ?_ vals
    exact (h1.pairwise_iff (fun {a b} hab f hf => hab f hf.symm)).1 hp

/-- C79. The order of the members does not matter, as long as no two are for the same field. -/
theorem C79_order (d : Decls) {fs : List FieldDecl} (hfs : (fs.filterMap (·.tag)).Pairwise (· ≠ ·)) (l m : List (Str × Json))
    (h : l.Perm m) (hl : l.Pairwise fun p q => ∀ f, ¬ (FieldOf fs p.1 f ∧ FieldOf fs q.1 f)) :
    decodePayload d fs (.obj l) = decodePayload d fs (.obj m) := members_perm d hfs h hl _

omit [GoFloat] in
/-- C79. Bodies for the method `SendOne` of the test service: names in another case and unknown members are accepted; a
fraction, a number out of range and a string in place of a number are not. -/
theorem C79_example :
    let _ := wholeFloats
    let args := (testSignature (S "SendOne")).args
    (∃ j, JsonText (S "{\"ONE\": {\"Id\": 3, \"extra\": [1]}}") j ∧ AcceptsPayload testDecls args j) ∧
    (∃ j, JsonText (S "{\"one\": {\"id\": 3.0}}") j ∧ ¬ AcceptsPayload testDecls args j) ∧
    (∃ j, JsonText (S "{\"one\": {\"id\": 9223372036854775808}}") j ∧ ¬ AcceptsPayload testDecls args j) ∧
    (∃ j, JsonText (S "{\"one\": {\"id\": \"3\"}}") j ∧ ¬ AcceptsPayload testDecls args j) := by
  letI := wholeFloats
  have key : ∀ (t : Str) (j : Json), parse t = some j → JsonText t j ∧
      ((decodePayload testDecls (testSignature (S "SendOne")).args j).isSome = true ↔
        AcceptsPayload testDecls (testSignature (S "SendOne")).args j) := by
    intro t j h
    have hj := parse_iff.1 h
    exact ⟨hj, payload_accepts testDecls_ok (by decide +kernel) (text_proper hj)⟩
  have e1 := key _ _ (readsAs_iff (s := S "{\"ONE\": {\"Id\": 3, \"extra\": [1]}}")
    (j := .obj [(S "ONE", .obj [(S "Id", .num (S "3")), (S "extra", .arr [.num (S "1")])])]) (by decide +kernel))
  have e2 := key _ _ (readsAs_iff (s := S "{\"one\": {\"id\": 3.0}}") (j := .obj [(S "one", .obj [(S "id", .num (S "3.0"))])])
    (by decide +kernel))
  have e3 := key _ _ (readsAs_iff (s := S "{\"one\": {\"id\": 9223372036854775808}}")
    (j := .obj [(S "one", .obj [(S "id", .num (S "9223372036854775808"))])]) (by decide +kernel))
  have e4 := key _ _ (readsAs_iff (s := S "{\"one\": {\"id\": \"3\"}}") (j := .obj [(S "one", .obj [(S "id", .str (S "3"))])])
    (by decide +kernel))
  refine ⟨⟨_, e1.1, e1.2.1 (by decide +kernel)⟩, ⟨_, e2.1, fun h => ?_⟩, ⟨_, e3.1, fun h => ?_⟩, ⟨_, e4.1, fun h => ?_⟩⟩
  · exact absurd (e2.2.2 h) (by decide +kernel)
  · exact absurd (e3.2.2 h) (by decide +kernel)
  · exact absurd (e4.2.2 h) (by decide +kernel)

end Verif.Values
