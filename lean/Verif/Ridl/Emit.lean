import Verif.Ridl.Post
import Verif.Ridl.TokenizerLemmas

/-! Partial correctness with the tokens at hand: what the nodes of an accepted document look like. -/

namespace Verif.Ridl
open Verif.Spec

/-- No token has an empty text. -/
def PS.Full (p : PS) : Prop := ∀ t ∈ p.tokens, t.val ≠ []

/-- Whatever `m` does, the tokens keep non-empty texts; if it returns `a`, then `Q a`. -/
def Tri {α : Type} (m : P α) (Q : α → Prop) : Prop :=
  ∀ p o p', p.Full → m p = (o, p') → p'.Full ∧ ∀ a, o = .ok a → Q a

variable {α β σ : Type}

theorem Tri.mono {m : P α} {Q R : α → Prop} (h : Tri m Q) (hq : ∀ a, Q a → R a) : Tri m R :=
  fun p o p' hp hm => ⟨(h p o p' hp hm).1, fun a ha => hq a ((h p o p' hp hm).2 a ha)⟩

theorem tri_bind {m : P α} {f : α → P β} {R : α → Prop} {Q : β → Prop} (h : Tri m R)
    (hf : ∀ a, R a → Tri (f a) Q) : Tri (m >>= f) Q := by
  intro p o p' hp hb
  change P.bind m f p = _ at hb
  unfold P.bind at hb
  rcases hm : m p with ⟨o', q⟩
  have := h p o' q hp hm
  rw [hm] at hb
  cases o' with
  | ok a => exact hf a (this.2 a rfl) q o p' this.1 hb
  | err e => simp only [Prod.mk.injEq] at hb; obtain ⟨rfl, rfl⟩ := hb; exact ⟨this.1, by simp⟩
  | panic => simp only [Prod.mk.injEq] at hb; obtain ⟨rfl, rfl⟩ := hb; exact ⟨this.1, by simp⟩
  | hang => simp only [Prod.mk.injEq] at hb; obtain ⟨rfl, rfl⟩ := hb; exact ⟨this.1, by simp⟩

theorem tri_pure {a : α} {Q : α → Prop} (h : Q a) : Tri (pure a : P α) Q := by
  intro p o p' hp hb
  change P.pure a p = _ at hb
  simp only [P.pure, Prod.mk.injEq] at hb
  obtain ⟨rfl, rfl⟩ := hb
  exact ⟨hp, fun b hb => by simp only [Out.ok.injEq] at hb; exact hb ▸ h⟩

theorem tri_fail {e : PErr} {Q : α → Prop} : Tri (fail e : P α) Q := by
  intro p o p' hp hb
  simp only [fail, Prod.mk.injEq] at hb
  obtain ⟨rfl, rfl⟩ := hb
  exact ⟨hp, by simp⟩

theorem tri_crash {Q : α → Prop} : Tri (crash : P α) Q := by
  intro p o p' hp hb
  simp only [crash, Prod.mk.injEq] at hb
  obtain ⟨rfl, rfl⟩ := hb
  exact ⟨hp, by simp⟩

theorem tri_cursor : Tri cursor fun t => t.tt ≠ .eof → t.val ≠ [] := by
  intro p o p' hp hb
  simp only [cursor, Prod.mk.injEq] at hb
  obtain ⟨rfl, rfl⟩ := hb
  refine ⟨hp, fun a ha h => ?_⟩
  simp only [Out.ok.injEq] at ha
  subst ha
  have hl := cursor_lt h
  have : p.cursor = p.tokens[p.pos] := by simp [PS.cursor, hl]
  rw [this]
  exact hp _ (List.getElem_mem _)

theorem tri_advance : Tri advance fun _ => True := by
  intro p o p' hp hb
  simp only [advance] at hb
  split at hb <;> simp only [Prod.mk.injEq] at hb <;> obtain ⟨rfl, rfl⟩ := hb <;> exact ⟨hp, by simp⟩

theorem tri_rewind {n : Nat} : Tri (rewind n) fun _ => True := by
  intro p o p' hp hb
  simp only [rewind] at hb
  split at hb <;> simp only [Prod.mk.injEq] at hb <;> obtain ⟨rfl, rfl⟩ := hb <;> exact ⟨hp, by simp⟩

theorem tri_takeComments {n : Nat} : Tri (takeComments n) fun _ => True := by
  intro p o p' hp hb
  simp only [takeComments, Prod.mk.injEq] at hb
  obtain ⟨rfl, rfl⟩ := hb
  exact ⟨hp, by simp⟩

theorem tri_attempt {m : P α} {Q : α → Prop} (h : Tri m Q) :
    Tri (attempt m) fun r => ∀ a, r = .ok a → Q a := by
  intro p o p' hp hb
  unfold attempt at hb
  rcases hm : m p with ⟨o', q⟩
  have := h p o' q hp hm
  rw [hm] at hb
  cases o' <;> simp only [Prod.mk.injEq] at hb <;> obtain ⟨rfl, rfl⟩ := hb <;> refine ⟨this.1, ?_⟩
  · intro r hr a ha
    simp only [Out.ok.injEq] at hr
    subst hr
    simp only [Except.ok.injEq] at ha
    exact this.2 a (by rw [ha])
  · intro r hr a ha
    simp only [Out.ok.injEq] at hr
    subst hr
    simp at ha
  · simp
  · simp

theorem tri_loop {body : σ → P (σ ⊕ α)} (I : σ → Prop) {Q : α → Prop} {s : σ} (hs : I s)
    (hb : ∀ s, I s → Tri (body s) fun r => match r with
      | .inl s' => I s'
      | .inr a => Q a) : Tri (loop body s) Q := by
  have key : ∀ n s, I s → Tri (loopN body n s) Q := by
    intro n
    induction n with
    | zero =>
      intro s _ p o p' hp hb
      simp only [loopN, Prod.mk.injEq] at hb
      obtain ⟨rfl, rfl⟩ := hb
      exact ⟨hp, by simp⟩
    | succ n ih =>
      intro s hi
      refine tri_bind (hb s hi) fun r hr => ?_
      cases r with
      | inl s' => exact ih s' hr
      | inr a => exact tri_pure hr
  intro p o p' hp h
  exact key _ s hs p o p' hp h

theorem tri_nth {l : List Token} {i : Nat} : Tri (nth l i) fun t => l[i]? = some t := by
  unfold nth
  split
  · next t h => exact tri_pure h
  · exact tri_crash

theorem tri_any {m : P α} {Q : α → Prop} (h : Tri m Q) : Tri m fun _ => True := h.mono fun _ _ => trivial

/-- Automation for functions of which nothing is said. -/
macro "tri_auto" : tactic => `(tactic| repeat' first
  | exact tri_fail
  | exact tri_crash
  | exact tri_pure trivial
  | exact tri_any tri_cursor
  | exact tri_any tri_advance
  | (refine tri_bind (tri_any tri_cursor) fun _ _ => ?_)
  | (refine tri_bind (tri_any tri_advance) fun _ _ => ?_)
  | (refine tri_bind (tri_any tri_nth) fun _ _ => ?_)
  | (refine tri_bind (tri_any tri_rewind) fun _ _ => ?_)
  | (refine tri_bind (tri_any tri_takeComments) fun _ _ => ?_)
  | split)

theorem tri_continueUntilEOL : Tri continueUntilEOL fun _ => True := by
  unfold continueUntilEOL
  exact tri_loop (fun _ => True) trivial fun s _ => by tri_auto

theorem tri_expectEOL : Tri expectOptionalCommentOrEOL fun _ => True := by
  unfold expectOptionalCommentOrEOL
  refine tri_loop (fun _ => True) trivial fun s _ => ?_
  tri_auto
  exact tri_bind tri_continueUntilEOL fun _ _ => tri_pure trivial

/-- A token as `match` returns it: of the class asked for, and with a text unless it stands for a
missing blank or line end. -/
def TokOK (want : TT) (t : Token) : Prop := t.tt = want ∧ (want ≠ .eof → want ≠ .eol → t.val ≠ [])

theorem tri_matchLoop (tts : List TT) (acc : List Token) (n : Nat) :
    Tri (matchLoop tts acc n) fun l => ∃ l', l = acc ++ l' ∧
      ∀ (i : Nat) (t : Token), l'[i]? = some t → ∃ want, tts[i]? = some want ∧ TokOK want t := by
  induction tts generalizing acc n with
  | nil => unfold matchLoop; exact tri_pure ⟨[], by simp, by simp⟩
  | cons want rest ih =>
    unfold matchLoop
    refine tri_bind tri_cursor fun tok htok => ?_
    have ext : ∀ t, TokOK want t → ∀ l : List Token, (∃ l', l = acc ++ [t] ++ l' ∧
        ∀ (i : Nat) (t : Token), l'[i]? = some t → ∃ want, rest[i]? = some want ∧ TokOK want t) →
        ∃ l', l = acc ++ l' ∧ ∀ (i : Nat) (t : Token), l'[i]? = some t → ∃ w, (want :: rest)[i]? = some w ∧ TokOK w t := by
      rintro t ht l ⟨l', rfl, h⟩
      refine ⟨t :: l', by simp, ?_⟩
      intro i u hu
      cases i with
      | zero => simp at hu; subst hu; exact ⟨want, rfl, ht⟩
      | succ i => simp at hu; exact h i u hu
    split
    · next hw =>
      refine tri_bind (tri_any tri_advance) fun _ _ => ?_
      refine (ih (acc ++ [tok]) (n + 1)).mono fun l hl => ext tok ⟨hw, ?_⟩ l hl
      intro h1 _
      exact htok (by rw [hw]; exact h1)
    · split
      · next hw =>
        refine tri_bind tri_expectEOL fun _ _ => tri_pure ⟨[_], rfl, ?_⟩
        intro i t ht
        cases i with
        | zero => simp at ht; subst ht; exact ⟨want, rfl, by subst hw; rfl, fun _ h => absurd hw h⟩
        | succ i => simp at ht
      · split
        · tri_auto
        · next hw =>
          simp only [ne_eq, Decidable.not_not] at hw
          exact (ih _ n).mono fun l hl => ext _ ⟨by rw [hw], by simp⟩ l hl

theorem tri_match (tts : List TT) :
    Tri (match_ tts) fun l => ∀ (i : Nat) (t : Token), l[i]? = some t → ∃ want, tts[i]? = some want ∧ TokOK want t := by
  refine (tri_matchLoop tts [] 0).mono ?_
  rintro l ⟨l', rfl, h⟩
  simpa using h

/-! ### Values -/

theorem unescapeBytes_ne {l : List Nat} {s : Str} (hl : l ≠ []) (h : unescapeBytes l = .ok s) : s ≠ [] := by
  have hm : ∀ {r : Except PErr Str} {c : Char}, r.map (c :: ·) = .ok s → s ≠ [] := by
    intro r c h
    cases r with
    | error e => simp [Except.map] at h
    | ok v => simp [Except.map] at h; subst h; simp
  cases l with
  | nil => exact absurd rfl hl
  | cons c r =>
    unfold unescapeBytes at h
    repeat' split at h
    all_goals first | exact hm h | simp at h

theorem bytes_ne {s : Str} (h : s ≠ []) : bytes s ≠ [] := by
  cases s with
  | nil => exact absurd rfl h
  | cons c r =>
    simp only [bytes, List.flatMap_cons]
    have : utf8 c ≠ [] := by unfold utf8; simp only; repeat' split
                             all_goals simp
    simp [this]

/-- Tokens with a text, or none at all. -/
def SomeText (l : List Token) : Prop := l = [] ∨ ∃ t ∈ l, t.val ≠ []

theorem someText_snoc {l : List Token} {t : Token} (h : t.val ≠ []) : SomeText (l ++ [t]) :=
  .inr ⟨t, by simp, h⟩

theorem tri_composed {l : List Token} (h : SomeText l) : Tri (composedValue l) fun t => t.val ≠ [] := by
  unfold composedValue
  split
  · exact tri_fail
  · split
    · exact tri_fail
    · next v hv =>
      refine tri_pure (unescapeBytes_ne (bytes_ne ?_) hv)
      rcases h with h | ⟨t, ht, hne⟩
      · simp at h
      · intro hnil
        rw [List.flatMap_eq_nil_iff] at hnil
        exact hne (hnil t ht)

theorem tri_string : Tri expectStringValue fun t => t.val ≠ [] := by
  unfold expectStringValue
  refine tri_bind (tri_any tri_cursor) fun _ _ => tri_bind tri_advance fun _ _ => ?_
  split
  · exact tri_fail
  · refine tri_bind (tri_loop SomeText (.inl rfl) (Q := SomeText) fun l hl => ?_) fun l hl => tri_composed hl
    unfold stringBody
    refine tri_bind tri_cursor fun tok htok => tri_bind tri_advance fun _ _ => ?_
    split
    · exact tri_fail
    · exact tri_fail
    · next ht =>
      refine tri_bind (tri_any tri_cursor) fun tok2 _ => tri_bind tri_advance fun _ _ => tri_pure ?_
      exact .inr ⟨tok, by simp, htok (by rw [ht]; decide)⟩
    · exact tri_pure hl
    · next h1 h2 _ _ => exact tri_pure (someText_snoc (htok h2))

theorem tri_literal {isTok : TT → Bool} (h0 : isTok .eof = false) : Tri (literal isTok) fun t => t.val ≠ [] := by
  unfold literal
  refine tri_bind (tri_loop SomeText (.inl rfl) (Q := fun r : Token ⊕ List Token => match r with
    | .inl t => t.val ≠ []
    | .inr l => SomeText l) fun l hl => ?_) fun r hr => ?_
  · refine tri_bind tri_cursor fun tok htok => ?_
    split
    · exact tri_bind tri_string fun t ht => tri_pure ht
    · split
      · next h1 =>
        refine tri_bind tri_advance fun _ _ => tri_pure (someText_snoc (htok ?_))
        intro h2; rw [h2, h0] at h1; simp at h1
      · exact tri_pure hl
  · split
    · exact tri_pure hr
    · exact tri_composed hr

theorem tri_literalValue : Tri expectLiteralValue fun t => t.val ≠ [] := tri_literal rfl
theorem tri_path : Tri expectPath fun t => t.val ≠ [] := tri_literal rfl

/-! ### Nodes -/

/-- A word made of decimal digits. -/
def Number (t : Token) : Prop := t.val ≠ [] ∧ ∀ c ∈ t.val, c ∈ "0123456789".toList

def DefOK (n : DefNode) : Prop := n.left.val ≠ [] ∧ ∃ v, n.right = some v ∧ v.val ≠ []
def MemberOK (n : DefNode) : Prop := n.left.val ≠ [] ∧ ∀ v, n.right = some v → v.val ≠ []
def EnumOK (n : EnumNode) : Prop := n.name.val ≠ [] ∧ ∀ v ∈ n.values, MemberOK v
def ErrOK (n : ErrorNode) : Prop := Number n.code ∧ n.name.val ≠ [] ∧
  (∃ m, n.message = some m ∧ m.val ≠ []) ∧ ∀ s, n.httpStatus = some s → Number s

def StEmit : St → Prop
  | .definitionValue dn => dn.left.val ≠ []
  | .importMembers n => n.path.val ≠ []
  | .errorMessage n => Number n.code ∧ n.name.val ≠ [] ∧ n.httpStatus = none
  | .errorStatus n => ErrOK n ∧ n.httpStatus = none
  | .enumDef n => EnumOK n
  | .enumValue n dn => EnumOK n ∧ MemberOK dn ∧ dn.right = none
  | _ => True

def NodeEmit : Node → Prop
  | .defn n => DefOK n
  | .import_ n => n.path.val ≠ []
  | .enum n => EnumOK n
  | .error n => ErrOK n
  | _ => True

/-- The invariant of a transition. -/
def StepEmit : Step → Prop
  | .goto st' em => StEmit st' ∧ ∀ n ∈ em, NodeEmit n
  | .done => True

theorem emit_none {st : St} (h : StEmit st) : Tri (pure (.goto st []) : P Step) StepEmit :=
  tri_pure ⟨h, by simp⟩

theorem emit_one {st : St} {n : Node} (h : StEmit st) (hn : NodeEmit n) :
    Tri (pure (.goto st [n]) : P Step) StepEmit := tri_pure ⟨h, by simpa using hn⟩

theorem tri_expectTypeList {rec : P Token} (h : Tri rec fun _ => True) : Tri (expectTypeList rec) fun _ => True := by
  unfold expectTypeList
  refine tri_bind (tri_any (tri_match _)) fun _ _ => tri_bind (tri_any tri_nth) fun _ _ =>
    tri_bind (tri_loop (fun _ => True) trivial (Q := fun _ => True) fun l _ => ?_) fun l _ => ?_
  · tri_auto
    all_goals exact tri_bind h fun _ _ => tri_pure trivial
  · unfold composedValue; tri_auto

theorem tri_expectMap {rec : P Token} (h : Tri rec fun _ => True) :
    Tri (expectMapDefinition rec) fun _ => True := by
  unfold expectMapDefinition
  refine tri_bind (tri_any tri_cursor) fun _ _ => ?_
  split
  · exact tri_fail
  refine tri_bind tri_advance fun _ _ =>
    tri_bind (tri_loop (fun _ => True) trivial (Q := fun _ => True) fun l _ => ?_) fun l _ => ?_
  · tri_auto
    exact tri_bind (tri_expectTypeList h) fun _ _ => tri_pure trivial
  · unfold composedValue; tri_auto

theorem tri_expectType : Tri expectType fun _ => True := by
  have key : ∀ n, Tri (expectTypeN n) fun _ => True := by
    intro n
    induction n with
    | zero =>
      intro p o p' hp hb
      simp only [expectTypeN, Prod.mk.injEq] at hb
      obtain ⟨rfl, rfl⟩ := hb
      exact ⟨hp, by simp⟩
    | succ n ih =>
      unfold expectTypeN expectTypeBody
      refine tri_bind (tri_loop (fun _ => True) trivial (Q := fun _ => True) fun l _ => ?_) fun l _ => ?_
      · tri_auto
        · exact tri_bind (tri_any (tri_match _)) fun _ _ => tri_bind ih fun _ _ => tri_pure trivial
        · exact tri_bind (tri_expectMap ih) fun _ _ => tri_pure trivial
      · unfold composedValue; tri_auto
  intro p o p' hp hb
  exact key _ p o p' hp hb

theorem tri_expectArgs : Tri expectArgumentList fun _ => True := by
  unfold expectArgumentList optStream argumentLoop
  refine tri_bind (R := fun _ => True) ?_ fun _ _ => tri_bind (tri_any (tri_match _)) fun _ _ =>
    tri_loop (fun _ => True) trivial fun l _ => ?_
  · refine tri_bind (tri_any (tri_attempt (tri_match _))) fun _ _ => ?_
    tri_auto
  · tri_auto
    refine tri_bind (tri_any (tri_attempt (tri_match _))) fun _ _ => ?_
    tri_auto
    refine tri_bind (tri_any (tri_attempt (tri_match _))) fun _ _ => ?_
    tri_auto
    · refine tri_bind tri_expectType fun _ _ => ?_
      tri_auto
    · refine tri_bind (tri_any (tri_match _)) fun _ _ => ?_
      tri_auto
      refine tri_bind tri_expectType fun _ _ => ?_
      tri_auto

theorem tri_errorList : Tri expectErrorList fun _ => True := by
  unfold expectErrorList
  refine tri_bind (tri_any (tri_match _)) fun _ _ => tri_bind (tri_any tri_nth) fun _ _ =>
    tri_loop (fun _ => True) trivial fun l _ => ?_
  refine tri_bind (tri_any (tri_attempt (tri_match _))) fun _ _ => ?_
  tri_auto

theorem tri_annotations : Tri parseAnnotations fun _ => True := by
  unfold parseAnnotations
  refine tri_loop (fun _ => True) trivial fun l _ => ?_
  refine tri_bind (tri_any (tri_attempt (tri_match _))) fun _ _ => ?_
  tri_auto
  refine tri_bind (tri_any tri_string) fun _ _ => ?_
  tri_auto

theorem tri_metaLine : Tri metaLine fun _ => True := by
  unfold metaLine expectMetadataKey expectMetadataValue
  refine tri_bind (tri_any (tri_match _)) fun _ _ => tri_bind (R := fun _ => True) ?_ fun _ _ =>
    tri_bind (tri_any (tri_match _)) fun _ _ => tri_bind (R := fun _ => True) ?_ fun _ _ => tri_pure trivial
  · refine tri_bind (tri_any (tri_match _)) fun _ _ => tri_bind (tri_any tri_nth) fun _ _ =>
      tri_bind (tri_loop (fun _ => True) trivial (Q := fun _ => True) fun l _ => ?_) fun l _ => ?_
    · tri_auto
      exact tri_bind (tri_any (tri_match _)) fun _ _ => tri_pure trivial
    · unfold composedValue; tri_auto
  · refine tri_bind (tri_any tri_cursor) fun _ _ => ?_
    split
    · exact tri_any tri_string
    · refine tri_bind (tri_loop (fun _ => True) trivial (Q := fun _ => True) fun l _ => ?_) fun l _ => ?_
      · tri_auto
      · unfold composedValue; tri_auto

theorem tri_methodOutputs (mn : MethodNode) : Tri (methodOutputs mn) fun _ => True := by
  unfold methodOutputs outputStream
  refine tri_bind (tri_any (tri_attempt (tri_match _))) fun _ _ => ?_
  split
  · exact tri_pure trivial
  · refine tri_bind (R := fun _ => True) ?_ fun _ _ => tri_bind tri_expectArgs fun _ _ => tri_pure trivial
    refine tri_bind (tri_any (tri_attempt (tri_match _))) fun _ _ => ?_
    tri_auto

theorem tri_methodErrors (mn : MethodNode) : Tri (methodErrors mn) fun _ => True := by
  unfold methodErrors
  refine tri_bind (tri_any (tri_attempt (tri_match _))) fun _ _ => ?_
  tri_auto
  exact tri_bind tri_errorList fun _ _ => tri_pure trivial

theorem tri_prefixedName (b : Bool) (t : Token) : Tri (prefixedName b t) fun _ => True := by
  unfold prefixedName
  split
  · exact tri_bind (tri_any (tri_match _)) fun _ _ => tri_any tri_nth
  · exact tri_pure trivial

theorem number_ok {t : Token} {u : Unit} (hne : t.val ≠ []) (h : expectNumber t t.val = .ok u) : Number t := by
  refine ⟨hne, fun c hc => ?_⟩
  unfold expectNumber at h
  split at h
  · simp at h
  · split at h
    · next hall =>
      have := List.all_eq_true.1 hall c hc
      simpa using this
    · simp at h

theorem match_ne {tts : List TT} {l : List Token} {i : Nat} {t : Token}
    (h : ∀ (i : Nat) (t : Token), l[i]? = some t → ∃ want, tts[i]? = some want ∧ TokOK want t) (ht : l[i]? = some t)
    (hw : ∀ want, tts[i]? = some want → want ≠ .eof ∧ want ≠ .eol) : t.val ≠ [] := by
  obtain ⟨want, h1, h2⟩ := h i t ht
  exact h2.2 (hw want h1).1 (hw want h1).2

/-- Every transition keeps the invariant. -/
theorem emit_step (st : St) (hi : StEmit st) : Tri (step st) StepEmit := by
  cases st with
  | definition =>
    change Tri stDefinition _
    unfold stDefinition
    refine tri_bind (tri_match _) fun l hl => tri_bind tri_nth fun t ht => tri_bind tri_takeComments fun _ _ => ?_
    exact emit_none (match_ne hl ht (by simp))
  | definitionValue dn =>
    change Tri (stDefinitionValue dn) _
    unfold stDefinitionValue
    exact tri_bind tri_literalValue fun v hv => emit_one trivial ⟨hi, v, rfl, hv⟩
  | importMembers n =>
    change Tri (stImportMembers n) _
    unfold stImportMembers
    refine tri_bind (tri_any tri_cursor) fun _ _ => ?_
    split
    · exact tri_bind tri_advance fun _ _ => emit_none hi
    · exact tri_bind tri_advance fun _ _ => emit_none hi
    · exact tri_bind (tri_any (tri_match _)) fun _ _ => tri_bind (tri_any tri_literalValue) fun _ _ => emit_none hi
    · exact tri_bind tri_continueUntilEOL fun _ _ => emit_none hi
    · exact emit_one trivial hi
  | importValue =>
    change Tri stImportValue _
    unfold stImportValue
    refine tri_bind (tri_any tri_cursor) fun _ _ => ?_
    split
    · exact tri_bind tri_advance fun _ _ => emit_none trivial
    · exact tri_bind tri_advance fun _ _ => emit_none trivial
    · exact tri_bind (tri_any (tri_match _)) fun _ _ => tri_bind tri_path fun _ h => emit_one trivial h
    · exact tri_bind tri_continueUntilEOL fun _ _ => emit_none trivial
    · exact emit_none trivial
  | import_ =>
    change Tri stImport _
    unfold stImport
    refine tri_bind (tri_any (tri_attempt (tri_match _))) fun _ _ => ?_
    split
    · refine tri_bind (tri_any tri_nth) fun _ _ => ?_
      split
      · exact tri_fail
      · exact emit_none trivial
    · exact tri_bind (tri_any (tri_match _)) fun _ _ => tri_bind tri_path fun _ h => emit_none h
  | error =>
    change Tri stError _
    unfold stError
    refine tri_bind (tri_match _) fun l hl => tri_bind (tri_any tri_nth) fun _ _ => ?_
    split
    · exact tri_fail
    · refine tri_bind tri_nth fun m2 h2 => ?_
      split
      · exact tri_fail
      · next hn =>
        refine tri_bind tri_nth fun m4 h4 => emit_none ⟨number_ok (match_ne hl h2 (by simp)) hn, ?_, rfl⟩
        exact match_ne hl h4 (by simp)
  | errorMessage n =>
    change Tri (stErrorMessage n) _
    unfold stErrorMessage
    refine tri_bind tri_cursor fun tok htok => ?_
    split
    · refine tri_bind tri_string fun t ht => emit_none ⟨⟨hi.1, hi.2.1, ⟨t, rfl, ht⟩, ?_⟩, hi.2.2⟩
      intro s hs
      simp only at hs
      rw [hi.2.2] at hs; simp at hs
    · next hw =>
      refine tri_bind tri_advance fun _ _ => emit_none ⟨⟨hi.1, hi.2.1, ⟨tok, rfl, htok (by rw [hw]; decide)⟩, ?_⟩, hi.2.2⟩
      intro s hs
      simp only at hs
      rw [hi.2.2] at hs; simp at hs
    · exact tri_fail
  | errorStatus n =>
    change Tri (stErrorStatus n) _
    unfold stErrorStatus
    refine tri_bind (tri_any (tri_attempt (tri_match _))) fun _ _ => ?_
    split
    · exact tri_bind tri_expectEOL fun _ _ => emit_one trivial hi.1
    · refine tri_bind (tri_any tri_nth) fun _ _ => ?_
      split
      · exact tri_bind tri_rewind fun _ _ => tri_fail
      · refine tri_bind (tri_match _) fun l hl => tri_bind tri_nth fun m1 h1 => ?_
        split
        · exact tri_bind tri_rewind fun _ _ => tri_fail
        · next hn =>
          refine tri_bind tri_expectEOL fun _ _ => emit_one trivial ⟨hi.1.1, hi.1.2.1, hi.1.2.2.1, ?_⟩
          intro s hs
          simp only [Option.some.injEq] at hs
          subst hs
          exact number_ok (match_ne hl h1 (by simp)) hn
  | enum =>
    change Tri stEnum _
    unfold stEnum
    refine tri_bind (tri_match _) fun l hl => tri_bind (tri_any tri_nth) fun _ _ => ?_
    split
    · exact tri_fail
    · refine tri_bind tri_nth fun m2 h2 => tri_bind (tri_any tri_nth) fun _ _ =>
        tri_bind tri_takeComments fun _ _ => emit_none ⟨match_ne hl h2 (by simp), by simp⟩
  | enumDef n =>
    change Tri (stEnumDef n) _
    unfold stEnumDef
    refine tri_bind (tri_any tri_cursor) fun _ _ => ?_
    split
    · refine tri_bind (tri_match _) fun l hl => tri_bind tri_nth fun m2 h2 => tri_bind (tri_any tri_nth) fun _ _ =>
        tri_bind tri_takeComments fun _ _ => emit_none ⟨hi, ⟨match_ne hl h2 (by simp), by simp⟩, rfl⟩
    · exact tri_bind tri_advance fun _ _ => emit_none hi
    · exact tri_bind tri_advance fun _ _ => emit_none hi
    · exact tri_bind tri_continueUntilEOL fun _ _ => emit_none hi
    · exact emit_one trivial hi
  | enumValue n dn =>
    change Tri (stEnumValue n dn) _
    unfold stEnumValue
    refine tri_bind (tri_any (tri_attempt (tri_match _))) fun _ _ => ?_
    have add : ∀ c, ∀ v, MemberOK v → EnumOK { n with comment := c, values := n.values ++ [v] } := by
      intro c v hv
      refine ⟨hi.1.1, fun w hw => ?_⟩
      simp only [List.mem_append, List.mem_singleton] at hw
      rcases hw with hw | rfl
      · exact hi.1.2 w hw
      · exact hv
    split
    · refine tri_bind tri_literalValue fun v hv => tri_bind tri_takeComments fun _ _ => emit_none (add _ _ ?_)
      exact ⟨hi.2.1.1, fun w hw => by simp only [Option.some.injEq] at hw; exact hw ▸ hv⟩
    · exact emit_none (add n.comment _ hi.2.1)
  | _ =>
    simp only [step]
    (try simp only [stDefault, stSkip, stDeclaration, stComment, stEOL, stContinue,
      stTypeAlias, stAliasMeta, stAliasMetaDef, stStruct, stStructField,
      stFieldMeta, stFieldMetaDef, stFieldDef, stService, stServiceMethod, stMethodDef])
    repeat' first
      | with_reducible exact tri_fail
      | with_reducible exact tri_crash
      | ((with_reducible refine emit_none ?_); exact trivial)
      | ((with_reducible refine emit_one ?_ ?_) <;> exact trivial)
      | ((with_reducible refine tri_pure ?_); exact trivial)
      | (with_reducible refine tri_bind (tri_any tri_cursor) fun _ _ => ?_)
      | (with_reducible refine tri_bind (tri_any tri_advance) fun _ _ => ?_)
      | (with_reducible refine tri_bind (tri_any tri_nth) fun _ _ => ?_)
      | (with_reducible refine tri_bind (tri_any tri_rewind) fun _ _ => ?_)
      | (with_reducible refine tri_bind (tri_any tri_takeComments) fun _ _ => ?_)
      | (with_reducible refine tri_bind (tri_any (tri_match _)) fun _ _ => ?_)
      | (with_reducible refine tri_bind (tri_any (tri_attempt (tri_match _))) fun _ _ => ?_)
      | (with_reducible refine tri_bind tri_continueUntilEOL fun _ _ => ?_)
      | (with_reducible refine tri_bind tri_expectEOL fun _ _ => ?_)
      | (with_reducible refine tri_bind tri_metaLine fun _ _ => ?_)
      | (with_reducible refine tri_bind tri_expectType fun _ _ => ?_)
      | (with_reducible refine tri_bind tri_annotations fun _ _ => ?_)
      | (with_reducible refine tri_bind tri_expectArgs fun _ _ => ?_)
      | (with_reducible refine tri_bind (tri_methodOutputs _) fun _ _ => ?_)
      | (with_reducible refine tri_bind (tri_methodErrors _) fun _ _ => ?_)
      | (with_reducible refine tri_bind (tri_prefixedName _ _) fun _ _ => ?_)
      | (with_reducible refine tri_bind (tri_any tri_literalValue) fun _ _ => ?_)
      | (with_reducible refine tri_bind (R := fun _ => True) (tri_loop (fun _ => True) trivial fun _ _ => ?_) fun _ _ => ?_)
      | split

/-- What holds of every node of an accepted document. -/
theorem run_emit (fuel : Nat) (st : St) (p : PS) (nodes : List Node) (hp : p.Full) (hi : StEmit st)
    (hn : ∀ n ∈ nodes, NodeEmit n) (out : List Node) (h : runN fuel st p nodes = .ok out) :
    ∀ n ∈ out, NodeEmit n := by
  induction fuel generalizing st p nodes with
  | zero => simp [runN] at h
  | succ fuel ih =>
    unfold runN at h
    rcases hm : step st p with ⟨o, p'⟩
    rw [hm] at h
    have hs := emit_step st hi p o p' hp hm
    cases o with
    | ok r =>
      have hs2 := hs.2 r rfl
      cases r with
      | done => simp only [ParseResult.ok.injEq] at h; exact h ▸ hn
      | goto st' em =>
        refine ih st' p' (nodes ++ em) hs.1 hs2.1 ?_ h
        intro n hmem
        rcases List.mem_append.1 hmem with hmem | hmem
        · exact hn n hmem
        · exact hs2.2 n hmem
    | err e => simp at h
    | panic => simp at h
    | hang => simp at h

theorem parseDoc_emit {src : Str} {out : List Node} (h : parseDoc src = .ok out) : ∀ n ∈ out, NodeEmit n := by
  unfold parseDoc at h
  obtain ⟨ts, h1, h2⟩ := tokenize_ok src
  have hnp : newParser src = some { tokens := ts, comments := (ts.foldl tokenizeStep {}).lineComments } := by
    simp [newParser, h1]
  rw [hnp] at h
  refine run_emit _ .default _ [] ?_ trivial (by simp) out h
  intro t ht
  obtain ⟨post, hp⟩ := segments_mem h2.seg (t.tt, t.val) (List.mem_map_of_mem ht)
  exact hp.ne_nil

end Verif.Ridl
