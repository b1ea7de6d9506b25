import Verif.Ridl.Exec
import Verif.Spec.TypeExpr
/-! # Executing the parser on values, types and argument lists -/

namespace Verif.Ridl
open Verif.Spec

variable {α β σ : Type}

/-- Tokens of one line. -/
def lift (l : Nat) (ts : List (TT × Str)) : List Shape := ts.map fun t => (t.1, t.2, l)

@[simp] theorem lift_nil (l : Nat) : lift l [] = [] := rfl
@[simp] theorem lift_cons (l : Nat) (t : TT × Str) (ts : List (TT × Str)) : lift l (t :: ts) = (t.1, t.2, l) :: lift l ts := rfl
@[simp] theorem lift_append (l : Nat) (a b : List (TT × Str)) : lift l (a ++ b) = lift l a ++ lift l b := by simp [lift]

theorem ex_then {m : P α} {f : α → P β} {es : List Shape} {cm : Comments} {R : α → List Shape → Comments → Prop}
    {Q : β → List Shape → Comments → Prop} (h : Ex m es cm R) (hf : ∀ a es' cm', R a es' cm' → Ex (f a) es' cm' Q) :
    Ex (m >>= f) es cm Q := ex_bind (h.mono hf)

theorem vals_shape (ts : List Token) : ts.flatMap (·.val) = (ts.map Token.shape).flatMap (·.2.1) := by
  rw [List.flatMap_map]; rfl

theorem vals_lift (l : Nat) (ts : List (TT × Str)) : (lift l ts).flatMap (·.2.1) = ts.flatMap (·.2) := by
  unfold lift; rw [List.flatMap_map]

theorem ex_pure' {a : α} {es : List Shape} {cm : Comments} {Q : α → List Shape → Comments → Prop} (h : Q a es cm) :
    Ex (P.pure a : P α) es cm Q := ex_pure h

/-- The value made of the tokens of one line. -/
theorem ex_composed' {tokens : List Token} {l : Nat} {bt : List (TT × Str)} {v : Str} {es : List Shape} {cm : Comments}
    (hs : tokens.map Token.shape = lift l bt) (hne : bt ≠ []) (hu : unescapeString (bt.flatMap (·.2)) = .ok v) :
    Ex (composedValue tokens) es cm fun t es' cm' => t.val = v ∧ t.line = l ∧ es' = es ∧ cm' = cm := by
  cases bt with
  | nil => exact absurd rfl hne
  | cons b bt =>
    cases tokens with
    | nil => simp at hs
    | cons t ts =>
      unfold composedValue
      dsimp only
      have hv : (t :: ts).flatMap (·.val) = (b :: bt).flatMap (·.2) := by rw [vals_shape, hs, vals_lift]
      rw [hv, hu]
      refine ex_pure ⟨rfl, ?_, rfl, rfl⟩
      simp only [List.map_cons, lift_cons, List.cons.injEq, Token.shape, Prod.mk.injEq] at hs
      exact hs.1.2.2

/-- Texts that may stand between quotes, as tokens. -/
def InnerToks (bt : List (TT × Str)) : Prop :=
  bt ≠ [] ∧ (∀ t ∈ bt, t.1 ≠ .quote ∧ t.1 ≠ .newLine ∧ t.1 ≠ .eof) ∧ ∀ t, bt.getLast? = some t → t.1 ≠ .backslash

theorem map_append_inv {γ δ : Type} {f : γ → δ} {l : List γ} {a b : List δ} (h : l.map f = a ++ b) :
    ∃ l1 l2, l = l1 ++ l2 ∧ l1.map f = a ∧ l2.map f = b := by
  obtain ⟨l1, l2, h1, h2, h3⟩ := List.map_eq_append_iff.1 h
  exact ⟨l1, l2, h1, h2, h3⟩

/-- A quoted string. -/
theorem ex_string {l : Nat} {bt : List (TT × Str)} {v : Str} {es : List Shape} {cm : Comments} (hb : InnerToks bt)
    (hu : unescapeString (bt.flatMap (·.2)) = .ok v) :
    Ex expectStringValue ((.quote, ['"'], l) :: (lift l bt ++ (.quote, ['"'], l) :: es)) cm
      fun t es' cm' => t.val = v ∧ t.line = l ∧ es' = es ∧ cm' = cm := by
  intro d ts hts
  obtain ⟨p, c, ts1, rfl, h1⟩ := shapes_cons hts
  obtain ⟨B, ts2, rfl, hB, h2⟩ := map_append_inv h1
  obtain ⟨p2, c2, C, rfl, h3⟩ := shapes_cons h2
  have hmem : ∀ t ∈ B, ∃ x ∈ bt, t.tt = x.1 := by
    intro t ht
    have : Token.shape t ∈ lift l bt := by rw [← hB]; exact List.mem_map_of_mem ht
    obtain ⟨x, hx, e⟩ := List.mem_map.1 this
    exact ⟨x, hx, (congrArg (·.1) e).symm⟩
  have he := expectString_eq d B C ⟨.quote, ['"'], p, l, c⟩ ⟨.quote, ['"'], p2, l, c2⟩
    (stateAt d (⟨.quote, ['"'], p, l, c⟩ :: (B ++ ⟨.quote, ['"'], p2, l, c2⟩ :: C)) cm) rfl rfl rfl rfl
    (by
      intro t ht
      obtain ⟨x, hx, e⟩ := hmem t ht
      obtain ⟨g1, g2, g3⟩ := hb.2.1 x hx
      exact ⟨by rw [e]; exact g1, by rw [e]; exact g2, by rw [e]; exact g3⟩)
    (by
      intro t ht
      have hl : (B.map Token.shape).getLast? = some (Token.shape t) := by rw [List.getLast?_map, ht]; rfl
      rw [hB] at hl
      unfold lift at hl
      rw [List.getLast?_map] at hl
      cases hg : bt.getLast? with
      | none => rw [hg] at hl; cases hl
      | some x =>
        rw [hg] at hl
        simp only [Option.map_some, Option.some.injEq] at hl
        have := hb.2.2 x hg
        have e : x.1 = t.tt := congrArg (·.1) hl
        rw [← e]; exact this)
  obtain ⟨a, d', ts', cm', g1, g2⟩ := ex_composed' (es := es) (cm := cm) hB hb.1 hu (d ++ (⟨.quote, ['"'], p, l, c⟩ :: (B ++ [⟨.quote, ['"'], p2, l, c2⟩]))) C h3
  refine ⟨a, d', ts', cm', ?_, g2⟩
  rw [he, ← g1]
  congr 1
  simp [stateAt]
  omega

/-- A literal, as tokens and the text it stands for. -/
inductive LitToks (isTok : TT → Bool) : List (TT × Str) → Str → Prop
  | bare {bt : List (TT × Str)} {s v : Str} (hne : bt ≠ []) (h : ∀ t ∈ bt, isTok t.1 = true ∧ t.1 ≠ .quote) (hs : bt.flatMap (·.2) = s)
      (hu : unescapeString s = .ok v) : LitToks isTok bt v
  | quoted {bt : List (TT × Str)} {v : Str} (hb : InnerToks bt) (hu : unescapeString (bt.flatMap (·.2)) = .ok v) :
      LitToks isTok ((.quote, ['"']) :: (bt ++ [(.quote, ['"'])])) v

theorem ex_literal {isTok : TT → Bool} {l : Nat} {bt : List (TT × Str)} {v : Str} {e : Shape} {es : List Shape} {cm : Comments} (h : LitToks isTok bt v)
    (he : isTok e.1 = false ∧ e.1 ≠ .quote) :
    Ex (literal isTok) (lift l bt ++ e :: es) cm fun t es' cm' => t.val = v ∧ t.line = l ∧ es' = e :: es ∧ cm' = cm := by
  unfold literal
  cases h with
  | @bare bt s v hne h hs hu =>
    refine ex_then (R := fun r es' cm' => (∃ toks : List Token, r = .inr toks ∧ toks.map Token.shape = lift l bt) ∧ es' = e :: es ∧ cm' = cm) ?_ ?_
    · have : ∀ (bt : List (TT × Str)) (acc : List Token) (pre : List (TT × Str)), acc.map Token.shape = lift l pre →
          (∀ t ∈ bt, isTok t.1 = true ∧ t.1 ≠ .quote) →
          Ex (loop (fun (tokens : List Token) => do
            let tok ← cursor
            if tok.tt = .quote then
              let t ← expectStringValue
              pure (.inr (Sum.inl t))
            else if isTok tok.tt then
              let _ ← advance
              pure (.inl (tokens ++ [tok]))
            else pure (.inr (Sum.inr tokens))) acc) (lift l bt ++ e :: es) cm
            fun (r : Token ⊕ List Token) es' cm' => (∃ toks : List Token, r = .inr toks ∧ toks.map Token.shape = lift l (pre ++ bt)) ∧ es' = e :: es ∧ cm' = cm := by
        intro bt
        induction bt with
        | nil =>
          intro acc pre ha _
          obtain ⟨tt, v, ln⟩ := e
          refine ex_loop ?_
          refine ex_cursor fun p c => ?_
          rw [if_neg he.2, if_neg (by simpa using he.1)]
          exact ex_pure ⟨⟨acc, rfl, by simpa using ha⟩, rfl, rfl⟩
        | cons t bt ih =>
          intro acc pre ha hall
          have ht := hall t (by simp)
          have := ih
          refine ex_loop ?_
          refine ex_cursor fun p c => ?_
          rw [if_neg ht.2, if_pos ht.1]
          refine ex_advance (ex_pure ⟨?_, ?_⟩)
          · show (lift l bt ++ e :: es).length < (lift l (t :: bt) ++ e :: es).length
            simp
          · have := ih (acc ++ [⟨t.1, t.2, p, l, c⟩]) (pre ++ [t]) (by simp [ha, Token.shape]) (fun x hx => hall x (by simp [hx]))
            rw [show pre ++ [t] ++ bt = pre ++ t :: bt by simp] at this
            exact this
      exact this bt [] [] rfl h
    · rintro r es' cm' ⟨⟨toks, rfl, ht⟩, rfl, rfl⟩
      exact ex_composed' ht hne (by rw [hs]; exact hu)
  | @quoted bt v hb hu =>
    refine ex_then (R := fun r es' cm' => (∃ t : Token, r = .inl t ∧ t.val = v ∧ t.line = l) ∧ es' = e :: es ∧ cm' = cm) ?_ ?_
    · refine ex_loop ?_
      rw [lift_cons, List.cons_append]
      refine ex_cursor fun p c => ?_
      rw [if_pos rfl]
      have h := ex_string (l := l) (bt := bt) (v := v) (es := e :: es) (cm := cm) hb hu
      refine ex_then (R := fun t es' cm' => t.val = v ∧ t.line = l ∧ es' = e :: es ∧ cm' = cm) ?_ ?_
      · simpa using h
      · rintro t es' cm' ⟨h1, h2, rfl, rfl⟩
        exact ex_pure ⟨⟨t, rfl, h1, h2⟩, rfl, rfl⟩
    · rintro r es' cm' ⟨⟨t, rfl, h1, h2⟩, rfl, rfl⟩
      exact ex_pure ⟨h1, h2, rfl, rfl⟩

/-! ### Types -/

/-- The tokens of a type. -/
def tyToks : Ty → List (TT × Str)
  | .omitted => []
  | .scalar n => [(.word, n)]
  | .named n => [(.word, n)]
  | .list t => (.openBracket, ['[']) :: (.closeBracket, [']']) :: tyToks t
  | .map k v => [(.word, "map".toList), (.openAngle, ['<']), (.word, k), (.comma, [','])] ++ tyToks v ++ [(.closeAngle, ['>'])]

/-- Nesting depth. -/
def tyDepth : Ty → Nat
  | .list t => tyDepth t + 1
  | .map _ v => tyDepth v + 1
  | _ => 0

/-- A word that can be part of a type. -/
def TypeWord (w : Str) : Prop := w ≠ "map".toList ∧ w ≠ "stream".toList ∧ w ≠ "struct".toList ∧ Ascii w ∧ '\\' ∉ w

def TyOK : Ty → Prop
  | .omitted => False
  | .scalar n => TypeWord n
  | .named n => TypeWord n
  | .list t => TyOK t
  | .map k v => TypeWord k ∧ TyOK v

theorem ascii_append {a b : Str} (ha : Ascii a) (hb : Ascii b) : Ascii (a ++ b) := by
  intro c hc
  rcases List.mem_append.1 hc with h | h
  · exact ha c h
  · exact hb c h

theorem tyText_ok {t : Ty} (h : TyOK t) : Ascii t.text ∧ '\\' ∉ t.text := by
  induction t with
  | omitted => exact h.elim
  | scalar n => exact ⟨h.2.2.2.1, h.2.2.2.2⟩
  | named n => exact ⟨h.2.2.2.1, h.2.2.2.2⟩
  | list t ih =>
    obtain ⟨h1, h2⟩ := ih h
    refine ⟨ascii_append (by unfold Ascii; decide) h1, ?_⟩
    simp only [Ty.text, List.mem_append, not_or]
    exact ⟨by decide, h2⟩
  | map k v ih =>
    obtain ⟨hk, hv⟩ := h
    obtain ⟨h1, h2⟩ := ih hv
    refine ⟨ascii_append (ascii_append (ascii_append (ascii_append (by unfold Ascii; decide) hk.2.2.2.1) (by unfold Ascii; decide)) h1) (by unfold Ascii; decide), ?_⟩
    simp only [Ty.text, List.mem_append, not_or]
    exact ⟨⟨⟨⟨by decide, hk.2.2.2.2⟩, by decide⟩, h2⟩, by decide⟩

theorem tyToks_text (t : Ty) : (tyToks t).flatMap (·.2) = t.text := by
  induction t with
  | omitted => rfl
  | scalar n => simp [tyToks, Ty.text]
  | named n => simp [tyToks, Ty.text]
  | list t ih =>
    simp only [tyToks, List.flatMap_cons, ih, Ty.text]
    rfl
  | map k v ih =>
    simp only [tyToks, List.flatMap_append, List.flatMap_cons, ih, Ty.text, List.flatMap_nil, List.append_nil]
    show _ = "map<".toList ++ k ++ ",".toList ++ v.text ++ ">".toList
    rw [show "map<".toList = "map".toList ++ ['<'] from rfl, show ",".toList = [','] from rfl, show ">".toList = ['>'] from rfl]
    simp

/-- What may follow a type. -/
def TypeEnd (tt : TT) : Prop :=
  tt = .newLine ∨ tt = .whitespace ∨ tt = .comma ∨ tt = .bar ∨ tt = .closeAngle ∨ tt = .closeParen ∨ tt = .hash

theorem unescape_plain {s : Str} (h : Ascii s) (hb : '\\' ∉ s) : unescapeString s = .ok s := by
  unfold unescapeString
  rw [bytes_ascii s h]
  exact (unescapeBytes_iff s s).2 (unescaped_self s hb)

/-- The loop of `expectTypeBody`. -/
def typeLoop (rec : P Token) (tokens : List Token) : P (List Token ⊕ List Token) := do
  let tok ← cursor
  match tok.tt with
  | .newLine | .whitespace | .comma | .bar | .closeAngle | .closeParen | .hash => pure (.inr tokens)
  | .eof => pure (.inr tokens)
  | .openBracket =>
    let brackets ← match_ [.openBracket, .closeBracket]
    let typeName ← rec
    pure (.inl (tokens ++ (brackets ++ [typeName])))
  | .word =>
    if tok.val = "map".toList then
      let t ← expectMapDefinition rec
      pure (.inl (tokens ++ [t]))
    else if tok.val = "stream".toList ∨ tok.val = "struct".toList then fail .unexpectedToken
    else
      let _ ← advance
      pure (.inl (tokens ++ [tok]))
  | _ => fail .unexpectedToken

theorem typeBody_eq (rec : P Token) : expectTypeBody rec = (loop (typeLoop rec) [] >>= composedValue) := rfl

/-- The loop of `expectTypeList`. -/
def listLoop (rec : P Token) (tokens : List Token) : P (List Token ⊕ List Token) := do
  let tok ← cursor
  match tok.tt with
  | .whitespace =>
    let _ ← advance
    pure (.inl tokens)
  | .closeAngle => pure (.inr (tokens ++ [tok]))
  | .comma | .bar =>
    let _ ← advance
    pure (.inl (tokens ++ [tok]))
  | .word | .openBracket =>
    let t ← rec
    pure (.inl (tokens ++ [t]))
  | _ => fail .unexpectedToken

theorem typeList_eq (rec : P Token) : expectTypeList rec =
    (do let tok ← match_ [.openAngle]
        let t0 ← nth tok 0
        let tokens ← loop (listLoop rec) [t0]
        composedValue tokens) := rfl

/-- The loop of `expectMapDefinition`. -/
def mapLoop (rec : P Token) (tokens : List Token) : P (List Token ⊕ List Token) := do
  let tok ← cursor
  match tok.tt with
  | .whitespace =>
    let _ ← advance
    pure (.inl tokens)
  | .closeAngle =>
    let _ ← advance
    pure (.inr tokens)
  | .openAngle =>
    let types ← expectTypeList rec
    pure (.inl (tokens ++ [types]))
  | _ => fail .unexpectedToken

theorem mapDef_eq (rec : P Token) : expectMapDefinition rec =
    (do let tok ← cursor
        if tok.val ≠ "map".toList then fail (.msg "expecting \"map\"".toList)
        else
          let _ ← advance
          let tokens ← loop (mapLoop rec) [tok]
          composedValue tokens) := rfl

/-- A value of several tokens. -/
theorem ex_composedV {b : Token} {r : List Token} {l : Nat} {s v : Str} {es : List Shape} {cm : Comments} (hl : b.line = l)
    (hs : (b :: r).flatMap (·.val) = s) (hu : unescapeString s = .ok v) :
    Ex (composedValue (b :: r)) es cm fun t es' cm' => t.val = v ∧ t.line = l ∧ es' = es ∧ cm' = cm := by
  unfold composedValue
  dsimp only
  rw [hs, hu]
  exact ex_pure ⟨rfl, hl, rfl, rfl⟩

/-- Tokens that start on line `l` and spell `s`. -/
def Spells (r : List Token) (l : Nat) (s : Str) : Prop := ∃ b r', r = b :: r' ∧ b.line = l ∧ r.flatMap (·.val) = s

theorem Spells.composed {r : List Token} {l : Nat} {s v : Str} {es : List Shape} {cm : Comments} (h : Spells r l s) (hu : unescapeString s = .ok v) :
    Ex (composedValue r) es cm fun t es' cm' => t.val = v ∧ t.line = l ∧ es' = es ∧ cm' = cm := by
  obtain ⟨b, r', rfl, hl, hs⟩ := h
  exact ex_composedV hl hs hu

theorem Spells.append {r : List Token} {l : Nat} {s : Str} (h : Spells r l s) (q : List Token) : Spells (r ++ q) l (s ++ q.flatMap (·.val)) := by
  obtain ⟨b, r', rfl, hl, hs⟩ := h
  exact ⟨b, r' ++ q, rfl, hl, by rw [List.flatMap_append, hs]⟩

theorem ex_typeLoop_end {rec : P Token} {acc : List Token} {e : Shape} {es : List Shape} {cm : Comments} (he : TypeEnd e.1) :
    Ex (loop (typeLoop rec) acc) (e :: es) cm fun r es' cm' => r = acc ∧ es' = e :: es ∧ cm' = cm := by
  obtain ⟨tt, v, l⟩ := e
  refine ex_loop ?_
  rw [typeLoop]
  refine ex_cursor fun p c => ?_
  rcases he with h | h | h | h | h | h | h <;> (simp only at h; subst h; exact ex_pure ⟨rfl, rfl, rfl⟩)

/-- The head of the tokens of a type. -/
theorem tyToks_head {t : Ty} (h : TyOK t) : ∃ tt w r, tyToks t = (tt, w) :: r ∧ (tt = .word ∨ tt = .openBracket) := by
  cases t with
  | omitted => exact h.elim
  | scalar n => exact ⟨_, _, _, rfl, .inl rfl⟩
  | named n => exact ⟨_, _, _, rfl, .inl rfl⟩
  | list t => exact ⟨_, _, _, rfl, .inr rfl⟩
  | map k v => exact ⟨_, _, _, rfl, .inl rfl⟩

theorem ex_word_type {n : Nat} {w : Str} {l : Nat} {e : Shape} {es : List Shape} {cm : Comments} (h : TypeWord w) (he : TypeEnd e.1) (hn : 0 < n) :
    Ex (expectTypeN n) ((.word, w, l) :: e :: es) cm fun tok es' cm' => tok.val = w ∧ tok.line = l ∧ es' = e :: es ∧ cm' = cm := by
  cases n with
  | zero => omega
  | succ n =>
    show Ex (expectTypeBody (expectTypeN n)) _ _ _
    rw [typeBody_eq]
    refine ex_then (R := fun r es' cm' => Spells r l w ∧ es' = e :: es ∧ cm' = cm) ?_ ?_
    · refine ex_loop ?_
      rw [typeLoop]
      refine ex_cursor fun p c => ?_
      dsimp only
      rw [if_neg h.1, if_neg (not_or.2 ⟨h.2.1, h.2.2.1⟩)]
      refine ex_advance (ex_pure ⟨?_, ?_⟩)
      · show (e :: es).length < ((TT.word, w, l) :: e :: es).length
        simp
      · refine (ex_typeLoop_end he).mono ?_
        rintro r es' cm' ⟨rfl, rfl, rfl⟩
        exact ⟨⟨_, _, rfl, rfl, by simp⟩, rfl, rfl⟩
    · rintro r es' cm' ⟨h1, rfl, rfl⟩
      exact h1.composed (unescape_plain h.2.2.2.1 h.2.2.2.2)

/-- The types between angle brackets. -/
theorem ex_typeList {rec : P Token} {l : Nat} {k : Str} {v : Ty} {e : Shape} {es : List Shape} {cm : Comments}
    (hu : unescapeString (['<'] ++ k ++ [','] ++ v.text ++ ['>']) = .ok (['<'] ++ k ++ [','] ++ v.text ++ ['>'])) (hv : TyOK v)
    (hk : Ex rec ((.word, k, l) :: (.comma, [','], l) :: (lift l (tyToks v) ++ (.closeAngle, ['>'], l) :: e :: es)) cm
      fun tok es' cm' => tok.val = k ∧ tok.line = l ∧ es' = (.comma, [','], l) :: (lift l (tyToks v) ++ (.closeAngle, ['>'], l) :: e :: es) ∧ cm' = cm)
    (hr : Ex rec (lift l (tyToks v) ++ (.closeAngle, ['>'], l) :: e :: es) cm
      fun tok es' cm' => tok.val = v.text ∧ tok.line = l ∧ es' = (.closeAngle, ['>'], l) :: e :: es ∧ cm' = cm) :
    Ex (expectTypeList rec) ((.openAngle, ['<'], l) :: (.word, k, l) :: (.comma, [','], l) :: (lift l (tyToks v) ++ (.closeAngle, ['>'], l) :: e :: es)) cm
      fun tok es' cm' => tok.val = ['<'] ++ k ++ [','] ++ v.text ++ ['>'] ∧ tok.line = l ∧ es' = (.closeAngle, ['>'], l) :: e :: es ∧ cm' = cm := by
  rw [typeList_eq]
  refine ex_match (vs := [(.openAngle, ['<'], l)]) (es' := (.word, k, l) :: (.comma, [','], l) :: (lift l (tyToks v) ++ (.closeAngle, ['>'], l) :: e :: es)) rfl (by decide) ?_
  intro vs hvs
  refine ex_nth (tt := .openAngle) (v := ['<']) (l := l) hvs rfl fun p c => ?_
  refine ex_then (R := fun r es' cm' => Spells r l (['<'] ++ k ++ [','] ++ v.text ++ ['>']) ∧ es' = (.closeAngle, ['>'], l) :: e :: es ∧ cm' = cm) ?_ ?_
  · refine ex_loop ?_
    rw [listLoop]
    refine ex_cursor fun p1 c1 => ?_
    dsimp only
    refine ex_then hk ?_
    rintro tk es' cm' ⟨h1, h2, rfl, rfl⟩
    refine ex_pure ⟨by simp, ?_⟩
    refine ex_loop ?_
    rw [listLoop]
    refine ex_cursor fun p2 c2 => ?_
    dsimp only
    refine ex_advance (ex_pure ⟨by simp, ?_⟩)
    refine ex_loop ?_
    rw [listLoop]
    obtain ⟨tt, w, r, hv1, hv2⟩ := tyToks_head hv
    have hgoal : Ex (do let t ← rec; pure (.inl ([⟨.openAngle, ['<'], p, l, c⟩] ++ [tk] ++ [⟨.comma, [','], p2, l, c2⟩] ++ [t])) : P (List Token ⊕ List Token))
        (lift l (tyToks v) ++ (.closeAngle, ['>'], l) :: e :: es) cm' (LoopPost (listLoop rec) (lift l (tyToks v) ++ (.closeAngle, ['>'], l) :: e :: es)
          fun r es' cm'' => Spells r l (['<'] ++ k ++ [','] ++ v.text ++ ['>']) ∧ es' = (.closeAngle, ['>'], l) :: e :: es ∧ cm'' = cm') := by
      refine ex_then hr ?_
      rintro tv es' cm'' ⟨h3, h4, rfl, rfl⟩
      refine ex_pure ⟨?_, ?_⟩
      · rw [hv1]; simp; omega
      · refine ex_loop ?_
        rw [listLoop]
        refine ex_cursor fun p3 c3 => ?_
        dsimp only
        exact ex_pure ⟨⟨_, _, rfl, rfl, by simp [h1, h3]⟩, rfl, rfl⟩
    rw [hv1] at hgoal ⊢
    rw [lift_cons, List.cons_append] at hgoal ⊢
    refine ex_cursor fun p3 c3 => ?_
    dsimp only
    rcases hv2 with rfl | rfl
    · exact hgoal
    · exact hgoal
  · rintro r es' cm' ⟨h1, rfl, rfl⟩
    exact h1.composed hu

theorem ex_type_n (t : Ty) (h : TyOK t) {n : Nat} (hn : tyDepth t < n) {l : Nat} {e : Shape} {es : List Shape} {cm : Comments} (he : TypeEnd e.1) :
    Ex (expectTypeN n) (lift l (tyToks t) ++ e :: es) cm fun tok es' cm' => tok.val = t.text ∧ tok.line = l ∧ es' = e :: es ∧ cm' = cm := by
  induction t generalizing n e es cm with
  | omitted => exact h.elim
  | scalar w => exact ex_word_type h he (by omega)
  | named w => exact ex_word_type h he (by omega)
  | list t ih =>
    cases n with
    | zero => omega
    | succ n =>
      show Ex (expectTypeBody (expectTypeN n)) _ _ _
      rw [typeBody_eq]
      refine ex_then (R := fun r es' cm' => Spells r l (Ty.list t).text ∧ es' = e :: es ∧ cm' = cm) ?_ ?_
      · refine ex_loop ?_
        rw [typeLoop]
        simp only [tyToks, lift_cons, List.cons_append]
        refine ex_cursor fun p c => ?_
        dsimp only
        refine ex_match (vs := [(.openBracket, ['['], l), (.closeBracket, [']'], l)]) (es' := lift l (tyToks t) ++ e :: es) rfl (by decide) ?_
        intro vs hvs
        refine ex_then (ih h (by simp only [tyDepth] at hn; omega) he) ?_
        rintro tok es' cm' ⟨h1, h2, rfl, rfl⟩
        refine ex_pure ⟨by simp; omega, ?_⟩
        refine (ex_typeLoop_end he).mono ?_
        rintro r es' cm' ⟨rfl, rfl, rfl⟩
        refine ⟨?_, rfl, rfl⟩
        obtain ⟨p1, c1, vs1, rfl, hvs1⟩ := shapes_cons hvs
        obtain ⟨p2, c2, vs2, rfl, hvs2⟩ := shapes_cons hvs1
        obtain rfl := shapes_nil hvs2
        exact ⟨_, _, rfl, rfl, by simp [h1, Ty.text, Verif.Schema.S]⟩
      · rintro r es' cm' ⟨h1, rfl, rfl⟩
        exact h1.composed (unescape_plain (tyText_ok (t := .list t) h).1 (tyText_ok (t := .list t) h).2)
  | map k v ih =>
    cases n with
    | zero => omega
    | succ n =>
      have hn' : tyDepth v < n := by simp only [tyDepth] at hn; omega
      have htext : (Ty.map k v).text = "map".toList ++ (['<'] ++ k ++ [','] ++ v.text ++ ['>']) := by
        simp only [Ty.text]
        rw [show Verif.Schema.S "map<" = "map".toList ++ ['<'] from rfl, show Verif.Schema.S "," = [','] from rfl, show Verif.Schema.S ">" = ['>'] from rfl]
        simp
      have hok := tyText_ok (t := .map k v) h
      rw [htext] at hok
      have hin : Ascii (['<'] ++ k ++ [','] ++ v.text ++ ['>']) ∧ '\\' ∉ (['<'] ++ k ++ [','] ++ v.text ++ ['>']) :=
        ⟨fun c hc => hok.1 c (List.mem_append_right _ hc), fun hc => hok.2 (List.mem_append_right _ hc)⟩
      show Ex (expectTypeBody (expectTypeN n)) _ _ _
      rw [typeBody_eq]
      refine ex_then (R := fun r es' cm' => Spells r l (Ty.map k v).text ∧ es' = e :: es ∧ cm' = cm) ?_ ?_
      · refine ex_loop ?_
        rw [typeLoop]
        simp only [tyToks, lift_cons, lift_append, List.cons_append, List.nil_append, lift_nil, List.append_assoc]
        refine ex_cursor fun p c => ?_
        dsimp only
        rw [if_pos rfl]
        refine ex_then (R := fun t es' cm' => t.val = (Ty.map k v).text ∧ t.line = l ∧ es' = e :: es ∧ cm' = cm) ?_ ?_
        · rw [mapDef_eq]
          refine ex_cursor fun p1 c1 => ?_
          dsimp only
          rw [if_neg (by simp)]
          refine ex_advance ?_
          refine ex_then (R := fun r es' cm' => Spells r l (Ty.map k v).text ∧ es' = e :: es ∧ cm' = cm) ?_ ?_
          · refine ex_loop ?_
            rw [mapLoop]
            refine ex_cursor fun p2 c2 => ?_
            dsimp only
            refine ex_then (ex_typeList (unescape_plain hin.1 hin.2) h.2 (ex_word_type h.1 (by simp [TypeEnd]) (by omega))
              (ih h.2 hn' (by simp [TypeEnd]))) ?_
            rintro tl es' cm' ⟨h1, h2, rfl, rfl⟩
            refine ex_pure ⟨by simp; omega, ?_⟩
            refine ex_loop ?_
            rw [mapLoop]
            refine ex_cursor fun p3 c3 => ?_
            dsimp only
            refine ex_advance (ex_pure ⟨?_, rfl, rfl⟩)
            exact ⟨_, _, rfl, rfl, by simp [h1, htext]⟩
          · rintro r es' cm' ⟨h1, rfl, rfl⟩
            rw [htext] at h1
            rw [htext]
            exact h1.composed (unescape_plain hok.1 hok.2)
        · rintro tok es' cm' ⟨h1, h2, rfl, rfl⟩
          refine ex_pure ⟨by simp; omega, ?_⟩
          refine (ex_typeLoop_end he).mono ?_
          rintro r es' cm' ⟨rfl, rfl, rfl⟩
          exact ⟨⟨_, _, rfl, h2, by simp [h1]⟩, rfl, rfl⟩
      · rintro r es' cm' ⟨h1, rfl, rfl⟩
        rw [htext] at h1 ⊢
        exact h1.composed (unescape_plain hok.1 hok.2)

theorem tyDepth_le (t : Ty) : tyDepth t ≤ (tyToks t).length := by
  induction t with
  | list t ih => simp only [tyDepth, tyToks, List.length_cons]; omega
  | map k v ih => simp only [tyDepth, tyToks, List.length_append, List.length_cons, List.length_nil]; omega
  | _ => simp [tyDepth]

/-- A type, followed by something that ends it. -/
theorem ex_type (t : Ty) (h : TyOK t) {l : Nat} {e : Shape} {es : List Shape} {cm : Comments} (he : TypeEnd e.1) :
    Ex expectType (lift l (tyToks t) ++ e :: es) cm fun tok es' cm' => tok.val = t.text ∧ tok.line = l ∧ es' = e :: es ∧ cm' = cm := by
  intro d ts hts
  have hlen : ts.length = (lift l (tyToks t) ++ e :: es).length := by rw [← hts, List.length_map]
  have hd := tyDepth_le t
  have := ex_type_n t h (n := ts.length + 1) (by rw [hlen]; simp [lift]; omega) he d ts hts (cm := cm)
  unfold expectType
  have hf : (stateAt d ts cm).tokens.length - (stateAt d ts cm).pos + 1 = ts.length + 1 := by simp [stateAt]
  rw [hf]
  exact this

end Verif.Ridl
