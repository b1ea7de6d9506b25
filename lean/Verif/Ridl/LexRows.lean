import Verif.Props.Lexing
import Verif.Props.ParserValues
import Verif.Ridl.ExecValues
import Verif.Spec.Document
/-! # Lexing a document row by row -/

namespace Verif.Ridl
open Verif.Spec

/-- The text `a`, followed by `post`, is made of the tokens `l`. -/
def Lexes (a : Str) (l : List (TT × Str)) (post : Str) : Prop := ∀ ts, Segments post ts → Segments (a ++ post) (l ++ ts)

theorem lexes_nil (post : Str) : Lexes [] [] post := fun _ h => h

theorem lexes_append {a b post : Str} {la lb : List (TT × Str)} (ha : Lexes a la (b ++ post)) (hb : Lexes b lb post) :
    Lexes (a ++ b) (la ++ lb) post := by
  intro ts h
  have := ha _ (hb ts h)
  simpa using this

theorem lexes_tok {tt : TT} {v post : Str} (h : Tok tt v post) : Lexes v [(tt, v)] post := fun ts hr => .cons tt v post ts h hr

theorem lexes_cons {tt : TT} {v b post : Str} {lb : List (TT × Str)} (h : Tok tt v (b ++ post)) (hb : Lexes b lb post) :
    Lexes (v ++ b) ((tt, v) :: lb) post := lexes_append (lexes_tok h) hb

theorem tok_word {w post : Str} (h : IsWord w) (hp : ∀ d, post.head? = some d → WordEnd d) : Tok .word w post := by
  obtain ⟨c, cs, rfl, hc, hcs⟩ := h
  exact .word c cs post hc hcs hp

theorem tok_blank {v post : Str} (hne : v ≠ []) (h : ∀ c ∈ v, c = ' ') (hp : ∀ d, post.head? = some d → ¬ Blank d) : Tok .whitespace v post := by
  cases v with
  | nil => exact absurd rfl hne
  | cons c cs => exact .blank c cs post (fun x hx => .inl (h x hx)) hp

theorem tok_congr {tt : TT} {v post post' : Str} (h : Tok tt v post) (he : post'.head? = post.head?) : Tok tt v post' := by
  cases h with
  | blank c cs _ h hm => exact .blank c cs _ h (by rw [he]; exact hm)
  | word c cs _ hc h hm => exact .word c cs _ hc h (by rw [he]; exact hm)
  | rocket => exact .rocket _
  | equal _ h => exact .equal _ (by rw [he]; exact h)
  | symbol c tt _ h => exact .symbol c tt _ h
  | extra c _ h0 h1 h2 h3 h4 => exact .extra c _ h0 h1 h2 h3 h4

/-- Characters that are always tokens of their own and end every other token. -/
def Hard (b : Char) (tt : TT) : Prop := Spec.symbol b = some tt ∧ WordEnd b ∧ b ≠ '>'

theorem hard_quote : Hard '"' .quote := ⟨rfl, by unfold WordEnd; decide, by decide⟩
theorem hard_newline : Hard '\n' .newLine := ⟨rfl, by unfold WordEnd; decide, by decide⟩

/-- Cutting a segmentation at such a character. -/
theorem segments_hard {b : Char} {tt : TT} (hb : Hard b tt) {src : Str} {l : List (TT × Str)} (h : Segments src l) {pre post : Str}
    (hs : src = pre ++ b :: post) (hn : '\x00' ∉ pre) :
    ∃ l1 l2, l = l1 ++ (tt, [b]) :: l2 ∧ l1.flatMap (·.2) = pre ∧ Segments post l2 := by
  obtain ⟨hb1, hb2, hb3⟩ := hb
  have hcls := symbol_class b tt hb1
  induction h generalizing pre with
  | nil => simp at hs
  | nul post' =>
    cases pre with
    | nil =>
      simp only [List.nil_append, List.cons.injEq] at hs
      exact absurd hs.1.symm hcls.2.2.2
    | cons c pre => simp at hs; exact absurd hs.1 (by rintro rfl; simp at hn)
  | cons tt' v post' ts ht hr ih =>
    rcases List.append_eq_append_iff.1 hs with ⟨a, ha, hb⟩ | ⟨a, ha, hb⟩
    · obtain ⟨l1, l2, h1, h2, h3⟩ := ih hb (fun hh => hn (by rw [ha]; simp [hh]))
      exact ⟨(tt', v) :: l1, l2, by simp [h1], by simp [h2, ha], h3⟩
    · cases a with
      | nil =>
        simp only [List.append_nil] at ha
        simp only [List.nil_append] at hb
        obtain ⟨l1, l2, h1, h2, h3⟩ := ih (pre := []) (by simpa using hb.symm) (by simp)
        exact ⟨(tt', v) :: l1, l2, by simp [h1], by simp [h2, ha], h3⟩
      | cons d a =>
        simp only [List.cons_append, List.cons.injEq] at hb
        obtain ⟨rfl, hb⟩ := hb
        have hmem : b ∈ v := by rw [ha]; simp
        cases ht with
        | blank c cs _ hbl => exact absurd (hbl b hmem) hcls.1
        | word c cs _ hc hcs =>
          rcases List.mem_cons.1 hmem with rfl | hm
          · exact absurd hc hcls.2.1
          · exact absurd hb2 (hcs b hm)
        | rocket =>
          simp only [List.mem_cons, List.not_mem_nil, or_false] at hmem
          rcases hmem with rfl | rfl
          · exact absurd rfl hcls.2.2.1
          · exact absurd rfl hb3
        | equal =>
          simp only [List.mem_cons, List.not_mem_nil, or_false] at hmem
          exact absurd hmem hcls.2.2.1
        | symbol c _ _ hsy =>
          simp only [List.mem_singleton] at hmem; subst hmem
          have : pre = [] ∧ a = [] := by
            have hl := congrArg List.length ha
            simp at hl
            exact ⟨List.eq_nil_of_length_eq_zero (by omega), List.eq_nil_of_length_eq_zero (by omega)⟩
          obtain ⟨rfl, rfl⟩ := this
          rw [hb1] at hsy
          obtain rfl : tt = tt' := by simpa using hsy
          refine ⟨[], ts, rfl, rfl, ?_⟩
          simp only [List.nil_append] at hb
          rw [hb]; exact hr
        | extra c _ _ _ _ h3 =>
          simp only [List.mem_singleton] at hmem; subst hmem
          rw [hb1] at h3; cases h3

/-- The tokens of a row. -/
def rowToks (s : Str) : List (TT × Str) :=
  match tokenize (s ++ ['\n']) with
  | some (ts, _) => (ts.map fun t => (t.tt, t.val)).dropLast
  | none => []

theorem tok_newline (post : Str) : Tok .newLine ['\n'] post := .symbol '\n' .newLine post rfl

theorem rowToks_eq {s : Str} {l : List (TT × Str)} (h : Lexes s l ['\n']) : rowToks s = l := by
  have h1 := h [(.newLine, ['\n'])] (.cons .newLine ['\n'] [] [] (tok_newline []) .nil)
  obtain ⟨ts, h2, h3⟩ := tokenize_ok (s ++ ['\n'])
  have := segments_unique h1 h3.seg
  unfold rowToks
  rw [h2]
  show (ts.map fun t => (t.tt, t.val)).dropLast = l
  rw [← this]
  simp

/-- What follows a hard character does not matter. -/
theorem segments_replace {b : Char} {l1 : List (TT × Str)} {p q : Str} {r l2' : List (TT × Str)}
    (h : Segments (l1.flatMap (·.2) ++ b :: p) (l1 ++ r)) (hq : Segments (b :: q) l2') :
    Segments (l1.flatMap (·.2) ++ b :: q) (l1 ++ l2') := by
  induction l1 with
  | nil => exact hq
  | cons t l1 ih =>
    obtain ⟨tt, v⟩ := t
    generalize hs : ((tt, v) :: l1).flatMap (·.2) ++ b :: p = src at h
    generalize hl : (tt, v) :: l1 ++ r = l at h
    cases h with
    | nil => simp at hs
    | nul post => cases hl
    | cons tt' v' post ts ht hr =>
      simp only [List.cons_append, List.cons.injEq, Prod.mk.injEq] at hl
      obtain ⟨⟨rfl, rfl⟩, rfl⟩ := hl
      simp only [List.flatMap_cons, List.append_assoc] at hs ⊢
      obtain rfl := List.append_cancel_left hs
      refine .cons _ _ _ _ (tok_congr ht ?_) (ih hr)
      cases l1.flatMap (·.2) <;> rfl

theorem row_lexes {s : Str} (hn : '\x00' ∉ s) (post : Str) : Lexes s (rowToks s) ('\n' :: post) ∧ (rowToks s).flatMap (·.2) = s := by
  obtain ⟨ts, h2, h3⟩ := tokenize_ok (s ++ ['\n'])
  obtain ⟨l1, l2, g1, g2, g3⟩ := segments_hard hard_newline h3.seg (pre := s) (post := []) rfl hn
  have hl2 : l2 = [] := segments_unique g3 .nil
  subst hl2
  have hrow : rowToks s = l1 := by
    unfold rowToks
    rw [h2]
    show (ts.map fun t => (t.tt, t.val)).dropLast = l1
    rw [g1]; simp
  rw [hrow]
  refine ⟨?_, g2⟩
  intro ts' hts'
  have h4 := h3.seg
  rw [g1, ← g2] at h4
  have := segments_replace h4 hts'
  rw [g2] at this
  exact this

/-- The tokens of a document. -/
theorem rows_segments (rows : List Str) (hn : ∀ r ∈ rows, '\x00' ∉ r) :
    Segments (rows.flatMap (· ++ ['\n'])) (rows.flatMap fun r => rowToks r ++ [(.newLine, ['\n'])]) := by
  induction rows with
  | nil => exact .nil
  | cons r rows ih =>
    have ih := ih fun x hx => hn x (by simp [hx])
    have h1 := (row_lexes (hn r (by simp)) (rows.flatMap (· ++ ['\n']))).1 _
      (.cons .newLine ['\n'] _ _ (tok_newline _) ih)
    simpa using h1

theorem rowToks_tok {s : Str} (hn : '\x00' ∉ s) : ∀ t ∈ rowToks s, ∃ post, Tok t.1 t.2 post := by
  have h := (row_lexes hn []).1 [(.newLine, ['\n'])] (.cons .newLine ['\n'] [] [] (tok_newline []) .nil)
  intro t ht
  exact segments_mem h t (by simp [ht])

theorem mem_row {s : Str} (hn : '\x00' ∉ s) {t : TT × Str} (ht : t ∈ rowToks s) {c : Char} (hc : c ∈ t.2) : c ∈ s := by
  rw [← (row_lexes hn []).2]
  exact List.mem_flatMap.2 ⟨t, ht, hc⟩

theorem row_no_newline {s : Str} (hn : '\x00' ∉ s) (hl : '\n' ∉ s) : ∀ t ∈ rowToks s, t.1 ≠ .newLine ∧ '\n' ∉ t.2 := by
  intro t ht
  have h2 : '\n' ∉ t.2 := fun h => hl (mem_row hn ht h)
  refine ⟨fun he => h2 ?_, h2⟩
  obtain ⟨post, hp⟩ := rowToks_tok hn t ht
  rw [(tok_special hp).2.1 he]; simp

/-! ### Positions -/

/-- The tokens of rows, the first of which is row `l` of the document. -/
def layout : Nat → List Str → List Shape
  | _, [] => []
  | l, r :: rs => lift l (rowToks r) ++ (.newLine, ['\n'], l) :: layout (l + 1) rs

/-- A row without newlines or NULs. -/
def RowOK (r : Str) : Prop := '\n' ∉ r ∧ '\x00' ∉ r

/-- Each token knows its line. -/
def Lined (base : Nat) (ts : List Token) : Prop :=
  ∀ pre t post, ts = pre ++ t :: post → t.line = base + ((pre ++ [t]).flatMap (·.val)).dropLast.count '\n'

theorem lined_run {src : Str} {ts : List Token} (h : RunOK src 0 (1, 1) ts) : Lined 1 ts := by
  intro pre t post ht
  have := (h.at_ pre t post ht).2
  have h2 : t.line = (((pre ++ [t]).flatMap (·.val)).dropLast.foldl Spec.advance (1, 1)).1 := by rw [← this]
  rw [h2, foldl_advance_line]

theorem count_dropLast_append {a b : Str} (hb : b ≠ []) : (a ++ b).dropLast.count '\n' = a.count '\n' + b.dropLast.count '\n' := by
  rw [List.dropLast_append_of_ne_nil hb, List.count_append]

theorem Lined.cons {base : Nat} {t : Token} {ts : List Token} (h : Lined base (t :: ts)) (hne : ∀ x ∈ ts, x.val ≠ []) :
    t.line = base + t.val.dropLast.count '\n' ∧ Lined (base + t.val.count '\n') ts := by
  refine ⟨by simpa using h [] t ts rfl, ?_⟩
  intro pre x post hx
  have := h (t :: pre) x post (by simp [hx])
  rw [this]
  have hxne : (pre ++ [x]).flatMap (·.val) ≠ [] := by
    have : x.val ≠ [] := hne x (by simp [hx])
    simp [this]
  rw [show (t :: pre ++ [x]).flatMap (·.val) = t.val ++ (pre ++ [x]).flatMap (·.val) by simp, count_dropLast_append hxne]
  omega

theorem shapes_lined {base : Nat} {rows : List Str} (hrows : ∀ r ∈ rows, RowOK r) {ts : List Token}
    (h : Lined base ts) (hp : ts.map (fun t => (t.tt, t.val)) = rows.flatMap fun r => rowToks r ++ [(.newLine, ['\n'])])
    (hne : ∀ t ∈ ts, t.val ≠ []) : ts.map Token.shape = layout base rows := by
  induction rows generalizing base ts with
  | nil =>
    simp only [List.flatMap_nil, List.map_eq_nil_iff] at hp
    subst hp; rfl
  | cons r rows ih =>
    have hr := hrows r (by simp)
    have hnl := row_no_newline hr.2 hr.1
    rw [List.flatMap_cons, List.append_assoc] at hp
    unfold layout
    generalize rowToks r = l at hp hnl
    induction l generalizing ts with
    | nil =>
      simp only [List.nil_append, List.cons_append] at hp
      cases ts with
      | nil => cases hp
      | cons t ts =>
        simp only [List.map_cons, List.cons.injEq, Prod.mk.injEq] at hp
        obtain ⟨⟨h1, h2⟩, hp⟩ := hp
        obtain ⟨g1, g2⟩ := h.cons fun x hx => hne x (by simp [hx])
        rw [h2] at g1 g2
        have := ih (fun x hx => hrows x (by simp [hx])) g2 hp (fun x hx => hne x (by simp [hx]))
        simp only [List.map_cons, lift_nil, List.nil_append, this]
        have e1 : (['\n'].dropLast).count '\n' = 0 := by decide
        have e2 : ['\n'].count '\n' = 1 := by decide
        rw [e1] at g1
        rw [e2]
        simp only [Token.shape, h1, h2, g1]
        rfl
    | cons x l ihl =>
      cases ts with
      | nil => cases hp
      | cons t ts =>
        simp only [List.map_cons, List.cons_append, List.cons.injEq] at hp
        obtain ⟨rfl, hp⟩ := hp
        obtain ⟨g1, g2⟩ := h.cons fun x hx => hne x (by simp [hx])
        have hx := (hnl _ (List.mem_cons_self ..)).2
        simp only at hx
        have c1 : t.val.count '\n' = 0 := List.count_eq_zero.2 hx
        have c2 : t.val.dropLast.count '\n' = 0 := List.count_eq_zero.2 fun h => hx (List.dropLast_subset _ h)
        rw [c1] at g2
        rw [c2] at g1
        have := ihl g2 (fun x hx => hne x (by simp [hx])) hp (fun x hx => hnl x (by simp [hx]))
        rw [List.map_cons, this]
        simp only [lift_cons, List.cons_append, Token.shape, g1]
        rfl

/-! ### Comments -/

def rowComment (r : Str) : Option Str := lineComment (rowToks r)

/-- The comments of the rows from row `l` on are still there, and the row above has none. -/
def Fresh (l : Nat) (rows : List Str) (cm : Comments) : Prop :=
  (∀ i, cm.get (l + i) = rows[i]?.bind rowComment) ∧ ∀ k, l = k + 1 → cm.get k = none

theorem layout_append (l : Nat) (a b : List Str) : layout l (a ++ b) = layout l a ++ layout (l + a.length) b := by
  induction a generalizing l with
  | nil => rfl
  | cons r a ih =>
    simp only [List.cons_append, layout, ih, List.length_cons, List.append_assoc]
    rw [show l + 1 + a.length = l + (a.length + 1) by omega]

/-- The tokens and comments of a document. -/
theorem document_tokens (rows : List Str) (hrows : ∀ r ∈ rows, RowOK r) :
    ∃ ts cm, tokenize (rows.flatMap (· ++ ['\n'])) = some (ts, cm) ∧ ts.map Token.shape = layout 1 rows ∧ Fresh 1 rows cm := by
  obtain ⟨ts, h1, h2⟩ := tokenize_ok (rows.flatMap (· ++ ['\n']))
  have hp := segments_unique h2.seg (rows_segments rows fun r hr => (hrows r hr).2)
  have hne : ∀ t ∈ ts, t.val ≠ [] := by
    intro t ht
    obtain ⟨post, hp⟩ := segments_mem h2.seg (t.tt, t.val) (List.mem_map_of_mem ht)
    exact hp.ne_nil
  have hsh := shapes_lined hrows (lined_run h2) hp hne
  refine ⟨ts, _, h1, hsh, ?_⟩
  generalize hcm : (ts.foldl tokenizeStep {}).lineComments = cm at h1
  -- newline tokens of the layout
  have hnls : ∀ (l : Nat) (rows : List Str), (∀ r ∈ rows, RowOK r) → ∀ e ∈ layout l rows, e.1 = .newLine → l ≤ e.2.2 ∧ e.2.2 < l + rows.length := by
    intro l rows
    induction rows generalizing l with
    | nil => intro _ e he; cases he
    | cons r rows ih =>
      intro hr e he hn
      unfold layout at he
      simp only [List.mem_append, List.mem_cons] at he
      rcases he with he | rfl | he
      · obtain ⟨t, ht, rfl⟩ := List.mem_map.1 he
        exact absurd hn (row_no_newline (hr r (by simp)).2 (hr r (by simp)).1 t ht).1
      · simp
      · have := ih (l + 1) (fun x hx => hr x (by simp [hx])) e he hn
        simp; omega
  have hout : ∀ n, (n = 0 ∨ rows.length < n) → cm.get n = none := by
    intro n hn
    cases hg : cm.get n with
    | none => rfl
    | some c =>
      obtain ⟨A, L, B, nl, e1, _, _, e2, e3, _⟩ := Props.C05_only_comments _ ts cm h1 n c hg
      have hm : Token.shape nl ∈ layout 1 rows := by rw [← hsh]; exact List.mem_map_of_mem (by simp [e1])
      have := hnls 1 rows hrows _ hm e2
      have e : (Token.shape nl).2.2 = n := e3
      omega
  refine ⟨?_, fun k hk => hout k (by omega)⟩
  intro i
  by_cases hi : i < rows.length
  · have hsplit : rows = rows.take i ++ rows[i] :: rows.drop (i + 1) := by simp
    rw [List.getElem?_eq_getElem hi]
    show _ = rowComment rows[i]
    have hsh' := hsh
    rw [hsplit, layout_append] at hsh'
    have hlen : (rows.take i).length = i := by simp; omega
    rw [hlen] at hsh'
    rw [layout] at hsh'
    obtain ⟨A, R, e1, eA, eR⟩ := map_append_inv hsh'
    obtain ⟨L, R', e2, eL, eR'⟩ := map_append_inv eR
    obtain ⟨p, c, B, e3, eB⟩ := shapes_cons eR'
    have hri := hrows rows[i] (by simp)
    have hnl := row_no_newline hri.2 hri.1
    have := Props.C05_line_comment _ ts cm h1 A L B ⟨.newLine, ['\n'], p, 1 + i, c⟩ (by rw [e1, e2, e3]) (by
      intro t ht
      have : (A.map Token.shape).getLast? = some (Token.shape t) := by rw [List.getLast?_map, ht]; rfl
      rw [eA] at this
      clear hsh' eA eR
      have hall : ∀ (l : Nat) (rows : List Str) e, (layout l rows).getLast? = some e → e.1 = .newLine := by
        intro l rows
        induction rows generalizing l with
        | nil => intro e he; cases he
        | cons r rows ih =>
          intro e he
          unfold layout at he
          cases rows with
          | nil => simp [layout] at he; rw [← he]
          | cons r2 rows =>
            have hne2 : layout (l + 1) (r2 :: rows) ≠ [] := by simp [layout]
            obtain ⟨x, hx⟩ : ∃ x, (layout (l + 1) (r2 :: rows)).getLast? = some x := by
              cases hg : (layout (l + 1) (r2 :: rows)).getLast? with
              | none => exact absurd (List.getLast?_eq_none_iff.1 hg) hne2
              | some x => exact ⟨x, rfl⟩
            rw [List.getLast?_append, List.getLast?_cons, hx] at he
            simp only [Option.getD_some, Option.some_or, Option.some.injEq] at he
            subst he
            exact ih (l + 1) _ hx
      exact hall _ _ _ this) (by
      intro t ht
      have : Token.shape t ∈ lift (1 + i) (rowToks rows[i]) := by rw [← eL]; exact List.mem_map_of_mem ht
      obtain ⟨x, hx, e⟩ := List.mem_map.1 this
      have : t.tt = x.1 := (congrArg (·.1) e).symm
      rw [this]; exact (hnl x hx).1) rfl
    rw [show (⟨.newLine, ['\n'], p, 1 + i, c⟩ : Token).line = 1 + i from rfl] at this
    rw [this]
    unfold rowComment
    have : L.map (fun t => (t.tt, t.val)) = (L.map Token.shape).map fun e => (e.1, e.2.1) := by simp [Token.shape]
    rw [this, eL, lift, List.map_map]
    exact congrArg lineComment (List.map_id _)
  · rw [List.getElem?_eq_none (by omega)]
    exact hout _ (by omega)

/-! ### Pieces of rows -/

/-- The text is followed by something that ends a word. -/
def Ends (post : Str) : Prop := ∀ d, post.head? = some d → WordEnd d

theorem ends_cons {c : Char} {post : Str} (h : WordEnd c) : Ends (c :: post) := by
  intro d hd
  simp only [List.head?_cons, Option.some.injEq] at hd
  exact hd ▸ h

/-- The text is not followed by a blank. -/
def Solid (post : Str) : Prop := ∀ d, post.head? = some d → ¬ Blank d

theorem solid_cons {c : Char} {post : Str} (h : ¬ Blank c) : Solid (c :: post) := by
  intro d hd
  simp only [List.head?_cons, Option.some.injEq] at hd
  exact hd ▸ h

theorem solid_word {w post : Str} (h : IsWord w) : Solid (w ++ post) := by
  obtain ⟨c, cs, rfl, hc, _⟩ := h
  exact solid_cons fun hb => blank_not_word hb hc

theorem isTypeWord {w : Str} (h : IsTypeWord w) : TypeWord w := by
  obtain ⟨_, h2, h3⟩ := h
  simp only [List.mem_cons, List.not_mem_nil, or_false, not_or] at h3
  exact ⟨h3.1, h3.2.1, h3.2.2, h2.1, h2.2⟩

theorem writable_ok {t : Ty} (h : t.Writable) : TyOK t := by
  induction t with
  | omitted => exact h
  | scalar n => exact isTypeWord h
  | named n => exact isTypeWord h
  | list t ih => exact ih h
  | map k v ih => exact ⟨isTypeWord h.1, ih h.2⟩

theorem tok_sym {c : Char} {tt : TT} {post : Str} (h : Spec.symbol c = some tt) : Tok tt [c] post := .symbol c tt post h

theorem word_map : IsWord "map".toList := ⟨'m', ['a', 'p'], rfl, by unfold WordStart; decide, by unfold WordEnd; decide⟩

theorem wordEnd_of {c : Char} (h : c ∈ "\x00 \t\r\n[]()<>{}=:¿?¡!,\"".toList) : WordEnd c := h

theorem lexes_type {t : Ty} (h : t.Writable) {post : Str} (hp : Ends post) : Lexes t.text (tyToks t) post := by
  induction t generalizing post with
  | omitted => exact h.elim
  | scalar n => exact lexes_tok (tok_word h.1 hp)
  | named n => exact lexes_tok (tok_word h.1 hp)
  | list t ih =>
    show Lexes (['['] ++ ([']'] ++ t.text)) _ _
    exact lexes_cons (tok_sym rfl) (lexes_cons (tok_sym rfl) (ih h hp))
  | map k v ih =>
    have e : (Ty.map k v).text = "map".toList ++ (['<'] ++ (k ++ ([','] ++ (v.text ++ ['>'])))) := by
      simp only [Ty.text]
      rw [show Verif.Schema.S "map<" = "map".toList ++ ['<'] from rfl, show Verif.Schema.S "," = [','] from rfl, show Verif.Schema.S ">" = ['>'] from rfl]
      simp
    rw [e]
    show Lexes _ ((.word, "map".toList) :: (.openAngle, ['<']) :: (.word, k) :: (.comma, [',']) :: (tyToks v ++ [(.closeAngle, ['>'])])) _
    refine lexes_cons (tok_word word_map (ends_cons (wordEnd_of (by decide)))) ?_
    refine lexes_cons (tok_sym rfl) ?_
    refine lexes_cons (tok_word h.1.1 (ends_cons (wordEnd_of (by decide)))) ?_
    refine lexes_cons (tok_sym rfl) ?_
    exact lexes_append (ih h.2 (ends_cons (wordEnd_of (by decide)))) (lexes_tok (tok_sym rfl))

theorem escape_mem {s : Str} {c : Char} (h : c ∈ escape s) : c ∈ s ∨ c = '\\' ∨ c = 'n' ∨ c = 't' := by
  induction s with
  | nil => exact absurd h (by simp [escape])
  | cons d r ih =>
    unfold escape at h
    split at h
    · contradiction
    all_goals
      rename_i he
      simp only [List.cons.injEq] at he
      obtain ⟨rfl, rfl⟩ := he
      simp only [List.mem_cons] at h ⊢
      grind

theorem escape_no {s : Str} {c : Char} (h : c ∉ s) (h1 : c ≠ '\\') (h2 : c ≠ 'n') (h3 : c ≠ 't') : c ∉ escape s := by
  intro hc
  rcases escape_mem hc with h' | h' | h' | h'
  · exact h h'
  · exact h1 h'
  · exact h2 h'
  · exact h3 h'

theorem escape_no_newline (s : Str) : '\n' ∉ escape s := by
  induction s with
  | nil => simp [escape]
  | cons d r ih =>
    unfold escape
    split
    · contradiction
    all_goals
      rename_i he
      simp only [List.cons.injEq] at he
      obtain ⟨rfl, rfl⟩ := he
      simp only [List.mem_cons, not_or]
    · exact ⟨by decide, by decide, ih⟩
    · exact ⟨by decide, by decide, ih⟩
    · exact ⟨by decide, by decide, ih⟩
    · refine ⟨?_, ih⟩
      rename_i h1 _ _
      exact fun e => h1 e.symm

theorem escape_last {s : Str} (hb : '\\' ∉ s) : (escape s).getLast? ≠ some '\\' := by
  induction s with
  | nil => simp [escape]
  | cons d r ih =>
    have ih := ih fun h => hb (by simp [h])
    have hd : d ≠ '\\' := fun h => hb (by simp [h])
    have key : ∀ c : Char, c ≠ '\\' → (c :: escape r).getLast? ≠ some '\\' := by
      intro c hc
      rw [List.getLast?_cons]
      cases hg : (escape r).getLast? with
      | none => simpa using hc
      | some x => rw [hg] at ih; simpa using ih
    have key2 : ∀ c : Char, c ≠ '\\' → ('\\' :: c :: escape r).getLast? ≠ some '\\' := by
      intro c hc
      rw [List.getLast?_cons_cons]
      exact key c hc
    unfold escape
    split
    · contradiction
    all_goals
      rename_i he
      simp only [List.cons.injEq] at he
      obtain ⟨rfl, rfl⟩ := he
    · exact key2 _ (by decide)
    · exact key2 _ (by decide)
    · exact key2 _ (by decide)
    · exact key _ hd

theorem escape_ne {s : Str} (h : s ≠ []) : escape s ≠ [] := by
  cases s with
  | nil => exact absurd rfl h
  | cons d r =>
    unfold escape
    split <;> simp_all

/-- Text between quotes. -/
theorem lexes_quoted {s : Str} (h : Quotable s) :
    ∃ bt, InnerToks bt ∧ unescapeString (bt.flatMap (·.2)) = .ok s ∧ (∀ t ∈ bt, t.1 ≠ .hash) ∧
      ∀ post, Lexes (['"'] ++ escape s ++ ['"']) ((.quote, ['"']) :: (bt ++ [(.quote, ['"'])])) post := by
  obtain ⟨hne, hcl, hq, hh, hz⟩ := h
  have hz' : '\x00' ∉ escape s := escape_no hz (by decide) (by decide) (by decide)
  have hq' : '"' ∉ escape s := escape_no hq (by decide) (by decide) (by decide)
  have hh' : '#' ∉ escape s := escape_no hh (by decide) (by decide) (by decide)
  obtain ⟨ts, h2, h3⟩ := tokenize_ok (escape s ++ ['"'])
  obtain ⟨bt, l2, g1, g2, g3⟩ := segments_hard hard_quote h3.seg (pre := escape s) (post := []) rfl hz'
  have hl2 : l2 = [] := segments_unique g3 .nil
  subst hl2
  have htok : ∀ t ∈ bt, ∃ post, Tok t.1 t.2 post := fun t ht => segments_mem h3.seg t (by rw [g1]; simp [ht])
  have hmem : ∀ t ∈ bt, ∀ c ∈ t.2, c ∈ escape s := fun t ht c hc => by rw [← g2]; exact List.mem_flatMap.2 ⟨t, ht, hc⟩
  refine ⟨bt, ⟨?_, ?_, ?_⟩, ?_, ?_, ?_⟩
  · rintro rfl
    exact escape_ne hne (by simpa using g2.symm)
  · intro t ht
    obtain ⟨post, hp⟩ := htok t ht
    obtain ⟨s1, s2, s3, s4⟩ := tok_special hp
    refine ⟨fun e => hq' (hmem t ht _ (by rw [s1 e]; simp)), fun e => escape_no_newline s (hmem t ht _ (by rw [s2 e]; simp)), s4⟩
  · intro t ht he
    obtain ⟨post, hp⟩ := htok t (List.mem_of_getLast? ht)
    obtain ⟨b, rfl⟩ : ∃ b, bt = b ++ [t] := List.getLast?_eq_some_iff.1 ht
    have hv := (tok_special hp).2.2.1 he
    refine escape_last hcl.2 ?_
    rw [← g2]
    simp [hv]
  · rw [g2]; exact Props.C07_escape_unescape s hcl.1 hcl.2
  · intro t ht he
    obtain ⟨post, hp⟩ := htok t ht
    obtain ⟨tt, v⟩ := t
    simp only at he
    subst he
    cases hp with
    | symbol c _ _ hs =>
      have : c = '#' := by
        unfold Spec.symbol at hs
        split at hs <;> simp at hs ⊢
      exact hh' (hmem _ ht _ (by simp [this]))
  · intro post
    rw [List.append_assoc]
    refine lexes_cons (tok_sym rfl) ?_
    intro ts' hts'
    have h4 := h3.seg
    rw [g1, ← g2] at h4
    have := segments_replace h4 (.cons .quote ['"'] post ts' (tok_sym rfl) hts')
    rw [g2] at this
    simpa using this

/-- Dots and slashes, then a word. -/
theorem lexes_led {lead : List Char} {isTok : TT → Bool} {s post : Str} (hl : ∀ c ∈ lead, ∃ tt, Spec.symbol c = some tt ∧ isTok tt = true ∧ tt ≠ .quote ∧ tt ≠ .hash)
    (hw : isTok .word = true) (h : Led lead s) (hp : Ends post) :
    ∃ bt, LitToks isTok bt s ∧ (∀ t ∈ bt, t.1 ≠ .hash) ∧ Lexes s bt post := by
  obtain ⟨hne, hc, p, w, rfl, hpl, hww⟩ := h
  have main : ∃ bt, (∀ t ∈ bt, isTok t.1 = true ∧ t.1 ≠ .quote ∧ t.1 ≠ .hash) ∧ bt.flatMap (·.2) = p ++ w ∧ Lexes (p ++ w) bt post := by
    clear hne hc
    induction p with
    | nil =>
      rcases hww with rfl | hww
      · exact ⟨[], by simp, rfl, lexes_nil post⟩
      · exact ⟨[(.word, w)], by simp [hw], by simp, lexes_tok (tok_word hww hp)⟩
    | cons c p ih =>
      obtain ⟨bt, h1, h2, h3⟩ := ih fun x hx => hpl x (by simp [hx])
      obtain ⟨tt, g1, g2, g3, g4⟩ := hl c (hpl c (by simp))
      refine ⟨(tt, [c]) :: bt, ?_, by simp [h2], ?_⟩
      · intro t ht
        rcases List.mem_cons.1 ht with rfl | ht
        · exact ⟨g2, g3, g4⟩
        · exact h1 t ht
      · exact lexes_cons (tok_sym g1) h3
  obtain ⟨bt, h1, h2, h3⟩ := main
  refine ⟨bt, .bare ?_ (fun t ht => ⟨(h1 t ht).1, (h1 t ht).2.1⟩) h2 (unescape_plain hc.1 hc.2), fun t ht => (h1 t ht).2.2, h3⟩
  rintro rfl
  exact hne (by simpa using h2.symm)

/-- A literal. -/
theorem lexes_lit {lead : List Char} {isTok : TT → Bool} {v : Lit} {post : Str} (hl : ∀ c ∈ lead, ∃ tt, Spec.symbol c = some tt ∧ isTok tt = true ∧ tt ≠ .quote ∧ tt ≠ .hash)
    (hw : isTok .word = true) (h : v.Ok (Led lead)) (hp : Ends post) :
    ∃ bt, LitToks isTok bt v.value ∧ (∀ t ∈ bt, t.1 ≠ .hash) ∧ Lexes v.text bt post := by
  cases v with
  | bare s => exact lexes_led hl hw h hp
  | quoted s =>
    obtain ⟨bt, h1, h2, h3, h4⟩ := lexes_quoted h
    refine ⟨_, .quoted h1 h2, ?_, h4 post⟩
    intro t ht
    simp only [List.mem_cons, List.mem_append, List.not_mem_nil, or_false] at ht
    rcases ht with rfl | ht | rfl
    · decide
    · exact h3 t ht
    · decide

end Verif.Ridl
