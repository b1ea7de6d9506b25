import Verif.Spec.Grammar

/-! What a relation of the grammar leaves is an end of what it was given. -/

namespace Verif.Spec.Grammar
open Verif.Ridl (Str TT)

macro "suf" : tactic => `(tactic| repeat (first | exact List.suffix_refl _ | assumption |
  refine List.IsSuffix.trans ?_ (List.suffix_cons _ _) | refine List.IsSuffix.trans ?_ (List.suffix_append _ _)))

theorem Noise.suf {i r : List Lexeme} (h : Noise i r) : r <:+ i := by
  induction h with
  | nil => suf
  | blank v h ih => suf
  | line v h ih => suf
  | comment v c hc he h ih => suf

theorem LineEnd.suf {i r : List Lexeme} (h : LineEnd i r) : r <:+ i := by
  induction h with
  | nil => suf
  | blank v h ih => suf
  | comment v c hc he => suf

theorem StrBody.suf {i r : List Lexeme} {s : Str} (h : StrBody i s r) : r <:+ i := by
  induction h with
  | close => suf
  | esc b x h ih => suf
  | tok x hx h ih => suf

theorem Quoted.suf {i r : List Lexeme} {s : Str} (h : Quoted i s r) : r <:+ i := by
  cases h with
  | mk q h hv => have := h.suf; suf

theorem Run.suf {ks : List TT} {i r : List Lexeme} {s : Str} (h : Run ks i s r) : r <:+ i := by
  induction h with
  | nil => suf
  | cons x hx h ih => suf

theorem Literal.suf {ks : List TT} {i r : List Lexeme} {s : Str} (h : Literal ks i s r) : r <:+ i := by
  cases h with
  | quoted h hq => exact hq.suf.trans h.suf
  | bare h _ _ _ => exact h.suf

mutual
theorem TypeE.suf {i r : List Lexeme} {s : Str} : TypeE i s r → r <:+ i
  | .mk h hs _ => hs.suf.trans h.suf
theorem Part.suf {i r : List Lexeme} {s : Str} : Part i s r → r <:+ i
  | .name _ _ _ => by suf
  | .list _ _ ht => by have := ht.suf; suf
  | .map ht => ht.suf
theorem Parts.suf {i r : List Lexeme} {s : Str} : Parts i s r → r <:+ i
  | .nil _ => by suf
  | .cons h hs => hs.suf.trans h.suf
theorem MapE.suf {i r : List Lexeme} {s : Str} : MapE i s r → r <:+ i
  | .mk h _ => by have := h.suf; suf
theorem Angle.suf {i r : List Lexeme} {s : Str} : Angle i s r → r <:+ i
  | .blank _ h => by have := h.suf; suf
  | .close _ _ => by suf
  | .list _ h _ h' => by have := h'.suf.trans h.suf; suf
theorem Items.suf {i r : List Lexeme} {s : Str} : Items i s r → r <:+ i
  | .close _ _ => by suf
  | .blank _ h => by have := h.suf; suf
  | .sep _ _ h => by have := h.suf; suf
  | .type ht h => h.suf.trans ht.suf
end

theorem KeyRest.suf {i r : List Lexeme} {s : Str} (h : KeyRest i s r) : r <:+ i := by
  induction h with
  | nil => suf
  | word w h ih => suf
  | dot d w h ih => suf

theorem MetaVal.suf {i r : List Lexeme} {s : Str} (h : MetaVal i s r) : r <:+ i := by
  cases h with
  | quoted h => exact h.suf
  | bare x c hq hc hr hv => exact List.suffix_append _ _

theorem MetaLine.suf {i r : List Lexeme} {m : Str × Str} (h : MetaLine i m r) : r <:+ i := by
  cases h with
  | mk p e w g1 g2 g3 h1 hk hv h2 h3 h =>
    have a := h.suf
    have b : r <:+ _ := List.IsSuffix.trans (by suf) hk.suf
    suf

theorem Metas.suf {i r : List Lexeme} {ms : List (Str × Str)} (h : Metas i ms r) : r <:+ i := by
  induction h with
  | stop => suf
  | noise hn h ih => exact ih.trans hn.suf
  | line hm h ih => exact ih.trans hm.suf

theorem ImportLines.suf {i r : List Lexeme} {ps : List Str} (h : ImportLines i ps r) : r <:+ i := by
  induction h with
  | stop => suf
  | noise hn h ih => exact ih.trans hn.suf
  | line m g hg hp h ih => have := ih.trans (Literal.suf hp); suf

theorem ImportMembers.suf {i r : List Lexeme} {ps : List Str} (h : ImportMembers i ps r) : r <:+ i := by
  induction h with
  | stop => suf
  | noise hn h ih => exact ih.trans hn.suf
  | line m g hg hp h ih => have := ih.trans (Literal.suf hp); suf

theorem MemberValue.suf {i r : List Lexeme} {v : Option Str} (h : MemberValue i v r) : r <:+ i := by
  cases h with
  | none => suf
  | some e g1 g2 h1 h2 hv => have := Literal.suf hv; suf

theorem EnumRows.suf {i r : List Lexeme} {ms : List FieldEntry} (h : EnumRows i ms r) : r <:+ i := by
  induction h with
  | stop => suf
  | noise hn h ih => exact ih.trans hn.suf
  | row m n doc g hg hv h ih => have := ih.trans hv.suf; suf

theorem Mark.suf {i r : List Lexeme} {o : Bool} (h : Mark i o r) : r <:+ i := by
  cases h with
  | yes => suf
  | no => suf

theorem FieldRows.suf {i r : List Lexeme} {fs : List FieldEntry} (h : FieldRows i fs r) : r <:+ i := by
  induction h with
  | stop => suf
  | noise hn h ih => exact ih.trans hn.suf
  | @row m n c doc g1 g2 i j k l r v o ms fs h1 ho h2 ht hm h ih =>
    have a : r <:+ j := (ih.trans hm.suf).trans ht.suf
    have b : r <:+ i := List.IsSuffix.trans (by suf) ho.suf
    suf

theorem Anns.suf {i r : List Lexeme} {as : List (Str × Option Str)} (h : Anns i as r) : r <:+ i := by
  induction h with
  | nil => suf
  | plain a n hc h ih => suf
  | word a n c w h ih => suf
  | text a n c hq h ih => have := (ih.trans (List.tail_suffix _)).trans hq.suf; suf
  | empty a n c hi h ih => have := ih.trans (List.tail_suffix _); suf

theorem ArgRows.suf {i r : List Lexeme} {as : List ArgEntry} (h : ArgRows i as r) : r <:+ i := by
  induction h with
  | close => suf
  | skip x hx h ih => suf
  | whole w c i => have := List.tail_suffix i; suf
  | @one n c g i j k r o v as ho hg ht h ih =>
    have a : r <:+ j := ih.trans ht.suf
    have b : r <:+ i := List.IsSuffix.trans (by suf) ho.suf
    suf

theorem Args.suf {i r : List Lexeme} {as : List ArgEntry} (h : Args i as r) : r <:+ i := by
  cases h with
  | plain p h => have := h.suf; suf
  | stream p g hg h => have := h.suf; suf

theorem Outputs.suf {i r : List Lexeme} {so : Bool} {as : List ArgEntry} (h : Outputs i so as r) : r <:+ i := by
  cases h with
  | none => suf
  | plain a g1 g2 h1 h2 hs h => have := h.suf; suf
  | stream a g1 g2 g3 h1 h2 h3 h => have := h.suf; suf

theorem MoreErrors.suf {i r : List Lexeme} {es : List Str} (h : MoreErrors i es r) : r <:+ i := by
  induction h with
  | nil => suf
  | cons b e g1 g2 h1 h2 h ih => suf

theorem Errs.suf {i r : List Lexeme} {es : List Str} (h : Errs i es r) : r <:+ i := by
  cases h with
  | none => suf
  | other w g i hg hw => suf
  | some e g1 g2 h1 h2 h => have := h.suf; suf

theorem MethodName.suf {i r : List Lexeme} {si : Bool} {n : Str} (h : MethodName i si n r) : r <:+ i := by
  cases h with
  | plain => suf
  | stream => suf

theorem MethodRow.suf {anns : List (Str × Option Str)} {i r : List Lexeme} {m : MethodEntry} (h : MethodRow anns i m r) : r <:+ i := by
  cases h with
  | proxy => suf
  | method m doc g hg hn hi ho he => have := (((he.suf.trans ho.suf).trans hi.suf).trans hn.suf); suf

theorem Methods.suf {anns : List (Str × Option Str)} {i r : List Lexeme} {ms : List MethodEntry} (h : Methods anns i ms r) : r <:+ i := by
  induction h with
  | stop => suf
  | noise hn h ih => exact ih.trans hn.suf
  | ann ha h ih => exact ih.trans ha.suf
  | row hm h ih => exact ih.trans hm.suf

theorem Message.suf {i r : List Lexeme} {v : Str} (h : Message i v r) : r <:+ i := by
  cases h with
  | word => suf
  | text h => exact h.suf

theorem Status.suf {i r : List Lexeme} {v : Option Str} (h : Status i v r) : r <:+ i := by
  cases h with
  | none => suf
  | some => suf

theorem Declares.suf {i r : List Lexeme} {d : List Entry} (h : Declares i d r) : r <:+ i := by
  cases h with
  | define key e doc g1 g2 hk h1 h2 hv he => have := he.suf.trans (Literal.suf hv); suf
  | imports he h => have := h.suf.trans he.suf; suf
  | import_ g hg hp h => have := h.suf.trans (Literal.suf hp); suf
  | error code name g1 g2 g3 hc h1 h2 h3 hm hs he => have := (he.suf.trans hs.suf).trans hm.suf; suf
  | enum name c type doc g1 g2 h1 h2 he h => have := h.suf.trans he.suf; suf
  | alias name c doc g1 g2 h1 h2 ht h => have := h.suf.trans ht.suf; suf
  | struct name doc g hg h => have := h.suf; suf
  | service doc g hg hn he h => have := (h.suf.trans he.suf).trans (Literal.suf hn); suf

/-- Every entry of a document stems from a declaration in it. -/
theorem Doc.mem {l : List Lexeme} {es : List Entry} (h : Doc l es) {e : Entry} (he : e ∈ es) :
    ∃ pre i d r, l = pre ++ i ∧ Declares i d r ∧ e ∈ d := by
  induction h with
  | nil => simp at he
  | noise hn h ih =>
    obtain ⟨pre, i, d, r, rfl, h1, h2⟩ := ih he
    obtain ⟨u, rfl⟩ := hn.suf
    exact ⟨u ++ pre, i, d, r, by simp, h1, h2⟩
  | decl hd h ih =>
    rcases List.mem_append.1 he with he | he
    · exact ⟨[], _, _, _, rfl, hd, he⟩
    · obtain ⟨pre, i, d, r, rfl, h1, h2⟩ := ih he
      obtain ⟨u, rfl⟩ := hd.suf
      exact ⟨u ++ pre, i, d, r, by simp, h1, h2⟩

/-- The methods of a service and where they are written. -/
theorem Methods.mem {anns : List (Str × Option Str)} {i r : List Lexeme} {ms : List MethodEntry} (h : Methods anns i ms r)
    {m : MethodEntry} (hm : m ∈ ms) : ∃ pre as j k, i = pre ++ j ∧ MethodRow as j m k := by
  induction h with
  | stop => simp at hm
  | noise hn h ih =>
    obtain ⟨pre, as, j, k, rfl, h1⟩ := ih hm
    obtain ⟨u, rfl⟩ := hn.suf
    exact ⟨u ++ pre, as, j, k, by simp, h1⟩
  | ann ha h ih =>
    obtain ⟨pre, as, j, k, rfl, h1⟩ := ih hm
    obtain ⟨u, rfl⟩ := ha.suf
    exact ⟨u ++ pre, as, j, k, by simp, h1⟩
  | row hr h ih =>
    rcases List.mem_cons.1 hm with rfl | hm
    · exact ⟨[], _, _, _, rfl, hr⟩
    · obtain ⟨pre, as, j, k, rfl, h1⟩ := ih hm
      obtain ⟨u, rfl⟩ := hr.suf
      exact ⟨u ++ pre, as, j, k, by simp, h1⟩

/-- The fields of a struct and where they are written. -/
theorem FieldRows.mem {i r : List Lexeme} {fs : List FieldEntry} (h : FieldRows i fs r) {f : FieldEntry} (hf : f ∈ fs) :
    ∃ pre m c g1 g2 j k t v, i = pre ++ (.minusSign, m) :: (g1 ++ (.word, f.name) :: j) ∧ Gap g1 ∧ Mark j f.optional ((.colon, c) :: (g2 ++ k)) ∧
      Gap g2 ∧ TypeE k v t ∧ f.value = some v := by
  induction h with
  | stop => simp at hf
  | noise hn h ih =>
    obtain ⟨pre, m, c, g1, g2, j, k, t, v, rfl, h1⟩ := ih hf
    obtain ⟨u, rfl⟩ := hn.suf
    exact ⟨u ++ pre, m, c, g1, g2, j, k, t, v, by simp, h1⟩
  | @row m n c doc g1 g2 i j k l r v o ms fs h1 ho h2 ht hm h ih =>
    rcases List.mem_cons.1 hf with rfl | hf
    · exact ⟨[], m, c, g1, g2, i, j, k, v, rfl, h1, ho, h2, ht, rfl⟩
    · obtain ⟨pre, m', c', g1', g2', j', k', t', v', rfl, hh⟩ := ih hf
      have a := hm.suf.trans ht.suf
      have b := List.IsSuffix.trans (List.IsSuffix.trans (List.IsSuffix.trans a (List.suffix_append g2 _)) (List.suffix_cons (.colon, c) _)) ho.suf
      obtain ⟨u, rfl⟩ := b
      exact ⟨(.minusSign, m) :: (g1 ++ (.word, n) :: u) ++ pre, m', c', g1', g2', j', k', t', v', by simp, hh⟩

end Verif.Spec.Grammar
