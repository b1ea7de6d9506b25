import Verif.Props.Parser
import Verif.Ridl.SimTokens

/-! # C98: documents separated by an empty line are parsed independently -/

namespace Verif.Props
open Verif.Ridl Verif.Spec
open Verif.Schema hiding Str

/-! ### Whole runs -/

theorem parseDoc_run {src : Str} {p : PS} (hp : newParser src = some p) {fuel : Nat} {r : ParseResult} (h : runN fuel .default p [] = r)
    (hr : r ≠ .outOfFuel) : parseDoc src = r := by
  simp only [parseDoc, hp]
  refine run_agree h hr fun ho => hr ?_
  have : parseDoc src = .outOfFuel := by simp only [parseDoc, hp]; exact ho
  have := parseDoc_hangs this fuel
  simp only [parseN, hp, h] at this
  exact this

theorem parseDoc_forever {src : Str} {p : PS} (hp : newParser src = some p) (h : ∀ fuel, runN fuel .default p [] = .outOfFuel) :
    parseDoc src = .outOfFuel := by
  simp only [parseDoc, hp]; exact h _

theorem newParser_run (src : Str) : ∃ ts, newParser src = some { tokens := ts, comments := (ts.foldl tokenizeStep {}).lineComments } ∧ RunOK src 0 (1, 1) ts := by
  obtain ⟨ts, h1, h2⟩ := tokenize_ok src
  exact ⟨ts, by simp [newParser, h1], h2⟩

theorem goes_forever {s s' : St} {p p' : PS} {ns ns' : List Node} (h : Goes s p ns s' p' ns') (hs : ∀ fuel, runN fuel s' p' ns' = .outOfFuel) (fuel : Nat) :
    runN fuel s p ns = .outOfFuel := by
  obtain ⟨k, hk⟩ := h
  refine Classical.byContradiction fun hne => ?_
  have := run_mono fuel k s p ns _ rfl hne
  rw [hk, hs] at this
  exact hne this.symm

theorem openT_le {l : List TT} {n : Nat} (h : OpenT l n) : n ≤ l.length := by
  induction h with
  | done _ => exact Nat.zero_le _
  | newline _ ih => simpa using ih
  | comment _ _ ih => simp; omega

/-! ### The two documents -/

/-- Everything known about two documents separated by an empty line. -/
structure Joint (a b : Str) where
  ta : List Token
  tb : List Token
  tb' : List Token
  n : Nat
  pa : newParser (closed a) = some { tokens := ta, comments := (ta.foldl tokenizeStep {}).lineComments }
  pb : newParser b = some { tokens := tb, comments := (tb.foldl tokenizeStep {}).lineComments }
  pab : newParser (closed a ++ b) = some { tokens := ta ++ tb', comments := ((ta ++ tb').foldl tokenizeStep {}).lineComments }
  closed : ClosedToks ((closed a).count '\n') ta
  lower : Pointwise (MovedBy ((Ridl.closed a).count '\n')) tb tb'
  lines : ∀ t ∈ tb, 1 ≤ t.line
  noEof : ∀ t ∈ tb, t.tt ≠ .eof
  first : ∃ t r, tb = t :: r ∧ (t.tt = .word ∨ t.tt = .hash)
  opens : OpenT (tb.map (·.tt)) n

theorem joint {a b : Str} (hn : '\x00' ∉ a) (hs : a.getLast? ≠ some '\\') (ho : Opening b) (hh : b.head? ≠ some '\n') (hb : b ≠ []) :
    Nonempty (Joint a b) := by
  obtain ⟨ta, h1, h2⟩ := newParser_run (closed a)
  obtain ⟨tb, h3, h4⟩ := newParser_run b
  obtain ⟨t, h5, h6⟩ := newParser_run (closed a ++ b)
  obtain ⟨tb', rfl, h7⟩ := joined_tokens hn h2 h4 h6
  obtain ⟨n, h8⟩ := opening_tokens ho (run_segments h4)
  refine ⟨⟨ta, tb, tb', n, h1, h3, h5, closed_tokens hn hs h2, h7, fun t ht => run_lines h4 ht, fun t ht => (run_val h4 ht).2, opening_first ho hh h4 hb, ?_⟩⟩
  rw [List.map_map] at h8
  exact h8

namespace Joint
variable {a b : Str} (j : Joint a b)

def d (_ : Joint a b) : Nat := (Ridl.closed a).count '\n'
def psA : PS := { tokens := j.ta, comments := (j.ta.foldl tokenizeStep {}).lineComments }
def psB : PS := { tokens := j.tb, comments := (j.tb.foldl tokenizeStep {}).lineComments }
def psAB : PS := { tokens := j.ta ++ j.tb', comments := ((j.ta ++ j.tb').foldl tokenizeStep {}).lineComments }

def ctx1 : Ctx := ⟨0, 0, j.ta.length, j.d, False, j.ta ++ j.tb', fun k => j.psAB.comments.get k⟩
def ctx2 : Ctx := ⟨j.d, j.ta.length, j.tb.length, 0, True, j.ta ++ j.tb', fun _ => none⟩

theorem rel1 : PRel j.ctx1 j.psA j.psAB := by
  obtain ⟨c1, c2, c3, c4, c5⟩ := joined_comments j.closed j.lower j.lines
  obtain ⟨x, n1, n2, e, t1, t2, -, -, hb⟩ := j.closed.split
  have hlen : j.ta.length = x.length + 2 := by rw [e]; simp
  exact
  { pos := rfl
    len := rfl
    len' := by show j.ta.length + 0 ≤ (j.ta ++ j.tb').length; simp
    toks := by
      intro i hi
      have hi : i < j.ta.length := hi
      refine ⟨j.ta[i], j.ta[i], List.getElem?_eq_getElem hi, ?_, ⟨⟨rfl, rfl, rfl, rfl⟩, ?_, fun _ => rfl⟩, j.closed.noEof _ (List.getElem_mem hi)⟩
      · show (j.ta ++ j.tb')[i + 0]? = _
        rw [Nat.add_zero, List.getElem?_append_left hi]
        exact List.getElem?_eq_getElem hi
      · have := j.closed.lines _ (List.getElem_mem hi)
        exact ⟨this.1, Or.inr this.2⟩
    ends := fun h => h.elim
    guard := by
      intro _
      refine ⟨by show 2 ≤ j.ta.length; omega, ?_, ?_, ?_⟩
      · intro i hi hN
        have hi : i < j.ta.length := hi
        have hN : j.ta.length ≤ i + 2 := hN
        have hcase : i = x.length ∨ i = x.length + 1 := by omega
        rcases hcase with rfl | rfl
        · exact ⟨n1, by show j.ta[_]? = _; rw [e]; simp, t1⟩
        · exact ⟨n2, by show j.ta[_]? = _; rw [e, List.getElem?_append_right (by omega)]; simp, t2⟩
      · obtain ⟨t, r, ht, hw⟩ := j.first
        have hl := j.lower
        rw [ht] at hl
        generalize htb : j.tb' = tb' at hl
        cases hl with
        | @cons _ t' _ r' h1 h2 =>
          refine ⟨t', ?_, by rw [h1.tt]; exact hw⟩
          show (j.ta ++ j.tb')[j.ta.length + 0]? = _
          rw [htb]
          simp
      · intro i t hi ht
        have hi : i + 3 = j.ta.length := hi
        have ht : j.ta[i]? = some t := ht
        refine hb t ?_
        rw [e, List.getElem?_append_left (by omega)] at ht
        rw [List.getLast?_eq_getElem?, show x.length - 1 = i by omega]
        exact ht
    comm := by
      intro k hk
      have hk : k ≤ j.d := hk.resolve_left id
      exact c1 k hk
    zero := c4
    blank := fun _ => c3
    rest := fun _ k _ => rfl
    whole := rfl
    le := Nat.zero_le _ }

/-- Before the first declaration of the second document. -/
theorem rel2 {p1 q1 : PS} (h : PRel j.ctx1 p1 q1) (hp : p1.pos = j.ctx1.N) : PRel j.ctx2 (j.psB.skip j.n) (q1.skip j.n) := by
  obtain ⟨c1, c2, c3, c4, c5⟩ := joined_comments j.closed j.lower j.lines
  have hw : q1.tokens = j.ta ++ j.tb' := h.whole
  have hl : j.tb'.length = j.tb.length := j.lower.length.symm
  have hq : q1.pos = j.ta.length := by rw [h.pos, hp]; rfl
  have hnle := openT_le j.opens
  rw [List.length_map] at hnle
  exact
  { pos := by show q1.pos + j.n = 0 + j.n + j.ta.length; omega
    len := rfl
    len' := by show j.tb.length + j.ta.length ≤ q1.tokens.length; rw [hw]; simp; omega
    toks := by
      intro i hi
      have hi : i < j.tb.length := hi
      have hlow : ∀ (u : List Token) (v : List Token) (i : Nat) (hi : i < u.length), Pointwise (MovedBy j.d) u v → ∃ t', v[i]? = some t' ∧ MovedBy j.d u[i] t' := by
        intro u v i hi hp
        induction hp generalizing i with
        | nil => cases hi
        | cons h1 _ ih => cases i with
          | zero => exact ⟨_, rfl, h1⟩
          | succ i => exact ih i (by simpa using hi)
      obtain ⟨t', h1, h2⟩ := hlow j.tb j.tb' i hi j.lower
      refine ⟨j.tb[i], t', List.getElem?_eq_getElem hi, ?_, ⟨h2, ⟨j.lines _ (List.getElem_mem hi), Or.inl trivial⟩, fun hc => absurd trivial hc⟩, j.noEof _ (List.getElem_mem hi)⟩
      show q1.tokens[i + j.ta.length]? = _
      rw [hw, List.getElem?_append_right (by omega), Nat.add_sub_cancel]
      exact h1
    ends := by intro _; show q1.tokens.length = j.tb.length + j.ta.length; rw [hw]; simp; omega
    guard := fun hc => absurd trivial hc
    comm := by
      intro k _
      show q1.comments.get (k + j.d) = j.psB.comments.get k
      cases k with
      | zero =>
        have := h.comm j.d (Or.inr (Nat.le_refl _))
        rw [Nat.zero_add]
        refine Eq.trans this ?_
        rw [show p1.comments.get j.d = none from h.blank id]
        exact c5.symm
      | succ k =>
        have := h.rest id (k + 1 + j.d) (by show j.d < k + 1 + j.d; omega)
        refine Eq.trans this ?_
        exact c2 (k + 1)
    zero := c5
    blank := fun hc => absurd trivial hc
    rest := fun hc => absurd trivial hc
    whole := hw
    le := by show 0 + j.n ≤ j.tb.length; omega }

theorem goesB : Goes .default j.psB [] .default (j.psB.skip j.n) [] := by
  refine skip_default [] j.n j.n (Nat.le_refl _) j.psB ?_
  exact j.opens

/-- When the first document is well-formed, the parser gets from its beginning to the first declaration of the second. -/
theorem goesAB {ns : List Node} (h : parseDoc (Ridl.closed a) = .ok ns) : ∃ p1 q1, PRel j.ctx1 p1 q1 ∧ p1.pos = j.ctx1.N ∧
    Goes .default j.psAB [] .default (q1.skip j.n) ns := by
  have h1 := first_run (c := j.ctx1) id rfl (bound j.psA) .default .default j.psA j.psAB [] .default j.rel1 (Or.inr trivial)
  have h2 : runN (bound j.psA) .default j.psA [] = .ok ns := by
    simp only [parseDoc, j.pa] at h; exact h
  rw [h2] at h1
  obtain ⟨s1, p1, q1, ns1, g1, g2, g3, g4, g5⟩ := h1
  refine ⟨p1, q1, g2, g4, ?_⟩
  have hw : q1.tokens = j.ta ++ j.tb' := g2.whole
  have hq : q1.pos = j.ta.length := by rw [g2.pos, g4]; rfl
  have hah : q1.ahead = j.tb.map (·.tt) := by
    unfold PS.ahead
    rw [hw, hq, List.drop_left]
    exact (j.lower.map_eq (fun x y h => h.tt.symm)).symm
  rw [g5]
  exact g1.trans (through g3 (by rw [hah]; exact j.opens) ns1)

end Joint

section Weaken
variable {T T' : Token → Token → Prop} (h : ∀ a b, T a b → T' a b)
include h

theorem both_mono {a b : Option Token} (k : Both T a b) : Both T' a b := by
  cases k with
  | none => exact .none
  | some k => exact .some (h _ _ k)

theorem pairs_mono {a b : List (Token × Token)} (k : Pointwise (PairRel T) a b) : Pointwise (PairRel T') a b :=
  k.imp fun _ _ k => ⟨h _ _ k.1, h _ _ k.2⟩

theorem def_mono {a b : DefNode} (k : DefRel T a b) : DefRel T' a b :=
  ⟨h _ _ k.left, both_mono h k.right, k.optional, pairs_mono h k.metas, k.comment⟩

theorem arg_mono {a b : ArgNode} (k : ArgRel T a b) : ArgRel T' a b :=
  ⟨both_mono h k.name, both_mono h k.argType, k.optional, both_mono h k.inlineStruct⟩

theorem ann_mono {a b : AnnNode} (k : AnnRel T a b) : AnnRel T' a b := ⟨h _ _ k.annType, both_mono h k.value⟩

theorem method_mono {a b : MethodNode} (k : MethodRel T a b) : MethodRel T' a b :=
  ⟨h _ _ k.name, k.proxy, k.comment, k.annotations.imp fun _ _ => ann_mono h, k.streamInput, k.inputs.imp fun _ _ => arg_mono h, k.streamOutput,
    k.outputs.imp fun _ _ => arg_mono h, k.errors.imp h⟩

theorem node_mono {d : Nat} {a b : Node} (k : NodeRel T d a b) : NodeRel T' d a b := by
  cases k with
  | defn k => exact .defn (def_mono h k)
  | import_ k => exact .import_ ⟨h _ _ k.path, k.members.imp h⟩
  | enum k => exact .enum ⟨h _ _ k.name, h _ _ k.enumType, k.values.imp fun _ _ => def_mono h, k.comment, k.line⟩
  | struct k => exact .struct ⟨h _ _ k.name, k.fields.imp fun _ _ => def_mono h, k.comment, k.line⟩
  | error k => exact .error ⟨h _ _ k.code, h _ _ k.name, both_mono h k.message, both_mono h k.httpStatus⟩
  | alias k => exact .alias ⟨h _ _ k.name, h _ _ k.aliasType, pairs_mono h k.metas, k.comment, k.line⟩
  | service k => exact .service ⟨h _ _ k.name, k.methods.imp fun _ _ => method_mono h, k.methodAnnotations.imp fun _ _ => ann_mono h, k.comment⟩

end Weaken

/-! ### The theorems -/

/-- C98: a document that consists of two well-formed ones, separated by an empty line, has the declarations of the first, then those
of the second, with the same texts, comments and columns, as many lines further down as the first has. -/
theorem C98_both (a b : Str) (hn : '\x00' ∉ a) (hs : a.getLast? ≠ some '\\') (ho : Opening b) (hh : b.head? ≠ some '\n') (ns ms : List Node)
    (ha : parseDoc (a ++ ['\n', '\n']) = .ok ns) (hb : parseDoc b = .ok ms) :
    ∃ ms', parseDoc (a ++ ['\n', '\n'] ++ b) = .ok (ns ++ ms') ∧ LowerBy ((a ++ ['\n', '\n']).count '\n') ms ms' := by
  by_cases hbn : b = []
  · subst hbn
    have : parseDoc [] = .ok [] := by decide +kernel
    rw [this] at hb
    cases hb
    exact ⟨[], by rw [List.append_nil, List.append_nil]; exact ha, .nil⟩
  obtain ⟨j⟩ := joint hn hs ho hh hbn
  obtain ⟨p1, q1, h1, h2, h3⟩ := j.goesAB ha
  have h4 := j.rel2 h1 h2
  have hB : runN (bound j.psB) .default j.psB [] = .ok ms := by simp only [parseDoc, j.pb] at hb; exact hb
  obtain ⟨k, hk⟩ := j.goesB
  have hB2 := run_mono _ k .default j.psB [] _ hB nofun
  rw [hk] at hB2
  have h5 := second_run (c := j.ctx2) trivial (bound j.psB) .default .default _ _ [] ns .default h4
  rw [hB2] at h5
  obtain ⟨em, em', e1, e2, e3⟩ := h5
  obtain ⟨k', hk'⟩ := h3
  have h6 := hk' (bound j.psB)
  rw [e2] at h6
  refine ⟨em', parseDoc_run j.pab h6 nofun, ?_⟩
  rw [e1, List.nil_append]
  exact e3.imp fun x y h => node_mono (fun _ _ k => k.toMovedBy) h

/-- C98: when the first document has a syntax error, that is what is reported, at the same place. -/
theorem C98_first_error (a b : Str) (hn : '\x00' ∉ a) (hs : a.getLast? ≠ some '\\') (ho : Opening b) (hh : b.head? ≠ some '\n') (line col : Nat)
    (near : Str) (e : PErr) (ha : parseDoc (a ++ ['\n', '\n']) = .err line col near e) : parseDoc (a ++ ['\n', '\n'] ++ b) = .err line col near e := by
  by_cases hbn : b = []
  · subst hbn; rw [List.append_nil]; exact ha
  obtain ⟨j⟩ := joint hn hs ho hh hbn
  have h1 := first_run (c := j.ctx1) id rfl (bound j.psA) .default .default j.psA j.psAB [] .default j.rel1 (Or.inr trivial)
  have h2 : runN (bound j.psA) .default j.psA [] = .err line col near e := by
    simp only [parseDoc, show newParser (a ++ ['\n', '\n']) = _ from j.pa] at ha; exact ha
  rw [h2] at h1
  obtain ⟨fuel, hf⟩ := h1
  exact parseDoc_run j.pab hf nofun

/-- C98: when the first document is well-formed, an error in the second is reported with the same message, in the same column, and
moved down with the text, unless it is at the end of the text, which is always reported as `0:0`. -/
theorem C98_second_error (a b : Str) (hn : '\x00' ∉ a) (hs : a.getLast? ≠ some '\\') (ho : Opening b) (hh : b.head? ≠ some '\n') (ns : List Node)
    (line col : Nat) (near : Str) (e : PErr) (ha : parseDoc (a ++ ['\n', '\n']) = .ok ns) (hb : parseDoc b = .err line col near e) :
    ∃ e', parseDoc (a ++ ['\n', '\n'] ++ b) = .err (movedLine ((a ++ ['\n', '\n']).count '\n') line) col near e' ∧ SameError e e' := by
  by_cases hbn : b = []
  · subst hbn
    have : parseDoc [] = .ok [] := by decide +kernel
    rw [this] at hb
    cases hb
  obtain ⟨j⟩ := joint hn hs ho hh hbn
  obtain ⟨p1, q1, h1, h2, h3⟩ := j.goesAB ha
  have h4 := j.rel2 h1 h2
  have hB : runN (bound j.psB) .default j.psB [] = .err line col near e := by simp only [parseDoc, j.pb] at hb; exact hb
  obtain ⟨k, hk⟩ := j.goesB
  have hB2 := run_mono _ k .default j.psB [] _ hB nofun
  rw [hk] at hB2
  have h5 := second_run (c := j.ctx2) trivial (bound j.psB) .default .default _ _ [] ns .default h4
  rw [hB2] at h5
  obtain ⟨e', e2, e3⟩ := h5
  obtain ⟨k', hk'⟩ := h3
  have h6 := hk' (bound j.psB)
  rw [e2] at h6
  exact ⟨e', parseDoc_run j.pab h6 nofun, e3⟩

/-- C98: when the parser does not finish on one of them, it does not finish on both. -/
theorem C98_endless (a b : Str) (hn : '\x00' ∉ a) (hs : a.getLast? ≠ some '\\') (ho : Opening b) (hh : b.head? ≠ some '\n')
    (h : parseDoc (a ++ ['\n', '\n']) = .outOfFuel ∨ (∃ ns, parseDoc (a ++ ['\n', '\n']) = .ok ns) ∧ parseDoc b = .outOfFuel) (fuel : Nat) :
    parseN fuel (a ++ ['\n', '\n'] ++ b) = .outOfFuel := by
  refine parseDoc_hangs ?_ fuel
  by_cases hbn : b = []
  · subst hbn
    rcases h with h | ⟨-, h⟩
    · rw [List.append_nil]; exact h
    · have : parseDoc [] = .ok [] := by decide +kernel
      rw [this] at h; cases h
  obtain ⟨j⟩ := joint hn hs ho hh hbn
  refine parseDoc_forever j.pab ?_
  rcases h with ha | ⟨⟨ns, ha⟩, hb⟩
  · have hA : runN (bound j.psA) .default j.psA [] = .outOfFuel := by
      simp only [parseDoc, show newParser (a ++ ['\n', '\n']) = _ from j.pa] at ha; exact ha
    rcases run_cases (bound j.psA) .default j.psA [] (by simp [PS.Valid, Joint.psA]) trivial with ⟨l, hl⟩ | ⟨e, q, hl, _⟩ | ⟨-, hc⟩
    · rw [hl] at hA; cases hA
    · rw [hl] at hA; cases hA
    · obtain ⟨n, q, hr, hq⟩ := hc (by simp [rank, bound])
      obtain ⟨n', q', hr', hq'⟩ := hang_rel (c := j.ctx1) .default j.rel1 (Or.inr trivial) trivial hr hq
      exact stuck_forever hr' hq' []
  · obtain ⟨p1, q1, h1, h2, h3⟩ := j.goesAB ha
    have h4 := j.rel2 h1 h2
    refine goes_forever h3 ?_
    have hB : ∀ f, runN f .default j.psB [] = .outOfFuel := by
      intro f
      have := parseDoc_hangs hb f
      simp only [parseN, j.pb] at this
      exact this
    obtain ⟨k, hk⟩ := j.goesB
    have hB2 : runN (bound (j.psB.skip j.n)) .default (j.psB.skip j.n) [] = .outOfFuel := by rw [← hk]; exact hB _
    have hv : (j.psB.skip j.n).Valid := by
      unfold PS.Valid
      have := h4.le
      exact this
    rcases run_cases (bound (j.psB.skip j.n)) .default (j.psB.skip j.n) [] hv trivial with ⟨l, hl⟩ | ⟨e, q, hl, _⟩ | ⟨-, hc⟩
    · rw [hl] at hB2; cases hB2
    · rw [hl] at hB2; cases hB2
    · obtain ⟨n, q, hr, hq⟩ := hc (by simp [rank, bound])
      obtain ⟨n', q', hr', hq'⟩ := hang_rel (c := j.ctx2) .default h4 (Or.inr trivial) trivial hr hq
      exact stuck_forever hr' hq' ns

/-- C98: two well-formed documents may be written in either order: only the order of the declarations and their lines change. -/
theorem C98_swap (a b : Str) (hna : '\x00' ∉ a) (hnb : '\x00' ∉ b) (hsa : a.getLast? ≠ some '\\') (hsb : b.getLast? ≠ some '\\')
    (hoa : Opening (a ++ ['\n', '\n'])) (hob : Opening (b ++ ['\n', '\n'])) (hha : a.head?.getD '\n' ≠ '\n') (hhb : b.head?.getD '\n' ≠ '\n') (ns ms : List Node)
    (ha : parseDoc (a ++ ['\n', '\n']) = .ok ns) (hb : parseDoc (b ++ ['\n', '\n']) = .ok ms) :
    ∃ ns' ms', parseDoc (a ++ ['\n', '\n'] ++ (b ++ ['\n', '\n'])) = .ok (ns ++ ms') ∧ parseDoc (b ++ ['\n', '\n'] ++ (a ++ ['\n', '\n'])) = .ok (ms ++ ns') ∧
      LowerBy ((a ++ ['\n', '\n']).count '\n') ms ms' ∧ LowerBy ((b ++ ['\n', '\n']).count '\n') ns ns' := by
  have hd : ∀ x : Str, x.head?.getD '\n' ≠ '\n' → (x ++ ['\n', '\n']).head? ≠ some '\n' := by
    intro x hx
    cases x with
    | nil => exact absurd rfl hx
    | cons c r => exact fun h => hx (by simpa using h)
  obtain ⟨ms', h1, h2⟩ := C98_both a _ hna hsa hob (hd b hhb) ns ms ha hb
  obtain ⟨ns', h3, h4⟩ := C98_both b _ hnb hsb hoa (hd a hha) ms ns hb ha
  exact ⟨ns', ms', h1, h3, h2, h4⟩

theorem lower_trans {d e : Nat} {x y z : Token} (h : MovedBy d x y) (k : MovedBy e y z) : MovedBy (e + d) x z :=
  ⟨k.tt.trans h.tt, k.val.trans h.val, by rw [k.line, h.line]; omega, k.col.trans h.col⟩

section Trans
variable {T U V : Token → Token → Prop} (h : ∀ a b c, T a b → U b c → V a c)
include h

theorem both_trans {a b c : Option Token} (k : Both T a b) (l : Both U b c) : Both V a c := by
  cases k with
  | none => cases l; exact .none
  | some k => cases l with | some l => exact .some (h _ _ _ k l)

omit h in
theorem pointwise_trans {α : Type} {R S W : α → α → Prop} (h : ∀ a b c, R a b → S b c → W a c) {a b c : List α} (k : Pointwise R a b) (l : Pointwise S b c) :
    Pointwise W a c := by
  induction k generalizing c with
  | nil => cases l; exact .nil
  | cons k1 _ ih => cases l with | cons l1 l2 => exact .cons (h _ _ _ k1 l1) (ih l2)

theorem pairs_trans {a b c : List (Token × Token)} (k : Pointwise (PairRel T) a b) (l : Pointwise (PairRel U) b c) : Pointwise (PairRel V) a c :=
  pointwise_trans (fun _ _ _ k l => ⟨h _ _ _ k.1 l.1, h _ _ _ k.2 l.2⟩) k l

theorem def_trans {a b c : DefNode} (k : DefRel T a b) (l : DefRel U b c) : DefRel V a c :=
  ⟨h _ _ _ k.left l.left, both_trans h k.right l.right, l.optional.trans k.optional, pairs_trans h k.metas l.metas, l.comment.trans k.comment⟩

theorem arg_trans {a b c : ArgNode} (k : ArgRel T a b) (l : ArgRel U b c) : ArgRel V a c :=
  ⟨both_trans h k.name l.name, both_trans h k.argType l.argType, l.optional.trans k.optional, both_trans h k.inlineStruct l.inlineStruct⟩

theorem ann_trans {a b c : AnnNode} (k : AnnRel T a b) (l : AnnRel U b c) : AnnRel V a c := ⟨h _ _ _ k.annType l.annType, both_trans h k.value l.value⟩

theorem method_trans {a b c : MethodNode} (k : MethodRel T a b) (l : MethodRel U b c) : MethodRel V a c :=
  ⟨h _ _ _ k.name l.name, l.proxy.trans k.proxy, l.comment.trans k.comment, pointwise_trans (R := AnnRel T) (S := AnnRel U) (W := AnnRel V) (fun _ _ _ => ann_trans h) k.annotations l.annotations,
    l.streamInput.trans k.streamInput, pointwise_trans (R := ArgRel T) (S := ArgRel U) (W := ArgRel V) (fun _ _ _ => arg_trans h) k.inputs l.inputs, l.streamOutput.trans k.streamOutput,
    pointwise_trans (R := ArgRel T) (S := ArgRel U) (W := ArgRel V) (fun _ _ _ => arg_trans h) k.outputs l.outputs, pointwise_trans h k.errors l.errors⟩

theorem node_trans {d e : Nat} {a b c : Node} (k : NodeRel T d a b) (l : NodeRel U e b c) : NodeRel V (e + d) a c := by
  cases k with
  | defn k => cases l with | defn l => exact .defn (def_trans h k l)
  | import_ k => cases l with | import_ l => exact .import_ ⟨h _ _ _ k.path l.path, pointwise_trans h k.members l.members⟩
  | enum k => cases l with
    | enum l => exact .enum ⟨h _ _ _ k.name l.name, h _ _ _ k.enumType l.enumType, pointwise_trans (R := DefRel T) (S := DefRel U) (W := DefRel V) (fun _ _ _ => def_trans h) k.values l.values, l.comment.trans k.comment,
        by rw [l.line, k.line]; omega⟩
  | struct k => cases l with
    | struct l => exact .struct ⟨h _ _ _ k.name l.name, pointwise_trans (R := DefRel T) (S := DefRel U) (W := DefRel V) (fun _ _ _ => def_trans h) k.fields l.fields, l.comment.trans k.comment, by rw [l.line, k.line]; omega⟩
  | error k => cases l with
    | error l => exact .error ⟨h _ _ _ k.code l.code, h _ _ _ k.name l.name, both_trans h k.message l.message, both_trans h k.httpStatus l.httpStatus⟩
  | alias k => cases l with
    | alias l => exact .alias ⟨h _ _ _ k.name l.name, h _ _ _ k.aliasType l.aliasType, pairs_trans h k.metas l.metas, l.comment.trans k.comment, by rw [l.line, k.line]; omega⟩
  | service k => cases l with
    | service l => exact .service ⟨h _ _ _ k.name l.name, pointwise_trans (R := MethodRel T) (S := MethodRel U) (W := MethodRel V) (fun _ _ _ => method_trans h) k.methods l.methods,
        pointwise_trans (R := AnnRel T) (S := AnnRel U) (W := AnnRel V) (fun _ _ _ => ann_trans h) k.methodAnnotations l.methodAnnotations, l.comment.trans k.comment⟩

end Trans

theorem pointwise_same {α : Type} {R : α → α → Prop} (h : ∀ a, R a a) : ∀ l : List α, Pointwise R l l
  | [] => .nil
  | a :: l => .cons (h a) (pointwise_same h l)

section Refl
variable {T : Token → Token → Prop} (h : ∀ a, T a a)
include h

theorem both_self (a : Option Token) : Both T a a := by
  cases a with
  | none => exact .none
  | some a => exact .some (h a)

theorem def_self (a : DefNode) : DefRel T a a := ⟨h _, both_self h _, rfl, pointwise_same (fun _ => ⟨h _, h _⟩) _, rfl⟩
theorem arg_self (a : ArgNode) : ArgRel T a a := ⟨both_self h _, both_self h _, rfl, both_self h _⟩
theorem ann_self (a : AnnNode) : AnnRel T a a := ⟨h _, both_self h _⟩
theorem method_self (a : MethodNode) : MethodRel T a a :=
  ⟨h _, rfl, rfl, pointwise_same (ann_self h) _, rfl, pointwise_same (arg_self h) _, rfl, pointwise_same (arg_self h) _, pointwise_same h _⟩

theorem node_self (a : Node) : NodeRel T 0 a a := by
  cases a with
  | defn n => exact .defn (def_self h n)
  | import_ n => exact .import_ ⟨h _, pointwise_same h _⟩
  | enum n => exact .enum ⟨h _, h _, pointwise_same (def_self h) _, rfl, rfl⟩
  | struct n => exact .struct ⟨h _, pointwise_same (def_self h) _, rfl, rfl⟩
  | error n => exact .error ⟨h _, h _, both_self h _, both_self h _⟩
  | alias n => exact .alias ⟨h _, h _, pointwise_same (fun _ => ⟨h _, h _⟩) _, rfl, rfl⟩
  | service n => exact .service ⟨h _, pointwise_same (method_self h) _, pointwise_same (ann_self h) _, rfl⟩

end Refl

theorem lowerBy_trans {d e : Nat} {x y z : List Node} (h : LowerBy d x y) (k : LowerBy e y z) : LowerBy (e + d) x z :=
  pointwise_trans (R := NodeRel (MovedBy d) d) (S := NodeRel (MovedBy e) e) (W := NodeRel (MovedBy (e + d)) (e + d))
    (fun _ _ _ h k => node_trans (T := MovedBy d) (U := MovedBy e) (V := MovedBy (e + d)) (fun _ _ _ => lower_trans) h k) h k

theorem lowerBy_append {d : Nat} {x x' y : List Node} (h : LowerBy d (x ++ x') y) : ∃ u v, y = u ++ v ∧ LowerBy d x u ∧ LowerBy d x' v := by
  induction x generalizing y with
  | nil => exact ⟨[], y, rfl, .nil, h⟩
  | cons n x ih =>
    generalize hl : n :: x ++ x' = l at h
    cases h with
    | nil => cases hl
    | @cons _ m _ r h1 h2 =>
      injection hl with e1 e2
      subst e1; subst e2
      obtain ⟨u, v, rfl, g1, g2⟩ := ih h2
      exact ⟨m :: u, v, rfl, .cons h1 g1, g2⟩

theorem stacked_lower {d e : Nat} {l : List (Str × List Node)} {ms ms' : List Node} (h : Stacked d l ms) (k : LowerBy e ms ms') : Stacked (e + d) l ms' := by
  induction h generalizing ms' with
  | nil => cases k; exact .nil
  | @cons d b ns ns' ms r h1 _ ih =>
    obtain ⟨u, v, rfl, g1, g2⟩ := lowerBy_append k
    refine .cons (lowerBy_trans h1 g1) ?_
    rw [Nat.add_assoc]
    exact ih g2

/-- C98: a document made of any number of well-formed ones, each followed by an empty line, has exactly their declarations, in order. -/
theorem C98_blocks (bs : List (Str × List Node))
    (h : ∀ x ∈ bs, '\x00' ∉ x.1 ∧ x.1.getLast? ≠ some '\\' ∧ (∃ c r, x.1 = c :: r ∧ WordStart c) ∧ parseDoc (x.1 ++ ['\n', '\n']) = .ok x.2) :
    ∃ ms, parseDoc (blocks (bs.map (·.1))) = .ok ms ∧ Stacked 0 bs ms := by
  induction bs with
  | nil => exact ⟨[], by decide +kernel, .nil⟩
  | cons x bs ih =>
    obtain ⟨ms, h1, h2⟩ := ih fun y hy => h y (List.mem_cons_of_mem _ hy)
    obtain ⟨g1, g2, -, g4⟩ := h x (List.mem_cons_self ..)
    have hopen : Opening (blocks (bs.map (·.1))) ∧ (blocks (bs.map (·.1))).head? ≠ some '\n' := by
      cases bs with
      | nil => exact ⟨.nothing, nofun⟩
      | cons y bs =>
        obtain ⟨-, -, ⟨c, r, e, hc⟩, -⟩ := h y (by simp)
        have : blocks ((y :: bs).map (·.1)) = c :: (r ++ ['\n', '\n'] ++ blocks (bs.map (·.1))) := by
          unfold blocks; rw [List.map_cons, List.flatMap_cons, e]; simp
        rw [this]
        exact ⟨.word hc, fun hh => hc.ne_nl (by simpa using hh)⟩
    obtain ⟨ms', k1, k2⟩ := C98_both x.1 (blocks (bs.map (·.1))) g1 g2 hopen.1 hopen.2 x.2 ms g4 h1
    refine ⟨x.2 ++ ms', ?_, ?_⟩
    · rw [List.map_cons]
      show parseDoc (x.1 ++ ['\n', '\n'] ++ blocks (bs.map (·.1))) = _
      exact k1
    · refine .cons (pointwise_same (node_self fun _ => ⟨rfl, rfl, rfl, rfl⟩) _) ?_
      have := stacked_lower h2 k2
      rw [Nat.add_comm] at this
      exact this

/-- The number of declarations of a well-formed document. -/
def okCount : ParseResult → Option Nat
  | .ok ns => some ns.length
  | _ => none

/-- The place and the text a syntax error is reported at. -/
def errAt : ParseResult → Option (Nat × Nat × Str)
  | .err l c near _ => some (l, c, near)
  | _ => none

/-- The hypotheses are met: a struct with a comment, then a service with a doc comment. -/
example : okCount (parseDoc ("struct A # note\n  - b: string".toList ++ ['\n', '\n'])) = some 1 ∧
    okCount (parseDoc "# doc\n\n# the service\nservice S\n  - M(a: A)\n".toList) = some 1 ∧
    Opening "# doc\n\n# the service\nservice S\n  - M(a: A)\n".toList := by
  refine ⟨by decide +kernel, by decide +kernel, ?_⟩
  exact .comment (row := " doc".toList) (by decide) (by decide) (.blank (.comment (row := " the service".toList) (by decide) (by decide) (.word (by unfold WordStart; decide))))

/-- The hypotheses of the error theorem are met. -/
example : okCount (parseDoc ("webrpc = v1".toList ++ ['\n', '\n'])) = some 1 ∧ errAt (parseDoc "struct A\n  b\n".toList) = some (2, 3, ['b']) ∧
    errAt (parseDoc "webrpc = v1\n\nstruct A\n  b\n".toList) = some (4, 3, ['b']) ∧ Opening "struct A\n  b\n".toList :=
  ⟨by decide +kernel, by decide +kernel, by decide +kernel, .word (by unfold WordStart; decide)⟩

/-- The hypothesis of `C98_endless` is met. -/
example : parseDoc ("service A\n  @ - M()".toList ++ ['\n', '\n']) = .outOfFuel := by decide +kernel

/-- How many declarations, and the comment of the last struct among them. -/
def lastStruct : ParseResult → Option (Nat × Str)
  | .ok ns => match ns.getLast? with
    | some (.struct n) => some (ns.length, n.comment)
    | _ => none
  | _ => none

/-- C98: the empty line is needed: a comment that ends the first document becomes the documentation of the declaration on the next line. -/
theorem C98_empty_line_needed :
    lastStruct (parseDoc "struct A\n# note\n".toList) = some (1, []) ∧ lastStruct (parseDoc "struct B\n".toList) = some (1, []) ∧
    lastStruct (parseDoc "struct A\n# note\nstruct B\n".toList) = some (2, "note".toList) ∧
    lastStruct (parseDoc "struct A\n# note\n\nstruct B\n".toList) = some (2, []) := by decide +kernel

/-- C98: a second document that does not start with a declaration or a comment can continue the first. -/
theorem C98_opening_needed :
    errAt (parseDoc " - b: string\n".toList) = some (1, 2, ['-']) ∧ okCount (parseDoc "struct A\n\n - b: string\n".toList) = some 1 := by decide +kernel

/-- C98: a syntax error at the end of the text is reported at line 0, column 0, wherever the text ends. -/
theorem C98_end_of_text :
    errAt (parseDoc "error 1 A".toList) = some (0, 0, []) ∧ errAt (parseDoc "struct A\n\nerror 1 A".toList) = some (0, 0, []) ∧
    errAt (parseDoc "error 1 A\n".toList) = some (1, 10, ['\n']) := by decide +kernel

end Verif.Props
