import Verif.Ridl.ExecAnns
/-! # Running the parser over methods and services -/

namespace Verif.Ridl
open Verif.Spec

def sigRow (m : MethodDecl) : Str := "  - ".toList ++ m.signatureText

theorem method_rows (m : MethodDecl) : m.rows = docRows "  " m.doc ++ m.anns.map annRow ++ [sigRow m] := rfl

theorem sig_row {m : MethodDecl} (hm : m.Ok) : Piece (sigRow m) ((.whitespace, [' ', ' ']) :: (.minusSign, ['-']) :: (.whitespace, [' ']) :: sigToks m) ['\n'] :=
  piece_minus (piece_sig hm.2.2.2.1 hm.2.2.2.2.2.2) (sig_solid hm.2.2.2.1 _)

theorem sig_indented {m : MethodDecl} (hm : m.Ok) (rest : List Str) (l : Nat) : Indented (layout l (sigRow m :: rest)) := by
  rw [layout_cons, (piece_row (sig_row hm)).1]
  exact ⟨_, _, _, rfl⟩

theorem method_quiet {m : MethodDecl} (hm : m.Ok) (l : Nat) (rest : List Str) : Quiet (layout l (m.rows ++ rest)) := by
  rw [method_rows, List.append_assoc, List.append_assoc]
  refine quiet_docs hm.1 fun l => ?_
  cases h : m.anns with
  | nil => exact quiet_row (piece_row (sig_row hm)).1 (.inl rfl)
  | cons a anns =>
    have := hm.2.1 a (by rw [h]; simp)
    obtain ⟨t, h1, h2⟩ := ann_row this.1 this.2
    obtain ⟨u, rfl⟩ := annsToks_at h1
    exact quiet_row (piece_row h2).1 (.inr (.inr (.inl rfl)))

theorem noDup {as : List AnnNode} (h : (as.map (·.annType.val)).Nodup) : hasDupAnnotation as = false := by
  induction as with
  | nil => rfl
  | cons a r ih =>
    have h' := List.nodup_cons.1 h
    unfold hasDupAnnotation
    rw [ih h'.2, Bool.or_false, List.any_eq_false]
    intro b hb he
    exact h'.1 (List.mem_map.2 ⟨b, hb, by simpa using he⟩)

/-- What a signature says. -/
def sigSaid (m : MethodDecl) (mn : MethodNode) : Prop :=
  mn.name.val = m.name ∧ mn.proxy = m.entry.proxy ∧ mn.streamInput = m.entry.streamIn ∧ mn.inputs.map ArgNode.entry = m.entry.inputs ∧
  mn.streamOutput = m.entry.streamOut ∧ mn.outputs.map ArgNode.entry = m.entry.outputs ∧ mn.errors.map Token.val = m.entry.errors

theorem ex_nth_end {vs' : List Token} {vs : List Shape} {i : Nat} {tt : TT} {v : Str} {l : Nat} {es : List Shape}
    {cm : Comments} {Q : Token → List Shape → Comments → Prop} (hv : vs'.map Token.shape = vs) (hi : vs[i]? = some (tt, v, l))
    (h : ∀ p c, Q ⟨tt, v, p, l, c⟩ es cm) : Ex (nth vs' i) es cm Q := by
  have := ex_nth (f := fun t => (pure t : P Token)) (es := es) (cm := cm) (Q := Q) hv hi (fun p c => ex_pure (h p c))
  intro d ts hts
  obtain ⟨a, d', ts', cm', h1, h2⟩ := this d ts hts
  refine ⟨a, d', ts', cm', ?_, h2⟩
  rw [← h1]
  show _ = P.bind _ _ _
  unfold P.bind
  split <;> simp_all [pure, P.pure]

theorem ex_prefixed {t0 : Token} {name : Str} {k : Nat} {es : List Shape} {cm : Comments} :
    Ex (prefixedName true t0) ((.whitespace, [' '], k) :: (.word, name, k) :: es) cm fun t es' cm' => t.val = name ∧ es' = es ∧ cm' = cm := by
  unfold prefixedName
  rw [if_pos rfl]
  refine ex_match (vs := [(.whitespace, [' '], k), (.word, name, k)]) (es' := es) rfl (by decide) ?_
  intro vs hvs
  exact ex_nth_end hvs rfl fun p c => ⟨rfl, rfl, rfl⟩

theorem run_sig {m : MethodDecl} (hm : m.Ok) {n : ServiceNode} (hd : hasDupAnnotation n.methodAnnotations = false) {k line : Nat}
    (hline : line = match n.methodAnnotations.getLast? with | some a => a.annType.line | none => k) {cm : Comments} {c : Str} (hc : docText (docLines cm line) = c)
    {es : List Shape} (hq : Quiet es) {R : Comments → Prop} (hR : ∀ cm' : Comments, (∀ j, cm'.get j = if j ∈ (docLines cm line).map (·.1) then none else cm.get j) → R cm') :
    Runs (.methodDef n) ((.minusSign, ['-'], k) :: (.whitespace, [' '], k) :: (lift k (sigToks m) ++ (.newLine, ['\n'], k) :: es)) cm fun st' es' cm' em =>
      em = [] ∧ (∃ mn : MethodNode, st' = .serviceMethod { n with methods := n.methods ++ [mn], methodAnnotations := [] } ∧ sigSaid m mn ∧
        mn.comment = c ∧ mn.annotations = n.methodAnnotations) ∧ es' = es ∧ R cm' := by
  obtain ⟨_, _, _, hn, hns, hnp, hs⟩ := hm
  refine runs_goto ?_
  show Ex (stMethodDef n) _ _ _
  unfold stMethodDef
  rw [if_neg (by rw [hd]; simp)]
  have hl0 : ∀ (m0 : Token), m0.line = k → (match n.methodAnnotations.getLast? with | some a => a.annType.line | none => m0.line) = line := by
    intro m0 h0; rw [hline, h0]
  unfold sigToks
  cases hsig : m.sig with
  | none =>
    refine ex_match (vs := [(.minusSign, ['-'], k), (.whitespace, [' '], k), (.word, "proxy".toList, k)]) (es' := (.whitespace, [' '], k) :: (.word, m.name, k) :: (.newLine, ['\n'], k) :: es) rfl (by decide) ?_
    intro vs hvs
    refine ex_nth hvs rfl fun p0 c0 => ?_
    refine ex_nth hvs rfl fun p2 c2 => ?_
    dsimp only
    rw [show decide ("proxy".toList = "stream".toList) = false from by decide, show decide ("proxy".toList = "proxy".toList) = true from by decide]
    refine ex_then (R := fun t es' cm' => es' = (.whitespace, [' '], k) :: (.word, m.name, k) :: (.newLine, ['\n'], k) :: es ∧ cm' = cm) (ex_pure ⟨rfl, rfl⟩) ?_
    rintro t _ _ ⟨rfl, rfl⟩
    refine ex_then ex_prefixed ?_
    rintro t _ _ ⟨ht, rfl, rfl⟩
    subst hline
    refine ex_takeComments fun cm' hcm' => ?_
    rw [if_pos rfl]
    refine ex_pure ⟨_, rfl, ?_⟩
    exact runs_nl (.serviceMethod _) (by simp) ⟨rfl, ⟨_, rfl, ⟨ht, by simp [MethodDecl.entry, hsig], by simp [MethodDecl.entry, hsig], by simp [MethodDecl.entry, hsig], by simp [MethodDecl.entry, hsig], by simp [MethodDecl.entry, hsig], by simp [MethodDecl.entry, hsig]⟩, hc, rfl⟩, rfl, hR _ hcm'⟩
  | some s =>
    obtain ⟨o1, o2, o3⟩ := hs s hsig
    have hcons : ∃ e es1, lift k (outToks s.output ++ errToks s.errors) ++ (.newLine, ['\n'], k) :: es = e :: es1 := by
      cases s.output with
      | some x => exact ⟨_, _, rfl⟩
      | none =>
        cases s.errors with
        | nil => exact ⟨_, _, rfl⟩
        | cons e r => exact ⟨_, _, rfl⟩
    obtain ⟨e1, es1, he1⟩ := hcons
    have fin : ∀ name : Token, name.val = m.name → ∀ m0 : Token, m0.line = k → Ex (do
        let commentLine := match n.methodAnnotations.getLast? with
          | some a => a.annType.line
          | none => m0.line
        let c ← takeComments commentLine
        let mn : MethodNode := { name := name, proxy := false, comment := c, streamInput := s.streamIn, annotations := n.methodAnnotations }
        if false then
          pure (.goto (.serviceMethod { n with methods := n.methods ++ [mn], methodAnnotations := [] }) [])
        else
          let ins ← expectArgumentList
          let mn ← methodOutputs { mn with inputs := ins }
          let mn ← methodErrors mn
          pure (.goto (.serviceMethod { n with methods := n.methods ++ [mn], methodAnnotations := [] }) []))
        (lift k (argToks s.inputs ++ (outToks s.output ++ errToks s.errors)) ++ (.newLine, ['\n'], k) :: es) cm
        fun st es' cm' => ∃ st', st = Step.goto st' [] ∧ Runs st' es' cm' fun st' es' cm' em =>
          em = [] ∧ (∃ mn : MethodNode, st' = .serviceMethod { n with methods := n.methods ++ [mn], methodAnnotations := [] } ∧ sigSaid m mn ∧
            mn.comment = c ∧ mn.annotations = n.methodAnnotations) ∧ es' = es ∧ R cm' := by
      intro name hname m0 hm0
      dsimp only
      rw [hl0 m0 hm0]
      refine ex_takeComments fun cm' hcm' => ?_
      rw [if_neg (by simp), lift_append, List.append_assoc, he1]
      refine ex_then (ex_args o1) ?_
      rintro ins _ _ ⟨i1, rfl, rfl⟩
      rw [← he1]
      refine ex_then (ex_outputs o2 hq off_args ⟨rfl, rfl⟩) ?_
      rintro _ a cm2 ⟨⟨outs, rfl, i2⟩, ha, rfl⟩
      refine ex_then (ex_errors hq ha rfl) ?_
      rintro _ a cm2 ⟨⟨errs, rfl, i3⟩, ha, rfl⟩
      refine ex_pure ⟨_, rfl, ?_⟩
      have said : sigSaid m { name := name, proxy := false, comment := docText (docLines cm line), streamInput := s.streamIn, annotations := n.methodAnnotations, inputs := ins, streamOutput := outStream s.output, outputs := outs, errors := errs } := by
        refine ⟨hname, by simp [MethodDecl.entry, hsig], by simp [MethodDecl.entry, hsig], ?_, ?_, ?_, ?_⟩
        · simpa [MethodDecl.entry, hsig] using i1
        · simp only [MethodDecl.entry, hsig]; cases s.output <;> rfl
        · simp only [MethodDecl.entry, hsig]; rw [i2]; cases s.output <;> rfl
        · simpa [MethodDecl.entry, hsig] using i3
      rcases ha with rfl | rfl
      · exact runs_nl (.serviceMethod _) (by simp) ⟨rfl, ⟨_, rfl, said, hc, rfl⟩, rfl, hR _ hcm'⟩
      · exact runs_refl ⟨rfl, ⟨_, rfl, said, hc, rfl⟩, rfl, hR _ hcm'⟩
    cases hst : s.streamIn with
    | false =>
      rw [hst] at fin
      dsimp only
      rw [hst]
      simp only [Bool.false_eq_true, if_false, List.nil_append]
      refine ex_match (vs := [(.minusSign, ['-'], k), (.whitespace, [' '], k), (.word, m.name, k)]) (es' := lift k (argToks s.inputs ++ (outToks s.output ++ errToks s.errors)) ++ (.newLine, ['\n'], k) :: es) rfl (by decide) ?_
      intro vs hvs
      refine ex_nth hvs rfl fun p0 c0 => ?_
      refine ex_nth hvs rfl fun p2 c2 => ?_
      dsimp only
      rw [decide_eq_false hns, decide_eq_false hnp]
      refine ex_then (R := fun t es' cm' => t.val = m.name ∧ es' = lift k (argToks s.inputs ++ (outToks s.output ++ errToks s.errors)) ++ (.newLine, ['\n'], k) :: es ∧ cm' = cm) (ex_pure ⟨rfl, rfl, rfl⟩) ?_
      rintro t _ _ ⟨ht, rfl, rfl⟩
      refine ex_then (R := fun t es' cm'' => t.val = m.name ∧ es' = lift k (argToks s.inputs ++ (outToks s.output ++ errToks s.errors)) ++ (.newLine, ['\n'], k) :: es ∧ cm'' = _) (ex_pure ⟨ht, rfl, rfl⟩) ?_
      rintro t _ _ ⟨ht, rfl, rfl⟩
      exact fin t ht ⟨.minusSign, ['-'], p0, k, c0⟩ rfl
    | true =>
      rw [hst] at fin
      dsimp only
      rw [hst]
      refine ex_match (vs := [(.minusSign, ['-'], k), (.whitespace, [' '], k), (.word, "stream".toList, k)]) (es' := (.whitespace, [' '], k) :: (.word, m.name, k) :: (lift k (argToks s.inputs ++ (outToks s.output ++ errToks s.errors)) ++ (.newLine, ['\n'], k) :: es)) rfl (by decide) ?_
      intro vs hvs
      refine ex_nth hvs rfl fun p0 c0 => ?_
      refine ex_nth hvs rfl fun p2 c2 => ?_
      dsimp only
      rw [show decide ("stream".toList = "stream".toList) = true from by decide, show decide ("stream".toList = "proxy".toList) = false from by decide]
      refine ex_then ex_prefixed ?_
      rintro t _ _ ⟨ht, rfl, rfl⟩
      refine ex_then (R := fun t es' cm'' => t.val = m.name ∧ es' = lift k (argToks s.inputs ++ (outToks s.output ++ errToks s.errors)) ++ (.newLine, ['\n'], k) :: es ∧ cm'' = _) (ex_pure ⟨ht, rfl, rfl⟩) ?_
      rintro t _ _ ⟨ht, rfl, rfl⟩
      exact fin t ht ⟨.minusSign, ['-'], p0, k, c0⟩ rfl

theorem method_entry {m : MethodDecl} {mn : MethodNode} (h : sigSaid m mn) (hc : mn.comment = if m.anns.length - 1 = 0 then docOf m.doc else [])
    (ha : mn.annotations.map annSaid = m.anns.flatten.map annEntry) : mn.entry = m.entry := by
  obtain ⟨h1, h2, h3, h4, h5, h6, h7⟩ := h
  have hdoc : mn.comment = m.entry.doc := by
    rw [hc]
    show _ = if m.anns.length ≤ 1 then docOf m.doc else []
    by_cases hl : m.anns.length ≤ 1
    · rw [if_pos hl, if_pos (by omega)]
    · rw [if_neg hl, if_neg (by omega)]
  unfold MethodNode.entry
  rw [h1, h2, h3, h4, h5, h6, h7, hdoc]
  have : (mn.annotations.map fun a => (a.annType.val, a.value.map Token.val)) = m.entry.anns := ha
  rw [this]
  rfl

theorem run_method {n : ServiceNode} (hn : n.methodAnnotations = []) {m : MethodDecl} (hm : m.Ok) {l : Nat} {rest : List Str} {cm : Comments} (hl : 1 ≤ l)
    (hq : Quiet (layout (l + m.rows.length) rest)) (hf : Fresh l (m.rows ++ rest) cm) :
    Runs (.serviceMethod n) (layout l (m.rows ++ rest)) cm fun st' es' cm' em =>
      (em = [] ∧ ∃ mn : MethodNode, mn.entry = m.entry ∧ st' = .serviceMethod { n with methods := n.methods ++ [mn] }) ∧
      es' = layout (l + m.rows.length) rest ∧ Fresh (l + m.rows.length) rest cm' := by
  have h2 := sig_row hm
  obtain ⟨r1, r2, r3⟩ := piece_row h2
  obtain ⟨d1, d2, d3⟩ := doc_rows (ind := "  ") (by decide) hm.1
  have hlen : l + m.rows.length = l + m.doc.length + m.anns.length + 1 := by
    rw [method_rows]; simp only [List.length_append, d3, List.length_singleton, List.length_map]; omega
  have hmid : ∀ r ∈ m.anns.map annRow ++ [sigRow m], rowComment r = none := by
    intro r hr
    rcases List.mem_append.1 hr with hr | hr
    · obtain ⟨a, ha, rfl⟩ := List.mem_map.1 hr
      obtain ⟨t, _, g⟩ := ann_row (hm.2.1 a ha).1 (hm.2.1 a ha).2
      exact (piece_row g).2.1
    · rw [List.mem_singleton.1 hr]; exact r2
  rw [hlen] at hq ⊢
  rw [method_rows, List.append_assoc (docRows _ _)] at hf ⊢
  obtain ⟨f1, f2⟩ := fresh_take hl hf d1 (fun d hd' => (hm.1 d hd').2.2.2.2) hmid (j := m.anns.length - 1) (by simp; omega) (line := l + m.doc.length + (m.anns.length - 1)) rfl
  rw [List.append_assoc, List.append_assoc]
  refine runs_same (skip_docs (.serviceMethod n) (by decide) hm.1 (by simp)) ?_
  have hmidlen : l + (docRows "  " m.doc).length + (m.anns.map annRow ++ [sigRow m]).length = l + m.doc.length + m.anns.length + 1 := by
    simp [d3]; omega
  rw [hmidlen] at f2
  generalize hk : l + m.doc.length = k at *
  refine runs_then (run_annRows hm.2.1 hm.2.2.1 (fun l => sig_indented hm rest l)) ?_
  rintro st' es' cm1 em ⟨rfl, ⟨ys, rfl, y1, y2⟩, rfl, rfl⟩
  rw [hn, List.nil_append, layout_cons, r1]
  simp only [lift_cons, List.cons_append]
  refine runs_ws (.serviceMethod _) (by simp) ?_
  refine runs_goto ?_
  show Ex (stServiceMethod _) _ _ _
  unfold stServiceMethod
  refine ex_cursor fun p c => ?_
  refine ex_pure ⟨_, rfl, ?_⟩
  have hnames : ys.map (·.annType.val) = m.anns.flatten.map Ann.name := by
    have := congrArg (List.map Prod.fst) y1
    simpa [List.map_map, annSaid, annEntry, Function.comp_def] using this
  refine (run_sig hm (n := { n with methodAnnotations := ys }) (noDup (by rw [hnames]; exact hm.2.2.1)) (k := k + m.anns.length) (line := k + (m.anns.length - 1)) ?_ f1 hq
    (R := fun cm' => Fresh (k + m.anns.length + 1) rest cm') fun cm' h => (f2 cm' h).1).mono ?_
  · dsimp only
    by_cases ha : m.anns = []
    · have : ys = [] := by rw [ha] at y1; simpa using y1
      subst this
      simp [ha]
    · obtain ⟨y, q1, q2⟩ := y2 ha
      rw [q1]
      have : 0 < m.anns.length := List.length_pos_iff.2 ha
      dsimp only
      omega
  · rintro st' es' cm' em ⟨rfl, ⟨mn, rfl, s1, s2, s3⟩, rfl, hfr⟩
    exact ⟨⟨rfl, mn, method_entry s1 s2 (by rw [s3]; exact y1), rfl⟩, rfl, hfr⟩

theorem reads_service {doc : List Str} {name : Str} {methods : List MethodDecl} (hd : ∀ d ∈ doc, DocLine d) (hn : IsWord name) (hcl : Clear name) (hm : ∀ m ∈ methods, m.Ok)
    {l : Nat} {rest : List Str} {cm : Comments} (hl : 1 ≤ l)
    (hf : Fresh l (docRows "" doc ++ ["service ".toList ++ name] ++ (methods.flatMap MethodDecl.rows ++ [] :: rest)) cm) :
    (∃ toks, rowToks ("service ".toList ++ name) = (.word, "service".toList) :: toks) ∧
    (∀ r ∈ ("service ".toList ++ name) :: methods.flatMap MethodDecl.rows, RowOK r) ∧
    Reads (layout (l + doc.length) (("service ".toList ++ name) :: (methods.flatMap MethodDecl.rows ++ [] :: rest))) cm rest
      (l + doc.length + (methods.flatMap MethodDecl.rows).length + 2) [.service (docOf doc) name (methods.map MethodDecl.entry)] := by
  have h0 : Piece ("service ".toList ++ name) [(.word, "service".toList), (.whitespace, [' ']), (.word, name)] ['\n'] := by
    rw [show "service ".toList = "service".toList ++ [' '] from rfl, List.append_assoc]
    refine piece_w (keyword_word .service) (ends_cons (wordEnd_of (by decide))) ?_
    exact piece_1 (solid_word hn) (piece_word hn ends_nl)
  obtain ⟨r1, r2, r3⟩ := piece_row h0
  refine ⟨⟨_, r1⟩, ?_, ?_⟩
  · intro r hr
    rcases List.mem_cons.1 hr with rfl | hr
    · exact r3
    · obtain ⟨m, hmm, hr⟩ := List.mem_flatMap.1 hr
      have ok := hm m hmm
      rw [method_rows] at hr
      rcases List.mem_append.1 hr with hr | hr
      · rcases List.mem_append.1 hr with hr | hr
        · exact (doc_rows (ind := "  ") (by decide) ok.1).2.1 r hr
        · obtain ⟨a, ha, rfl⟩ := List.mem_map.1 hr
          obtain ⟨t, _, g⟩ := ann_row (ok.2.1 a ha).1 (ok.2.1 a ha).2
          exact (piece_row g).2.2
      · rw [List.mem_singleton.1 hr]
        exact (piece_row (sig_row ok)).2.2
  obtain ⟨d1, d2, d3⟩ := doc_rows (ind := "") (by decide) hd
  obtain ⟨f1, f2⟩ := fresh_take hl hf d1 (fun d hd' => (hd d hd').2.2.2.2) (by simpa using r2) (j := 0) (by simp) (line := l + doc.length) rfl
  unfold Reads
  rw [layout_cons, r1]
  simp only [lift_cons, List.cons_append, lift_nil, List.nil_append]
  refine runs_keyword .service ?_
  refine runs_goto ?_
  show Ex stService _ _ _
  unfold stService
  rw [d3] at f2
  generalize hk : l + doc.length = k at *
  refine ex_match (vs := [(.word, "service".toList, k), (.whitespace, [' '], k)])
    (es' := (.word, name, k) :: (.newLine, ['\n'], k) :: layout (k + 1) (methods.flatMap MethodDecl.rows ++ [] :: rest)) rfl (by decide) ?_
  intro vs hvs
  refine ex_nth hvs rfl fun p0 c0 => ?_
  rw [if_neg (by simp)]
  have hlit : LitToks isPlain [(.word, name)] name := .bare (by simp) (by simp [isPlain]) (by simp) (unescape_plain hcl.1 hcl.2)
  refine ex_then (ex_plain (l := k) hlit (.inl rfl)) ?_
  rintro t _ _ ⟨t1, t2, rfl, rfl⟩
  refine ex_then ex_eol ?_
  rintro _ _ _ ⟨rfl, rfl⟩
  refine ex_takeComments fun cm' hcm' => ?_
  have hf' := (f2 cm' hcm').1
  dsimp only
  rw [f1, if_pos rfl]
  refine ex_pure ⟨_, rfl, ?_⟩
  refine runs_same (pend_blank (.serviceMethod _) (.inr rfl) (by simp)) ?_
  refine runs_then (runs_elems (γ := MethodDecl) (rowsOf := MethodDecl.rows) (ok := MethodDecl.Ok) (Quiet := Quiet)
    (Inv := fun done em st => em = [] ∧ ∃ vs : List MethodNode, st = .serviceMethod { name := t, methods := vs, comment := docOf doc } ∧ vs.map MethodNode.entry = done.map MethodDecl.entry) (fun _ _ _ h => method_quiet h _ _) ?_ hm (done := []) (em0 := [])
    ⟨rfl, [], rfl, rfl⟩ (by omega) (fun _ => quiet_blank _ _) hf') ?_
  · rintro done em0 st a l rest cm ha ⟨rfl, ms, rfl, hi⟩ hl hq hf
    refine (run_method rfl ha hl hq hf).mono ?_
    rintro st' es' cm' em ⟨⟨rfl, t, ht, rfl⟩, rfl, h4⟩
    exact ⟨⟨rfl, ms ++ [t], rfl, by simp [hi, ht]⟩, rfl, h4⟩
  · rintro st' es' cm' em ⟨⟨hem, ms, rfl, h1⟩, rfl, h3⟩
    simp only [List.nil_append] at hem
    subst hem
    rw [show k + (methods.flatMap MethodDecl.rows).length + 2 = k + 1 + (methods.flatMap MethodDecl.rows).length + 1 by omega]
    refine reads_blank (.serviceMethod _) (by simp) h3 (pre := []) ?_
    simp only [List.nil_append, List.map_cons, List.map_nil, Node.entry, h1, t1]

end Verif.Ridl
