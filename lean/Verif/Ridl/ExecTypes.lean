import Verif.Ridl.ExecDecls
/-! # Running the parser over imports with members, enums, type aliases and structs -/

namespace Verif.Ridl
open Verif.Spec

/-- `import <path>`: the first attempt fails and leaves the parser behind the blank. -/
theorem ex_import_path {f : Except PErr (List Token) → P β} {w v : Str} {l l' : Nat} {e : Shape} {es : List Shape} {cm : Comments}
    {Q : β → List Shape → Comments → Prop} (he : e.1 = .word ∨ e.1 = .dot ∨ e.1 = .slash ∨ e.1 = .quote)
    (h : ∀ err, Ex (f (.error err)) (e :: es) cm Q) : Ex (attempt (match_ [.word, .eol]) >>= f) ((.word, w, l) :: (.whitespace, v, l') :: e :: es) cm Q := by
  intro d ts hts
  obtain ⟨p1, c1, ts1, rfl, h1⟩ := shapes_cons hts
  obtain ⟨p2, c2, ts2, rfl, h2⟩ := shapes_cons h1
  obtain ⟨tt, u, l3⟩ := e
  obtain ⟨p3, c3, ts3, rfl, h3⟩ := shapes_cons h2
  have hm : match_ [.word, .eol] (stateAt d (⟨.word, w, p1, l, c1⟩ :: ⟨.whitespace, v, p2, l', c2⟩ :: ⟨tt, u, p3, l3, c3⟩ :: ts3) cm)
      = (.err .unexpectedToken, stateAt (d ++ [⟨.word, w, p1, l, c1⟩] ++ [⟨.whitespace, v, p2, l', c2⟩]) (⟨tt, u, p3, l3, c3⟩ :: ts3) cm) := by
    unfold match_ matchLoop
    rw [bind_ok (cursor_eq _), cursor_stateAt, if_pos rfl, bind_ok (advance_stateAt _ _ _ _)]
    unfold matchLoop
    rw [bind_ok (cursor_eq _), cursor_stateAt, if_neg (by simp), if_pos rfl]
    apply bind_err
    unfold expectOptionalCommentOrEOL
    have hfuel : ∀ (d : List Token) (a b : Token), (stateAt d (a :: b :: ts3) cm).tokens.length - (stateAt d (a :: b :: ts3) cm).pos = ts3.length + 1 + 1 := by
      intro d a b; simp [stateAt]
    rw [loop_cons, hfuel]
    unfold P.bind
    rw [bind_ok (cursor_eq _), cursor_stateAt]
    dsimp only
    rw [bind_ok (advance_stateAt _ _ _ _)]
    rw [show ∀ (s : Unit ⊕ Unit) q, (pure s : P (Unit ⊕ Unit)) q = (.ok s, q) from fun _ _ => rfl]
    dsimp only [loopK]
    unfold loopN P.bind
    rw [bind_ok (cursor_eq _), cursor_stateAt]
    rcases he with h | h | h | h <;> (simp only at h; subst h; rfl)
  have ha : attempt (match_ [.word, .eol]) (stateAt d (⟨.word, w, p1, l, c1⟩ :: ⟨.whitespace, v, p2, l', c2⟩ :: ⟨tt, u, p3, l3, c3⟩ :: ts3) cm)
      = (.ok (.error .unexpectedToken), stateAt (d ++ [⟨.word, w, p1, l, c1⟩] ++ [⟨.whitespace, v, p2, l', c2⟩]) (⟨tt, u, p3, l3, c3⟩ :: ts3) cm) := by
    unfold attempt; rw [hm]
  rw [bind_ok ha]
  exact h _ _ _ h2

theorem pathToks_head {bt : List (TT × Str)} {v : Str} (h : LitToks isPath bt v) :
    ∃ t r, bt = t :: r ∧ (t.1 = .word ∨ t.1 = .dot ∨ t.1 = .slash ∨ t.1 = .quote) := by
  cases h with
  | bare hne h _ _ =>
    cases bt with
    | nil => exact absurd rfl hne
    | cons t r =>
      refine ⟨t, r, rfl, ?_⟩
      have := (h t (by simp)).1
      simp only [isPath, Bool.or_eq_true, beq_iff_eq] at this
      rcases this with (h | h) | h <;> simp [h]
  | quoted _ _ => exact ⟨_, _, rfl, by simp⟩

theorem reads_importFile {path : Lit} {members : List Lit} (hp : path.Path) (hm : ∀ m ∈ members, m.Plain) {l : Nat} {rest : List Str} {cm : Comments} (hl : 1 ≤ l)
    (hf : Fresh l (("import ".toList ++ path.text) :: (members.map fun p => "  - ".toList ++ p.text) ++ [] :: rest) cm) :
    (∃ toks, rowToks ("import ".toList ++ path.text) = (.word, "import".toList) :: toks) ∧
    (∀ r ∈ ("import ".toList ++ path.text) :: (members.map fun p => "  - ".toList ++ p.text), RowOK r) ∧
    Reads (layout l (("import ".toList ++ path.text) :: (members.map fun p => "  - ".toList ++ p.text) ++ [] :: rest)) cm rest (l + members.length + 2)
      [.import_ path.value (members.map Lit.value)] := by
  obtain ⟨bt, h1, h2⟩ := piece_path (post := ['\n']) hp ends_nl
  have h0 : Piece ("import ".toList ++ path.text) ((.word, "import".toList) :: (.whitespace, [' ']) :: bt) ['\n'] := by
    rw [show "import ".toList = "import".toList ++ [' '] from rfl, List.append_assoc]
    refine piece_w (keyword_word .import_) (ends_cons (wordEnd_of (by decide))) ?_
    exact piece_1 (path_solid hp _) h2
  obtain ⟨r1, r2, r3⟩ := piece_row h0
  refine ⟨⟨_, r1⟩, ?_, ?_⟩
  · intro r hr
    rcases List.mem_cons.1 hr with rfl | hr
    · exact r3
    · obtain ⟨p, hpm, rfl⟩ := List.mem_map.1 hr
      obtain ⟨bt, _, g⟩ := plain_row (hm p hpm)
      exact (piece_row g).2.2
  unfold Reads
  rw [List.cons_append] at hf ⊢
  have hf' := fresh_next hf r2
  rw [layout_cons, r1]
  simp only [lift_cons, List.cons_append]
  refine runs_keyword .import_ ?_
  refine runs_goto ?_
  show Ex stImport _ _ _
  unfold stImport
  obtain ⟨t, r, rfl, ht⟩ := pathToks_head h1
  refine ex_import_path (e := (t.1, t.2, l)) (es := lift l r ++ (.newLine, ['\n'], l) :: layout (l + 1) ((members.map fun p => "  - ".toList ++ p.text) ++ [] :: rest)) ht ?_
  intro err
  refine ex_match (vs := [(.whitespace, [' '], l)]) (es' := (t.1, t.2, l) :: (lift l r ++ (.newLine, ['\n'], l) :: layout (l + 1) ((members.map fun p => "  - ".toList ++ p.text) ++ [] :: rest))) ?_ (by decide) ?_
  · unfold matchShape
    rw [if_neg (by rcases ht with h | h | h | h <;> simp [h]), if_neg (by decide), if_pos rfl]
    rfl
  intro vs hvs
  refine ex_then (ex_path h1 (.inl rfl)) ?_
  rintro tk es' cm' ⟨t1, t2, rfl, rfl⟩
  refine ex_pure ⟨_, rfl, ?_⟩
  refine runs_same (pend_blank (.importMembers _) (.inr rfl) (by simp)) ?_
  rw [← flatMap_single] at hf' ⊢
  refine runs_then (runs_elems (γ := Lit) (rowsOf := fun p => ["  - ".toList ++ p.text]) (ok := Lit.Plain) (Quiet := fun _ => True)
    (Inv := fun done em st => em = [] ∧ ∃ ms : List Token, st = .importMembers { path := tk, members := ms } ∧ ms.map Token.val = done.map Lit.value) (fun _ _ _ _ => trivial) ?_ hm (done := []) (em0 := [])
    ⟨rfl, [], rfl, rfl⟩ (by omega) (fun _ => trivial) hf') ?_
  · rintro done em0 st a l rest cm ha ⟨rfl, ms, rfl, hi⟩ hl _ hf
    refine (run_importMember ha hf).mono ?_
    rintro st' es' cm' em ⟨⟨rfl, t, ht, rfl⟩, rfl, h4⟩
    exact ⟨⟨rfl, _, rfl, by simp [hi, ht]⟩, rfl, h4⟩
  · rintro st' es' cm' em ⟨⟨hem, ms, rfl, h1⟩, rfl, h3⟩
    simp only [List.nil_append] at hem
    subst hem
    have hlen : (members.flatMap fun p => ["  - ".toList ++ p.text]).length = members.length := by rw [flatMap_single]; simp
    rw [hlen] at h3 ⊢
    have := reads_blank (.importMembers _) (by simp) h3 (pre := []) (entries := [Entry.import_ path.value (members.map Lit.value)])
      (ns := [.import_ { path := tk, members := ms }]) (by simp [Node.entry, t1, h1])
    rw [show l + members.length + 2 = l + 1 + members.length + 1 by omega]
    exact this

/-! ### Enums -/

def memberToks (bt : List (TT × Str)) : Option Lit → List (TT × Str)
  | none => []
  | some _ => (.whitespace, [' ']) :: (.equal, ['=']) :: (.whitespace, [' ']) :: bt

def memberRow (m : Member) : Str :=
  match m.value with
  | none => "  - ".toList ++ m.name
  | some v => "  - ".toList ++ m.name ++ " = ".toList ++ v.text

theorem member_row {m : Member} (hm : m.Ok) : ∃ bt, (∀ v, m.value = some v → LitToks isPlain bt v.value) ∧
    Piece (memberRow m) ((.whitespace, [' ', ' ']) :: (.minusSign, ['-']) :: (.whitespace, [' ']) :: (.word, m.name) :: memberToks bt m.value) ['\n'] := by
  obtain ⟨_, h2, h3⟩ := hm
  unfold memberRow
  cases hv : m.value with
  | none => exact ⟨[], by simp, piece_minus (piece_word h2 ends_nl) (solid_word h2)⟩
  | some v =>
    obtain ⟨bt, g1, g2⟩ := piece_plain (post := ['\n']) (h3 v hv) ends_nl
    refine ⟨bt, by simpa using g1, ?_⟩
    have e : "  - ".toList ++ m.name ++ " = ".toList ++ v.text = "  - ".toList ++ (m.name ++ (' ' :: '=' :: ' ' :: v.text)) := by
      rw [show " = ".toList = [' ', '=', ' '] from rfl]; simp
    dsimp only
    rw [e]
    refine piece_minus (piece_w h2 (ends_cons (wordEnd_of (by decide))) ?_) (by rw [List.append_assoc]; exact solid_word h2)
    refine piece_1 (solid_cons (by unfold Blank; decide)) ?_
    exact piece_eq (by simp) (piece_1 (plain_solid (h3 v hv) _) g2)

theorem member_rows (m : Member) : m.rows = docRows "  " m.doc ++ [memberRow m] := rfl

theorem docText_nil : docText [] = [] := rfl

theorem run_member {n : EnumNode} {m : Member} (hm : m.Ok) {l : Nat} {rest : List Str} {cm : Comments} (hl : 1 ≤ l) (hf : Fresh l (m.rows ++ rest) cm) :
    Runs (.enumDef n) (layout l (m.rows ++ rest)) cm fun st' es' cm' em =>
      (em = [] ∧ ∃ d : DefNode, d.entry = m.entry ∧
        st' = .enumDef { n with comment := if m.value.isSome then [] else n.comment, values := n.values ++ [d] }) ∧
      es' = layout (l + m.rows.length) rest ∧ Fresh (l + m.rows.length) rest cm' := by
  obtain ⟨bt, h1, h2⟩ := member_row hm
  obtain ⟨r1, r2, r3⟩ := piece_row h2
  obtain ⟨d1, d2, d3⟩ := doc_rows (ind := "  ") (by decide) hm.1
  rw [member_rows] at hf ⊢
  obtain ⟨f1, f2⟩ := fresh_take hl hf d1 (fun d hd' => (hm.1 d hd').2.2.2.2) (by simpa using r2) (j := 0) (by simp) (line := l + m.doc.length) rfl
  rw [List.append_assoc]
  refine runs_same (skip_docs (.enumDef n) (by decide) hm.1 (by simp)) ?_
  rw [List.singleton_append, layout_cons, r1]
  simp only [lift_cons, List.cons_append]
  refine runs_ws (.enumDef n) (by simp) ?_
  refine runs_goto ?_
  show Ex (stEnumDef n) _ _ _
  unfold stEnumDef
  refine ex_cursor fun p' c => ?_
  generalize hk : l + m.doc.length = k at *
  refine ex_match (vs := [(.minusSign, ['-'], k), (.whitespace, [' '], k), (.word, m.name, k)])
    (es' := lift k (memberToks bt m.value) ++ (.newLine, ['\n'], k) :: layout (k + 1) rest) rfl (by decide) ?_
  intro vs hvs
  refine ex_nth hvs rfl fun p2 c2 => ?_
  refine ex_nth hvs rfl fun p0 c0 => ?_
  refine ex_takeComments fun cm' hcm' => ?_
  obtain ⟨hf', hd'⟩ := f2 cm' hcm'
  dsimp only
  rw [f1, if_pos rfl]
  have hlen : l + (docRows "  " m.doc ++ [memberRow m]).length = k + 1 := by simp only [List.length_append, d3, List.length_singleton]; omega
  have hlen2 : l + (docRows "  " m.doc).length + [memberRow m].length = k + 1 := by simp only [d3, List.length_singleton]; omega
  rw [hlen2] at hf'
  rw [hlen]
  refine ex_pure ⟨_, rfl, ?_⟩
  refine runs_goto ?_
  show Ex (stEnumValue _ _) _ _ _
  unfold stEnumValue
  cases hv : m.value with
  | none =>
    refine ex_try_fail (by simp [memberToks, matchShape]) (by decide) (by decide) fun _ => ?_
    refine ex_pure ⟨_, rfl, ?_⟩
    refine runs_nl (.enumDef _) (by simp) ⟨⟨rfl, _, ?_, rfl⟩, rfl, hf'⟩
    simp [DefNode.entry, Member.entry, hv]
  | some v =>
    refine ex_try (vs := [(.whitespace, [' '], k), (.equal, ['='], k), (.whitespace, [' '], k)])
      (es' := lift k bt ++ (.newLine, ['\n'], k) :: layout (k + 1) rest) rfl (by decide) ?_
    intro vs hvs
    refine ex_then (ex_plain (h1 v hv) (.inl rfl)) ?_
    rintro t es' cm2 ⟨t1, t2, rfl, rfl⟩
    refine ex_takeComments fun cm3 hcm3 => ?_
    rw [t2, hd'] at hcm3
    rw [t2, hd', docText_nil]
    refine ex_pure ⟨_, rfl, ?_⟩
    refine runs_nl (.enumDef _) (by simp) ⟨⟨rfl, { left := ⟨.word, m.name, p2, k, c2⟩, comment := docOf m.doc, right := some t }, ?_, rfl⟩, rfl, ?_⟩
    · simp [DefNode.entry, Member.entry, hv, t1]
    · exact ⟨fun i => by rw [hcm3]; simpa using hf'.1 i, fun j hj => by rw [hcm3]; simpa using hf'.2 j hj⟩

theorem reads_enum {doc : List Str} {name type : Str} {members : List Member} (hd : ∀ d ∈ doc, DocLine d) (hn : IsWord name) (ht : IsWord type) (hm : ∀ m ∈ members, m.Ok)
    {l : Nat} {rest : List Str} {cm : Comments} (hl : 1 ≤ l)
    (hf : Fresh l (docRows "" doc ++ ["enum ".toList ++ name ++ ": ".toList ++ type] ++ (members.flatMap Member.rows ++ [] :: rest)) cm) :
    (∃ toks, rowToks ("enum ".toList ++ name ++ ": ".toList ++ type) = (.word, "enum".toList) :: toks) ∧
    (∀ r ∈ ("enum ".toList ++ name ++ ": ".toList ++ type) :: members.flatMap Member.rows, RowOK r) ∧
    Reads (layout (l + doc.length) (("enum ".toList ++ name ++ ": ".toList ++ type) :: (members.flatMap Member.rows ++ [] :: rest))) cm rest
      (l + doc.length + (members.flatMap Member.rows).length + 2)
      [.enum (if members.any (·.value.isSome) then [] else docOf doc) name type (members.map Member.entry)] := by
  have e : "enum ".toList ++ name ++ ": ".toList ++ type = "enum".toList ++ (' ' :: (name ++ (':' :: ' ' :: type))) := by
    rw [show "enum ".toList = "enum".toList ++ [' '] from rfl, show ": ".toList = [':', ' '] from rfl]; simp
  have h0 : Piece ("enum ".toList ++ name ++ ": ".toList ++ type)
      [(.word, "enum".toList), (.whitespace, [' ']), (.word, name), (.colon, [':']), (.whitespace, [' ']), (.word, type)] ['\n'] := by
    rw [e]
    refine piece_w (keyword_word .enum) (ends_cons (wordEnd_of (by decide))) ?_
    refine piece_1 (by rw [List.append_assoc]; exact solid_word hn) (piece_w hn (ends_cons (wordEnd_of (by decide))) ?_)
    exact piece_s rfl (by decide) (by decide) (piece_1 (solid_word ht) (piece_word ht ends_nl))
  obtain ⟨r1, r2, r3⟩ := piece_row h0
  refine ⟨⟨_, r1⟩, ?_, ?_⟩
  · intro r hr
    rcases List.mem_cons.1 hr with rfl | hr
    · exact r3
    · obtain ⟨m, hmm, hr⟩ := List.mem_flatMap.1 hr
      rw [member_rows] at hr
      rcases List.mem_append.1 hr with hr | hr
      · exact (doc_rows (ind := "  ") (by decide) (hm m hmm).1).2.1 r hr
      · obtain ⟨bt, _, g⟩ := member_row (hm m hmm)
        rw [List.mem_singleton.1 hr]
        exact (piece_row g).2.2
  obtain ⟨d1, d2, d3⟩ := doc_rows (ind := "") (by decide) hd
  obtain ⟨f1, f2⟩ := fresh_take hl hf d1 (fun d hd' => (hd d hd').2.2.2.2) (by simpa using r2) (j := 0) (by simp) (line := l + doc.length) rfl
  unfold Reads
  rw [layout_cons, r1]
  simp only [lift_cons, List.cons_append, lift_nil, List.nil_append]
  refine runs_keyword .enum ?_
  refine runs_goto ?_
  show Ex stEnum _ _ _
  unfold stEnum
  rw [d3] at f2
  generalize hk : l + doc.length = k at *
  refine ex_match (vs := [(.word, "enum".toList, k), (.whitespace, [' '], k), (.word, name, k), (.colon, [':'], k), (.whitespace, [' '], k), (.word, type, k), (.eol, [], k)])
    (es' := (.newLine, ['\n'], k) :: layout (k + 1) (members.flatMap Member.rows ++ [] :: rest)) rfl (by decide) ?_
  intro vs hvs
  refine ex_nth hvs rfl fun p0 c0 => ?_
  rw [if_neg (by simp)]
  refine ex_nth hvs rfl fun p2 c2 => ?_
  refine ex_nth hvs rfl fun p5 c5 => ?_
  refine ex_takeComments fun cm' hcm' => ?_
  have hf' := (f2 cm' hcm').1
  dsimp only
  rw [f1, if_pos rfl]
  refine ex_pure ⟨_, rfl, ?_⟩
  refine runs_same (pend_blank (.enumDef _) (.inr rfl) (by simp)) ?_
  refine runs_then (runs_elems (γ := Member) (rowsOf := Member.rows) (ok := Member.Ok) (Quiet := fun _ => True)
    (Inv := fun done em st => em = [] ∧ ∃ vs : List DefNode, st = .enumDef { name := ⟨.word, name, p2, k, c2⟩, enumType := ⟨.word, type, p5, k, c5⟩, values := vs, comment := if done.any (·.value.isSome) then [] else docOf doc, line := k } ∧ vs.map DefNode.entry = done.map Member.entry) (fun _ _ _ _ => trivial) ?_ hm (done := []) (em0 := [])
    ⟨rfl, [], rfl, rfl⟩ (by omega) (fun _ => trivial) hf') ?_
  · rintro done em0 st a l rest cm ha ⟨rfl, ms, rfl, hi⟩ hl _ hf
    refine (run_member ha hl hf).mono ?_
    rintro st' es' cm' em ⟨⟨rfl, t, ht, rfl⟩, rfl, h4⟩
    refine ⟨⟨rfl, ms ++ [t], ?_, by simp [hi, ht]⟩, rfl, h4⟩
    have key : (if a.value.isSome then [] else if done.any (·.value.isSome) then [] else docOf doc) = if (done ++ [a]).any (·.value.isSome) then [] else docOf doc := by
      rw [List.any_append]
      generalize done.any (·.value.isSome) = b
      cases b <;> cases hv : a.value <;> simp [hv]
    dsimp only
    rw [key]
  · rintro st' es' cm' em ⟨⟨hem, ms, rfl, h1⟩, rfl, h3⟩
    simp only [List.nil_append] at hem
    subst hem
    rw [show k + (members.flatMap Member.rows).length + 2 = k + 1 + (members.flatMap Member.rows).length + 1 by omega]
    refine reads_blank (.enumDef _) (by simp) h3 (pre := []) ?_
    simp only [List.nil_append, List.map_cons, List.map_nil, Node.entry, h1]

/-! ### `+` lines -/

theorem ex_metaValue {l : Nat} {bt : List (TT × Str)} {v : Str} {es : List Shape} {cm : Comments} (h : MetaToks bt v) :
    Ex expectMetadataValue (lift l bt ++ (.newLine, ['\n'], l) :: es) cm fun t es' cm' => t.val = v ∧ t.line = l ∧ es' = (.newLine, ['\n'], l) :: es ∧ cm' = cm := by
  unfold expectMetadataValue
  cases h with
  | quoted hb hu =>
    simp only [lift_cons, lift_append, List.cons_append, List.append_assoc, lift_nil, List.nil_append]
    refine ex_cursor fun p c => ?_
    rw [if_pos rfl]
    exact ex_string hb hu
  | bare hne h hq hu =>
    have main : ∀ (bt : List (TT × Str)) (acc : List Token) (pre : List (TT × Str)), acc.map Token.shape = lift l pre →
        (∀ t ∈ bt, t.1 ≠ .whitespace ∧ t.1 ≠ .newLine ∧ t.1 ≠ .eof) →
        Ex (loop (fun (tokens : List Token) => do
          let tok ← cursor
          match tok.tt with
          | .whitespace | .newLine | .eof => pure (.inr tokens)
          | _ =>
            let _ ← advance
            pure (.inl (tokens ++ [tok]))) acc) (lift l bt ++ (.newLine, ['\n'], l) :: es) cm
          fun toks es' cm' => toks.map Token.shape = lift l (pre ++ bt) ∧ es' = (.newLine, ['\n'], l) :: es ∧ cm' = cm := by
      intro bt
      induction bt with
      | nil =>
        intro acc pre hacc _
        refine ex_loop ?_
        refine ex_cursor fun p c => ?_
        exact ex_pure ⟨by simpa using hacc, rfl, rfl⟩
      | cons t bt ih =>
        intro acc pre hacc hall
        obtain ⟨tt, w⟩ := t
        have ht := hall (tt, w) (by simp)
        refine ex_loop ?_
        simp only [lift_cons, List.cons_append]
        refine ex_cursor fun p c => ?_
        have : ∀ (Q : List Token ⊕ List Token → List Shape → Comments → Prop) (tok : Token) (e : Shape) (es : List Shape), tok.tt = tt → Q (.inl (acc ++ [tok])) es cm →
            Ex (match tok.tt with
              | .whitespace | .newLine | .eof => pure (.inr acc)
              | _ => do
                let _ ← advance
                pure (.inl (acc ++ [tok]))) (e :: es) cm Q := by
          intro Q tok e es he hq
          rw [he]
          obtain ⟨h1, h2, h3⟩ := ht
          split
          · exact absurd rfl h1
          · exact absurd rfl h2
          · exact absurd rfl h3
          · exact ex_advance (ex_pure hq)
        refine this _ _ _ _ rfl ⟨by simp, ?_⟩
        have := ih (acc ++ [⟨tt, w, p, l, c⟩]) (pre ++ [(tt, w)]) (by rw [List.map_append, hacc]; simp [Token.shape]) (fun x hx => hall x (by simp [hx]))
        simpa using this
    cases bt with
    | nil => exact absurd rfl hne
    | cons t bt =>
      simp only [lift_cons, List.cons_append]
      refine ex_cursor fun p c => ?_
      rw [if_neg (by exact hq t rfl)]
      refine ex_then (main (t :: bt) [] [] rfl h) ?_
      rintro toks es' cm' ⟨h1, rfl, rfl⟩
      exact ex_composed' h1 (by simp) hu

theorem ex_metaKey {w : Str} (hc : Clear w) {l k : Nat} {v : Str} {es : List Shape} {cm : Comments} :
    Ex expectMetadataKey ((.word, w, l) :: (.whitespace, v, k) :: es) cm fun t es' cm' => t.val = w ∧ t.line = l ∧ es' = (.whitespace, v, k) :: es ∧ cm' = cm := by
  unfold expectMetadataKey
  refine ex_match (vs := [(.word, w, l)]) (es' := (.whitespace, v, k) :: es) rfl (by decide) ?_
  intro vs hvs
  refine ex_nth hvs rfl fun p c => ?_
  refine ex_then (R := fun toks es' cm' => toks = [⟨.word, w, p, l, c⟩] ∧ es' = (.whitespace, v, k) :: es ∧ cm' = cm) ?_ ?_
  · refine ex_loop ?_
    refine ex_cursor fun p c => ?_
    exact ex_pure ⟨rfl, rfl, rfl⟩
  · rintro _ _ _ ⟨rfl, rfl, rfl⟩
    exact ex_composedV rfl rfl (by simpa using unescape_plain hc.1 hc.2)

def metaToks (ind key : Str) (bt : List (TT × Str)) : List (TT × Str) :=
  (.whitespace, ind) :: (.plusSign, ['+']) :: (.whitespace, [' ']) :: (.word, key) :: (.whitespace, [' ']) :: (.equal, ['=']) :: (.whitespace, [' ']) :: bt

theorem meta_row {ind : String} (hne : ind.toList ≠ []) (hind : ∀ c ∈ ind.toList, c = ' ') {m : Str × Lit} (hm : MetaOk m) :
    ∃ bt, MetaToks bt m.2.value ∧ Piece (metaRow ind m) (metaToks ind.toList m.1 bt) ['\n'] := by
  obtain ⟨h1, _, h3⟩ := hm
  obtain ⟨bt, g1, g2⟩ := piece_meta h3
  refine ⟨bt, g1, ?_⟩
  have e : metaRow ind m = ind.toList ++ ('+' :: ' ' :: (m.1 ++ (' ' :: '=' :: ' ' :: m.2.text))) := by
    unfold metaRow
    rw [show " = ".toList = [' ', '=', ' '] from rfl, show "+ ".toList = ['+', ' '] from rfl]; simp
  rw [e]
  refine piece_b hne hind (solid_cons (by unfold Blank; decide)) ?_
  refine piece_s rfl (by decide) (by decide) ?_
  refine piece_1 (by rw [List.append_assoc]; exact solid_word h1) (piece_w h1 (ends_cons (wordEnd_of (by decide))) ?_)
  refine piece_1 (solid_cons (by unfold Blank; decide)) ?_
  exact piece_eq (by simp) (piece_1 (meta_solid h3 _) g2)

theorem ex_metaLine {key : Str} (hc : Clear key) {bt : List (TT × Str)} {v : Str} (hv : MetaToks bt v) {l : Nat} {es : List Shape} {cm : Comments} :
    Ex metaLine ((.plusSign, ['+'], l) :: (.whitespace, [' '], l) :: (.word, key, l) :: (.whitespace, [' '], l) :: (.equal, ['='], l) :: (.whitespace, [' '], l) ::
        (lift l bt ++ (.newLine, ['\n'], l) :: es)) cm fun m es' cm' => m.1.val = key ∧ m.2.val = v ∧ es' = (.newLine, ['\n'], l) :: es ∧ cm' = cm := by
  unfold metaLine
  refine ex_match (vs := [(.plusSign, ['+'], l), (.whitespace, [' '], l)])
    (es' := (.word, key, l) :: (.whitespace, [' '], l) :: (.equal, ['='], l) :: (.whitespace, [' '], l) :: (lift l bt ++ (.newLine, ['\n'], l) :: es)) rfl (by decide) ?_
  intro vs hvs
  refine ex_then (ex_metaKey hc) ?_
  rintro t _ _ ⟨t1, t2, rfl, rfl⟩
  refine ex_match (vs := [(.whitespace, [' '], l), (.equal, ['='], l), (.whitespace, [' '], l)])
    (es' := lift l bt ++ (.newLine, ['\n'], l) :: es) rfl (by decide) ?_
  intro vs hvs
  refine ex_then (ex_metaValue hv) ?_
  rintro u _ _ ⟨u1, u2, rfl, rfl⟩
  exact ex_pure ⟨t1, u1, rfl, rfl⟩

/-! ### Type aliases -/

theorem run_aliasMeta {n : AliasNode} {m : Str × Lit} (hm : MetaOk m) {l : Nat} {rest : List Str} {cm : Comments} (hf : Fresh l ([metaRow "  " m] ++ rest) cm) :
    Runs (.aliasMeta n) (layout l ([metaRow "  " m] ++ rest)) cm fun st' es' cm' em =>
      (em = [] ∧ ∃ t : Token × Token, (t.1.val, t.2.val) = metaEntry m ∧ st' = .aliasMeta { n with metas := n.metas ++ [t] }) ∧ es' = layout (l + 1) rest ∧ Fresh (l + 1) rest cm' := by
  obtain ⟨bt, h1, h2⟩ := meta_row (ind := "  ") (by decide) (by decide) hm
  have hf' := fresh_row h2 hf
  rw [List.singleton_append, layout_cons, (piece_row h2).1]
  simp only [metaToks, lift_cons, List.cons_append]
  refine runs_ws (.aliasMeta n) (by simp) ?_
  refine runs_goto ?_
  show Ex (stAliasMeta n) _ _ _
  unfold stAliasMeta
  refine ex_cursor fun p' c => ?_
  refine ex_pure ⟨_, rfl, ?_⟩
  refine runs_goto ?_
  show Ex (stAliasMetaDef n) _ _ _
  unfold stAliasMetaDef
  refine ex_then (ex_metaLine hm.2.1 h1) ?_
  rintro t es' cm' ⟨t1, t2, rfl, rfl⟩
  refine ex_pure ⟨_, rfl, ?_⟩
  exact runs_nl (.aliasMeta _) (by simp) ⟨⟨rfl, t, by rw [t1, t2]; rfl, rfl⟩, rfl, hf'⟩

theorem reads_alias {doc : List Str} {name : Str} {type : Ty} {metas : List (Str × Lit)} (hd : ∀ d ∈ doc, DocLine d) (hn : IsWord name) (ht : type.Writable) (hm : ∀ m ∈ metas, MetaOk m)
    {l : Nat} {rest : List Str} {cm : Comments} (hl : 1 ≤ l)
    (hf : Fresh l (docRows "" doc ++ ["type ".toList ++ name ++ ": ".toList ++ type.text] ++ (metas.map (metaRow "  ") ++ [] :: rest)) cm) :
    (∃ toks, rowToks ("type ".toList ++ name ++ ": ".toList ++ type.text) = (.word, "type".toList) :: toks) ∧
    (∀ r ∈ ("type ".toList ++ name ++ ": ".toList ++ type.text) :: metas.map (metaRow "  "), RowOK r) ∧
    Reads (layout (l + doc.length) (("type ".toList ++ name ++ ": ".toList ++ type.text) :: (metas.map (metaRow "  ") ++ [] :: rest))) cm rest
      (l + doc.length + metas.length + 2) [.alias (docOf doc) name type.text (metas.map metaEntry)] := by
  have e : "type ".toList ++ name ++ ": ".toList ++ type.text = "type".toList ++ (' ' :: (name ++ (':' :: ' ' :: type.text))) := by
    rw [show "type ".toList = "type".toList ++ [' '] from rfl, show ": ".toList = [':', ' '] from rfl]; simp
  have h0 : Piece ("type ".toList ++ name ++ ": ".toList ++ type.text)
      ((.word, "type".toList) :: (.whitespace, [' ']) :: (.word, name) :: (.colon, [':']) :: (.whitespace, [' ']) :: tyToks type) ['\n'] := by
    rw [e]
    refine piece_w (keyword_word .alias) (ends_cons (wordEnd_of (by decide))) ?_
    refine piece_1 (by rw [List.append_assoc]; exact solid_word hn) (piece_w hn (ends_cons (wordEnd_of (by decide))) ?_)
    exact piece_s rfl (by decide) (by decide) (piece_1 (type_solid ht _) (piece_type ht ends_nl))
  obtain ⟨r1, r2, r3⟩ := piece_row h0
  refine ⟨⟨_, r1⟩, ?_, ?_⟩
  · intro r hr
    rcases List.mem_cons.1 hr with rfl | hr
    · exact r3
    · obtain ⟨m, hmm, rfl⟩ := List.mem_map.1 hr
      obtain ⟨bt, _, g⟩ := meta_row (ind := "  ") (by decide) (by decide) (hm m hmm)
      exact (piece_row g).2.2
  obtain ⟨d1, d2, d3⟩ := doc_rows (ind := "") (by decide) hd
  obtain ⟨f1, f2⟩ := fresh_take hl hf d1 (fun d hd' => (hd d hd').2.2.2.2) (by simpa using r2) (j := 0) (by simp) (line := l + doc.length) rfl
  unfold Reads
  rw [layout_cons, r1]
  simp only [lift_cons, List.cons_append, lift_nil, List.nil_append]
  refine runs_keyword .alias ?_
  refine runs_goto ?_
  show Ex stTypeAlias _ _ _
  unfold stTypeAlias
  rw [d3] at f2
  generalize hk : l + doc.length = k at *
  refine ex_match (vs := [(.word, "type".toList, k), (.whitespace, [' '], k), (.word, name, k), (.colon, [':'], k), (.whitespace, [' '], k)])
    (es' := lift k (tyToks type) ++ (.newLine, ['\n'], k) :: layout (k + 1) (metas.map (metaRow "  ") ++ [] :: rest)) rfl (by decide) ?_
  intro vs hvs
  refine ex_nth hvs rfl fun p0 c0 => ?_
  rw [if_neg (by simp)]
  refine ex_then (ex_type type (writable_ok ht) (.inl rfl)) ?_
  rintro t _ cm0 ⟨t1, t2, rfl, rfl⟩
  refine ex_nth hvs rfl fun p2 c2 => ?_
  refine ex_takeComments fun cm' hcm' => ?_
  have hf' := (f2 cm' hcm').1
  dsimp only
  rw [f1, if_pos rfl]
  refine ex_pure ⟨_, rfl, ?_⟩
  refine runs_same (pend_blank (.aliasMeta _) (.inr rfl) (by simp)) ?_
  rw [← flatMap_single] at hf' ⊢
  refine runs_then (runs_elems (γ := Str × Lit) (rowsOf := fun m => [metaRow "  " m]) (ok := MetaOk) (Quiet := fun _ => True)
    (Inv := fun done em st => em = [] ∧ ∃ vs : List (Token × Token), st = .aliasMeta { name := ⟨.word, name, p2, k, c2⟩, aliasType := t, metas := vs, comment := docOf doc, line := k } ∧ (vs.map fun m => (m.1.val, m.2.val)) = done.map metaEntry) (fun _ _ _ _ => trivial) ?_ hm (done := []) (em0 := [])
    ⟨rfl, [], rfl, rfl⟩ (by omega) (fun _ => trivial) hf') ?_
  · rintro done em0 st a l rest cm ha ⟨rfl, ms, rfl, hi⟩ hl _ hf
    refine (run_aliasMeta ha hf).mono ?_
    rintro st' es' cm' em ⟨⟨rfl, t, ht, rfl⟩, rfl, h4⟩
    exact ⟨⟨rfl, ms ++ [t], rfl, by simp [hi, ht]⟩, rfl, h4⟩
  · rintro st' es' cm' em ⟨⟨hem, ms, rfl, h1⟩, rfl, h3⟩
    simp only [List.nil_append] at hem
    subst hem
    have hlen : (metas.flatMap fun m => [metaRow "  " m]).length = metas.length := by rw [flatMap_single]; simp
    rw [hlen] at h3 ⊢
    rw [show k + metas.length + 2 = k + 1 + metas.length + 1 by omega]
    refine reads_blank (.aliasMeta _) (by simp) h3 (pre := []) ?_
    simp only [List.nil_append, List.map_cons, List.map_nil, Node.entry, h1, t1]

end Verif.Ridl
