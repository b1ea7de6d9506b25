import Verif.Ridl.ExecItems
/-! # Running the parser over errors, imports, enums, type aliases and structs -/

namespace Verif.Ridl
open Verif.Spec

theorem fresh_row {l : Nat} {row : Str} {rest : List Str} {cm : Comments} {toks : List (TT × Str)} (hp : Piece row toks ['\n'])
    (hf : Fresh l (row :: rest) cm) : Fresh (l + 1) rest cm := fresh_next hf (piece_row hp).2.1

/-! ### Errors -/

theorem digit_start {c : Char} (h : '0' ≤ c ∧ c ≤ '9') : WordStart c := .inl (.inr (.inr h))

theorem digit_end {c : Char} (h : '0' ≤ c ∧ c ≤ '9') : ¬ WordEnd c := by
  intro hc
  unfold WordEnd at hc
  have key : ∀ d ∈ "\x00 \t\r\n[]()<>{}=:¿?¡!,\"".toList, ¬ ('0' ≤ d ∧ d ≤ '9') := by decide
  exact key c hc h

theorem digits_word {s : Str} (h : Digits s) : IsWord s := by
  obtain ⟨hne, h⟩ := h
  cases s with
  | nil => exact absurd rfl hne
  | cons c cs => exact ⟨c, cs, rfl, digit_start (h c (by simp)), fun x hx => digit_end (h x (by simp [hx]))⟩

theorem digit_mem {c : Char} (h : '0' ≤ c ∧ c ≤ '9') : c ∈ "0123456789".toList := by
  obtain ⟨h1, h2⟩ := h
  have a : 48 ≤ c.toNat := h1
  have b : c.toNat ≤ 57 := h2
  have e : c = Char.ofNat c.toNat := (Char.ofNat_toNat c).symm
  generalize c.toNat = n at a b e
  subst e
  have : n = 48 ∨ n = 49 ∨ n = 50 ∨ n = 51 ∨ n = 52 ∨ n = 53 ∨ n = 54 ∨ n = 55 ∨ n = 56 ∨ n = 57 := by omega
  rcases this with rfl | rfl | rfl | rfl | rfl | rfl | rfl | rfl | rfl | rfl <;> decide

theorem digits_number {s : Str} (h : Digits s) (p l c : Nat) : expectNumber ⟨.word, s, p, l, c⟩ s = .ok () := by
  unfold expectNumber
  rw [if_neg (by simp), if_pos]
  rw [List.all_eq_true]
  intro x hx
  simpa using digit_mem (h.2 x hx)

theorem default_newlines {l k : Nat} {v w : Str} {es : List Shape} {cm : Comments} (h : NoBlank es) :
    Runs .default ((.newLine, v, l) :: (.newLine, w, k) :: es) cm (Same .default es cm) := by
  refine runs_goto ?_
  show Ex stDefault _ _ _
  unfold stDefault
  refine ex_cursor fun p c => ?_
  refine ex_pure ⟨.newLine, rfl, ?_⟩
  refine runs_goto ?_
  show Ex (stSkip .newLine) _ _ _
  unfold stSkip
  refine ex_advance ?_
  refine ex_then (R := fun _ es' cm' => es' = es ∧ cm' = cm) ?_ ?_
  · refine ex_loop ?_
    refine ex_cursor fun p c => ?_
    rw [if_pos rfl]
    refine ex_advance (ex_pure ⟨by simp, ?_⟩)
    refine ex_loop ?_
    cases es with
    | nil =>
      refine ex_cursor_nil ?_
      rw [if_neg (by decide)]
      exact ex_pure ⟨rfl, rfl⟩
    | cons e es =>
      obtain ⟨t, w, k⟩ := e
      refine ex_cursor fun p c => ?_
      rw [if_neg (h _ rfl)]
      exact ex_pure ⟨rfl, rfl⟩
  · rintro _ es' cm' ⟨rfl, rfl⟩
    exact ex_pure ⟨_, rfl, runs_refl ⟨rfl, rfl, rfl, rfl⟩⟩

def statusToks : Option Str → List (TT × Str)
  | none => []
  | some s => [(.whitespace, [' ']), (.word, "HTTP".toList), (.whitespace, [' ']), (.word, s)]

theorem word_of (c : Char) (cs : Str) (h : WordStart c ∧ ∀ x ∈ cs, ¬ WordEnd x) : IsWord (c :: cs) := ⟨c, cs, rfl, h⟩

theorem word_http : IsWord "HTTP".toList := by apply word_of; unfold WordStart WordEnd; decide +kernel

theorem ends_nl : Ends ['\n'] := ends_cons (wordEnd_of (by decide))

theorem piece_status {status : Option Str} (h : ∀ s, status = some s → Digits s) : Piece (statusText status) (statusToks status) ['\n'] := by
  cases status with
  | none => exact piece_nil _
  | some s =>
    have hs := digits_word (h s rfl)
    show Piece (" HTTP ".toList ++ s) _ _
    rw [show " HTTP ".toList = ' ' :: "HTTP".toList ++ [' '] from rfl]
    show Piece (' ' :: ("HTTP".toList ++ [' '] ++ s)) _ _
    rw [List.append_assoc]
    refine piece_1 (by rw [List.append_assoc]; exact solid_word word_http) (piece_w word_http (ends_cons (wordEnd_of (by decide))) ?_)
    exact piece_1 (solid_word hs) (piece_word hs ends_nl)

theorem status_ends {status : Option Str} : Ends (statusText status ++ ['\n']) := by
  cases status with
  | none => exact ends_nl
  | some s => exact ends_cons (wordEnd_of (by decide))

def errorRow (code name : Str) (msg : Lit) (status : Option Str) : Str :=
  "error ".toList ++ code ++ [' '] ++ name ++ [' '] ++ msg.text ++ statusText status

theorem reads_error {code name : Str} {msg : Lit} {status : Option Str} (hc : Digits code) (hn : IsWord name) (hm : msg.Word)
    (hs : ∀ s, status = some s → Digits s) {l : Nat} {rest : List Str} {cm : Comments} (hb : ∀ l, NoBlank (layout l rest))
    (hf : Fresh l (errorRow code name msg status :: [] :: rest) cm) :
    (∃ toks, rowToks (errorRow code name msg status) = (.word, "error".toList) :: toks) ∧ RowOK (errorRow code name msg status) ∧
    Reads (layout l (errorRow code name msg status :: [] :: rest)) cm rest (l + 2) [.error code name (some msg.value) status] := by
  have hcw := digits_word hc
  obtain ⟨bt, h1, h2⟩ := piece_wordLit (post := statusText status ++ ['\n']) hm status_ends
  have e : errorRow code name msg status = "error".toList ++ (' ' :: (code ++ (' ' :: (name ++ (' ' :: (msg.text ++ statusText status)))))) := by
    unfold errorRow
    rw [show "error ".toList = "error".toList ++ [' '] from rfl]; simp
  have hp : Piece (errorRow code name msg status) ((.word, "error".toList) :: (.whitespace, [' ']) :: (.word, code) :: (.whitespace, [' ']) :: (.word, name) :: (.whitespace, [' ']) :: (bt ++ statusToks status)) ['\n'] := by
    rw [e]
    refine piece_w (keyword_word .error) (ends_cons (wordEnd_of (by decide))) ?_
    refine piece_1 (by rw [List.append_assoc]; exact solid_word hcw) ?_
    refine piece_w hcw (ends_cons (wordEnd_of (by decide))) ?_
    refine piece_1 (by rw [List.append_assoc]; exact solid_word hn) ?_
    refine piece_w hn (ends_cons (wordEnd_of (by decide))) ?_
    refine piece_1 (by rw [List.append_assoc]; exact wordLit_solid hm _) ?_
    exact piece_append h2 (piece_status hs)
  obtain ⟨r1, r2, r3⟩ := piece_row hp
  refine ⟨⟨_, r1⟩, r3, ?_⟩
  unfold Reads
  rw [layout_cons, r1]
  simp only [lift_cons, List.cons_append]
  refine runs_keyword .error ?_
  refine runs_goto ?_
  show Ex stError _ _ _
  unfold stError
  refine ex_match (vs := [(.word, "error".toList, l), (.whitespace, [' '], l), (.word, code, l), (.whitespace, [' '], l), (.word, name, l), (.whitespace, [' '], l)])
    (es' := lift l (bt ++ statusToks status) ++ (.newLine, ['\n'], l) :: layout (l + 1) ([] :: rest)) rfl (by decide) ?_
  intro vs hvs
  refine ex_nth hvs rfl fun p0 c0 => ?_
  rw [if_neg (by simp)]
  refine ex_nth hvs rfl fun p c => ?_
  dsimp only
  rw [digits_number hc]
  refine ex_nth hvs rfl fun p' c' => ?_
  refine ex_pure ⟨_, rfl, ?_⟩
  have fin : ∀ (msgTok : Token), msgTok.val = msg.value → Runs (.errorStatus { code := ⟨.word, code, p, l, c⟩, name := ⟨.word, name, p', l, c'⟩, message := some msgTok })
      (lift l (statusToks status) ++ (.newLine, ['\n'], l) :: layout (l + 1) ([] :: rest)) cm fun st' es' cm' em =>
        ∃ ns, Pend st' ns ∧ es' = layout (l + 2) rest ∧ Fresh (l + 2) rest cm' ∧ (em ++ ns).map Node.entry = [.error code name (some msg.value) status] := by
    intro msgTok hmt
    have hf' : Fresh (l + 2) rest cm := fresh_next (fresh_next hf r2) (by unfold rowComment; rw [rowToks_nil]; rfl)
    have last : ∀ (n : ErrorNode), (Node.error n).entry = .error code name (some msg.value) status →
        Runs .default ((.newLine, ['\n'], l) :: layout (l + 1) ([] :: rest)) cm fun st' es' cm' em =>
          ∃ ns, Pend st' ns ∧ es' = layout (l + 2) rest ∧ Fresh (l + 2) rest cm' ∧ ((Node.error n :: em) ++ ns).map Node.entry = [.error code name (some msg.value) status] := by
      intro n hn
      rw [layout_cons, rowToks_nil]
      refine (default_newlines (hb _)).mono ?_
      rintro _ _ _ _ ⟨rfl, rfl, rfl, rfl⟩
      exact ⟨[], .default, rfl, hf', by simp [hn]⟩
    refine runs_step ?_
    show Ex (stErrorStatus _) _ _ _
    unfold stErrorStatus
    cases status with
    | none =>
      refine ex_try_fail (by simp [statusToks, matchShape]) (by decide) (by decide) fun _ => ?_
      refine ex_then ex_eol ?_
      rintro _ es' cm' ⟨rfl, rfl⟩
      refine ex_pure ?_
      exact last _ (by simp [Node.entry, hmt])
    | some s =>
      have hds := hs s rfl
      refine ex_try (vs := [(.whitespace, [' '], l), (.word, "HTTP".toList, l)])
        (es' := (.whitespace, [' '], l) :: (.word, s, l) :: (.newLine, ['\n'], l) :: layout (l + 1) ([] :: rest)) rfl (by decide) ?_
      intro vs hvs
      refine ex_nth hvs rfl fun p1 c1 => ?_
      rw [show expectWord ⟨.word, "HTTP".toList, p1, l, c1⟩ "HTTP".toList = .ok () from rfl]
      refine ex_match (vs := [(.whitespace, [' '], l), (.word, s, l)])
        (es' := (.newLine, ['\n'], l) :: layout (l + 1) ([] :: rest)) rfl (by decide) ?_
      intro vs hvs
      refine ex_nth hvs rfl fun p1 c1 => ?_
      dsimp only
      rw [digits_number hds]
      refine ex_then ex_eol ?_
      rintro _ es' cm' ⟨rfl, rfl⟩
      refine ex_pure ?_
      exact last _ (by simp [Node.entry, hmt])
  refine runs_goto ?_
  show Ex (stErrorMessage _) _ _ _
  unfold stErrorMessage
  rw [lift_append, List.append_assoc]
  generalize msg.value = v at h1 fin ⊢
  cases h1 with
  | bare w =>
    simp only [lift_cons, List.cons_append, lift_nil, List.nil_append]
    refine ex_cursor fun p1 c1 => ?_
    refine ex_advance ?_
    exact ex_pure ⟨_, rfl, fin _ rfl⟩
  | quoted hb' hu =>
    simp only [lift_cons, lift_append, List.cons_append, List.append_assoc, lift_nil, List.nil_append]
    refine ex_cursor fun p1 c1 => ?_
    refine ex_then (ex_string hb' hu) ?_
    rintro t es' cm' ⟨t1, t2, rfl, rfl⟩
    exact ex_pure ⟨_, rfl, fin t t1⟩

/-! ### Imports -/

/-- `- ` in front of a row's content. -/
theorem piece_minus {s : Str} {l : List (TT × Str)} (hs : Piece s l ['\n']) (hp : Solid (s ++ ['\n'])) :
    Piece ("  - ".toList ++ s) ((.whitespace, [' ', ' ']) :: (.minusSign, ['-']) :: (.whitespace, [' ']) :: l) ['\n'] := by
  rw [show "  - ".toList = [' ', ' '] ++ ['-', ' '] from rfl, List.append_assoc]
  refine piece_b (by decide) (by decide) (solid_cons (by unfold Blank; decide)) ?_
  exact piece_s rfl (by decide) (by decide) (piece_1 hp hs)

/-- What the rows of an element start with. -/
def Quiet (es : List Shape) : Prop :=
  (∃ v k es', es = (.newLine, v, k) :: es') ∨
  ∃ v k tt w k' es', es = (.whitespace, v, k) :: (tt, w, k') :: es' ∧ (tt = .minusSign ∨ tt = .hash ∨ tt = .at_ ∨ tt = .plusSign)

theorem quiet_blank (l : Nat) (rest : List Str) : Quiet (layout l ([] :: rest)) := by
  rw [layout_cons, rowToks_nil]
  exact .inl ⟨_, _, _, rfl⟩

theorem quiet_row {l : Nat} {row : Str} {rest : List Str} {v : Str} {tt : TT} {w : Str} {toks : List (TT × Str)} (h : rowToks row = (.whitespace, v) :: (tt, w) :: toks)
    (ht : tt = .minusSign ∨ tt = .hash ∨ tt = .at_ ∨ tt = .plusSign) : Quiet (layout l (row :: rest)) := by
  rw [layout_cons, h]
  exact .inr ⟨_, _, _, _, _, _, rfl, ht⟩

theorem quiet_docs {doc : List Str} (hd : ∀ d ∈ doc, DocLine d) {l : Nat} {rest : List Str} (hq : ∀ l, Quiet (layout l rest)) :
    Quiet (layout l (docRows "  " doc ++ rest)) := by
  cases doc with
  | nil => exact hq l
  | cons d doc =>
    obtain ⟨lt, h1, _⟩ := doc_row (ind := [' ', ' ']) (by decide) (hd d (by simp))
    exact quiet_row h1 (.inr (.inl rfl))

theorem flatMap_single {γ δ : Type} (f : γ → δ) (l : List γ) : l.flatMap (fun x => [f x]) = l.map f := by
  induction l with
  | nil => rfl
  | cons x l ih => simp [ih]

theorem path_row {p : Lit} (hp : p.Path) : ∃ bt, LitToks isPath bt p.value ∧
    Piece ("  - ".toList ++ p.text) ((.whitespace, [' ', ' ']) :: (.minusSign, ['-']) :: (.whitespace, [' ']) :: bt) ['\n'] := by
  obtain ⟨bt, h1, h2⟩ := piece_path (post := ['\n']) hp ends_nl
  exact ⟨bt, h1, piece_minus h2 (path_solid hp _)⟩

theorem plain_row {p : Lit} (hp : p.Plain) : ∃ bt, LitToks isPlain bt p.value ∧
    Piece ("  - ".toList ++ p.text) ((.whitespace, [' ', ' ']) :: (.minusSign, ['-']) :: (.whitespace, [' ']) :: bt) ['\n'] := by
  obtain ⟨bt, h1, h2⟩ := piece_plain (post := ['\n']) hp ends_nl
  exact ⟨bt, h1, piece_minus h2 (plain_solid hp _)⟩

/-- The rest of the row has been read: go on to the next row. -/
theorem runs_nl {st : St} {ns : List Node} (h : Pend st ns) (hd : st ≠ .default) {l : Nat} {es : List Shape} {cm : Comments}
    {R : St → List Shape → Comments → List Node → Prop} (hr : R st es cm []) : Runs st ((.newLine, ['\n'], l) :: es) cm R := by
  refine (pend_blank h (.inr rfl) fun e => absurd e hd).mono ?_
  rintro _ _ _ _ ⟨rfl, rfl, rfl, rfl⟩
  exact hr

theorem runs_ws {st : St} {ns : List Node} (h : Pend st ns) (hd : st ≠ .default) {v : Str} {l : Nat} {es : List Shape} {cm : Comments}
    {R : St → List Shape → Comments → List Node → Prop} (hr : Runs st es cm R) : Runs st ((.whitespace, v, l) :: es) cm R :=
  runs_same (pend_blank h (.inl rfl) fun e => absurd e hd) hr

theorem run_importPath {p : Lit} (hp : p.Path) {l : Nat} {rest : List Str} {cm : Comments} (hf : Fresh l ([("  - ".toList ++ p.text)] ++ rest) cm) :
    Runs .importValue (layout l ([("  - ".toList ++ p.text)] ++ rest)) cm fun st' es' cm' em =>
      (st' = .importValue ∧ em.map Node.entry = [.import_ p.value []]) ∧ es' = layout (l + 1) rest ∧ Fresh (l + 1) rest cm' := by
  obtain ⟨bt, h1, h2⟩ := path_row hp
  have hf' := fresh_row h2 hf
  rw [List.singleton_append, layout_cons, (piece_row h2).1]
  simp only [lift_cons, List.cons_append]
  refine runs_ws .importValue (by simp) ?_
  refine runs_step ?_
  show Ex stImportValue _ _ _
  unfold stImportValue
  refine ex_cursor fun p' c => ?_
  refine ex_match (vs := [(.minusSign, ['-'], l), (.whitespace, [' '], l)]) (es' := lift l bt ++ (.newLine, ['\n'], l) :: layout (l + 1) rest) rfl (by decide) ?_
  intro vs hvs
  refine ex_then (ex_path h1 (.inl rfl)) ?_
  rintro t es' cm' ⟨t1, t2, rfl, rfl⟩
  refine ex_pure ?_
  exact runs_nl .importValue (by simp) ⟨⟨rfl, by simp [Node.entry, t1]⟩, rfl, hf'⟩

theorem run_importMember {n : ImportNode} {m : Lit} (hm : m.Plain) {l : Nat} {rest : List Str} {cm : Comments} (hf : Fresh l ([("  - ".toList ++ m.text)] ++ rest) cm) :
    Runs (.importMembers n) (layout l ([("  - ".toList ++ m.text)] ++ rest)) cm fun st' es' cm' em =>
      (em = [] ∧ ∃ t : Token, t.val = m.value ∧ st' = .importMembers { n with members := n.members ++ [t] }) ∧ es' = layout (l + 1) rest ∧ Fresh (l + 1) rest cm' := by
  obtain ⟨bt, h1, h2⟩ := plain_row hm
  have hf' := fresh_row h2 hf
  rw [List.singleton_append, layout_cons, (piece_row h2).1]
  simp only [lift_cons, List.cons_append]
  refine runs_ws (.importMembers n) (by simp) ?_
  refine runs_goto ?_
  show Ex (stImportMembers n) _ _ _
  unfold stImportMembers
  refine ex_cursor fun p' c => ?_
  refine ex_match (vs := [(.minusSign, ['-'], l), (.whitespace, [' '], l)]) (es' := lift l bt ++ (.newLine, ['\n'], l) :: layout (l + 1) rest) rfl (by decide) ?_
  intro vs hvs
  refine ex_then (ex_plain h1 (.inl rfl)) ?_
  rintro t es' cm' ⟨t1, t2, rfl, rfl⟩
  refine ex_pure ⟨_, rfl, ?_⟩
  exact runs_nl (.importMembers _) (by simp) ⟨⟨rfl, t, t1, rfl⟩, rfl, hf'⟩

theorem reads_importFiles {paths : List Lit} (hp : ∀ p ∈ paths, p.Path) {l : Nat} {rest : List Str} {cm : Comments} (hl : 1 ≤ l)
    (hf : Fresh l ("import".toList :: (paths.map fun p => "  - ".toList ++ p.text) ++ [] :: rest) cm) :
    (∃ toks, rowToks "import".toList = (.word, "import".toList) :: toks) ∧ (∀ r ∈ "import".toList :: (paths.map fun p => "  - ".toList ++ p.text), RowOK r) ∧
    Reads (layout l ("import".toList :: (paths.map fun p => "  - ".toList ++ p.text) ++ [] :: rest)) cm rest (l + paths.length + 2)
      (paths.map fun p => .import_ p.value []) := by
  have h0 : Piece "import".toList [(.word, "import".toList)] ['\n'] := piece_word (keyword_word .import_) ends_nl
  obtain ⟨r1, r2, r3⟩ := piece_row h0
  refine ⟨⟨_, r1⟩, ?_, ?_⟩
  · intro r hr
    rcases List.mem_cons.1 hr with rfl | hr
    · exact r3
    · obtain ⟨p, hpm, rfl⟩ := List.mem_map.1 hr
      obtain ⟨bt, _, g⟩ := path_row (hp p hpm)
      exact (piece_row g).2.2
  unfold Reads
  rw [List.cons_append] at hf ⊢
  have hf' := fresh_next hf r2
  rw [layout_cons, r1]
  simp only [lift_cons, List.cons_append, lift_nil, List.nil_append]
  refine runs_keyword .import_ ?_
  refine runs_goto ?_
  show Ex stImport _ _ _
  unfold stImport
  refine ex_try (vs := [(.word, "import".toList, l), (.eol, [], l)]) rfl (by decide) ?_
  intro vs hvs
  refine ex_nth hvs rfl fun p c => ?_
  rw [show expectWord ⟨.word, "import".toList, p, l, c⟩ "import".toList = .ok () from rfl]
  refine ex_pure ⟨_, rfl, ?_⟩
  refine runs_same (pend_blank .importValue (.inr rfl) (by simp)) ?_
  rw [← flatMap_single] at hf' ⊢
  refine runs_then (runs_elems (γ := Lit) (rowsOf := fun p => ["  - ".toList ++ p.text]) (ok := Lit.Path) (Quiet := fun _ => True)
    (Inv := fun done em st => st = .importValue ∧ em.map Node.entry = done.map fun p => Entry.import_ p.value []) (fun _ _ _ _ => trivial) ?_ hp (done := []) (em0 := [])
    ⟨rfl, rfl⟩ (by omega) (fun _ => trivial) hf') ?_
  · rintro done em0 st a l rest cm ha ⟨rfl, hi⟩ hl _ hf
    refine (run_importPath ha hf).mono ?_
    rintro st' es' cm' em ⟨⟨rfl, h2⟩, rfl, h4⟩
    exact ⟨⟨rfl, by simp [hi, h2]⟩, rfl, h4⟩
  · rintro st' es' cm' em ⟨⟨rfl, h1⟩, rfl, h3⟩
    have hlen : (paths.flatMap fun p => ["  - ".toList ++ p.text]).length = paths.length := by rw [flatMap_single]; simp
    rw [hlen] at h3 ⊢
    have := reads_blank .importValue (by simp) h3 (pre := em) (entries := paths.map fun p => Entry.import_ p.value []) (by simpa using h1)
    rw [show l + paths.length + 2 = l + 1 + paths.length + 1 by omega]
    exact this

end Verif.Ridl
