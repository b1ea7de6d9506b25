import Verif.Ridl.RdRun
import Verif.Ridl.GrammarLemmas
import Verif.Props.Lexing

/-! # C111: nothing is declared that is not written -/

namespace Verif.Props
open Verif.Ridl
open Verif.Spec hiding advance
open Verif.Spec.Grammar

/-- **C111.** What an accepted document declares is what its tokens say, by the grammar. -/
theorem C111_grammar {src : Str} {ds : List Node} {l : List Lexeme} (h : parseDoc src = .ok ds) (hl : Segments src l) :
    Doc l (ds.map Node.entry) := by
  unfold parseDoc at h
  obtain ⟨ts, h1, h2⟩ := tokenize_ok src
  have hnp : newParser src = some { tokens := ts, comments := (ts.foldl tokenizeStep {}).lineComments } := by
    simp [newParser, h1]
  rw [hnp] at h
  have hlaw : PS.Law { tokens := ts, comments := (ts.foldl tokenizeStep {}).lineComments } := ?_
  · obtain ⟨es, h3, h4⟩ := rd_run _ .default _ [] ds hlaw trivial h
    have : l = ts.map lx := segments_unique hl h2.seg
    subst this
    simp only [List.map_nil, List.nil_append] at h3
    rw [h3]
    exact h4
  · refine ⟨Nat.zero_le _, fun t ht => ?_⟩
    obtain ⟨post, hp⟩ := segments_mem h2.seg (t.tt, t.val) (List.mem_map_of_mem ht)
    dsimp only at hp
    generalize t.val = v at hp
    refine ⟨fun he => ?_, fun he => ?_⟩ <;> rw [he] at hp <;> cases hp <;> rename_i hs <;> unfold Spec.symbol at hs <;> split at hs <;> simp at hs

/-- Every text has tokens. -/
theorem C111_tokens (src : Str) : ∃ l, Segments src l := by
  obtain ⟨ts, -, h2⟩ := tokenize_ok src
  exact ⟨_, h2.seg⟩

/-- Every declared error is written: `error`, a number, its name, a message, and, if it has a status, `HTTP` and that number. -/
theorem C111_errors {src : Str} {ds : List Node} {l : List Lexeme} (h : parseDoc src = .ok ds) (hl : Segments src l)
    {code name : Str} {msg st : Option Str} (he : .error code name msg st ∈ ds.map Node.entry) :
    ∃ pre g1 g2 g3 i m j r, l = pre ++ (.word, "error".toList) :: (g1 ++ (.word, code) :: (g2 ++ (.word, name) :: (g3 ++ i))) ∧
      Gap g1 ∧ Gap g2 ∧ Gap g3 ∧ AllDigits code ∧ Message i m j ∧ msg = some m ∧
      ∀ s, st = some s → AllDigits s ∧ ∃ g4 g5, Gap g4 ∧ Gap g5 ∧ j = g4 ++ (.word, "HTTP".toList) :: (g5 ++ (.word, s) :: r) := by
  obtain ⟨pre, i, d, r, rfl, hd, hm⟩ := (C111_grammar h hl).mem he
  cases hd with
  | imports he h => simp at hm
  | @error code name g1 g2 g3 i j k r' _ _ hc h1 h2 h3 hm' hs he =>
    simp only [List.mem_singleton, Entry.error.injEq] at hm
    obtain ⟨rfl, rfl, rfl, rfl⟩ := hm
    cases hs with
    | none => exact ⟨pre, g1, g2, g3, _, _, _, r, rfl, h1, h2, h3, hc, hm', rfl, by simp⟩
    | some n g4 g5 _ h4 h5 hn =>
      refine ⟨pre, g1, g2, g3, _, _, _, k, rfl, h1, h2, h3, hc, hm', rfl, ?_⟩
      rintro s hs
      cases hs
      exact ⟨hn, g4, g5, h4, h5, rfl⟩
  | _ => simp at hm

/-- Every declared struct is written, and so is each of its fields, with its type and with `?` just when it is optional. -/
theorem C111_fields {src : Str} {ds : List Node} {l : List Lexeme} (h : parseDoc src = .ok ds) (hl : Segments src l)
    {doc name : Str} {fs : List FieldEntry} (he : .struct doc name fs ∈ ds.map Node.entry) :
    ∃ pre g body, l = pre ++ (.word, "struct".toList) :: (g ++ (.word, name) :: body) ∧ Gap g ∧
      ∀ f ∈ fs, ∃ pre' m c g1 g2 j k t v, body = pre' ++ (.minusSign, m) :: (g1 ++ (.word, f.name) :: j) ∧ Gap g1 ∧
        Mark j f.optional ((.colon, c) :: (g2 ++ k)) ∧ Gap g2 ∧ TypeE k v t ∧ f.value = some v := by
  obtain ⟨pre, i, d, r, rfl, hd, hm⟩ := (C111_grammar h hl).mem he
  cases hd with
  | imports he h => simp at hm
  | struct name doc g hg hf =>
    simp only [List.mem_singleton, Entry.struct.injEq] at hm
    obtain ⟨rfl, rfl, rfl⟩ := hm
    exact ⟨pre, g, _, rfl, hg, fun f hfm => hf.mem hfm⟩
  | _ => simp at hm

/-- Every declared enum is written: `enum`, its name, a colon and its type. -/
theorem C111_enums {src : Str} {ds : List Node} {l : List Lexeme} (h : parseDoc src = .ok ds) (hl : Segments src l)
    {doc name type : Str} {ms : List FieldEntry} (he : .enum doc name type ms ∈ ds.map Node.entry) :
    ∃ pre g1 g2 c post, l = pre ++ (.word, "enum".toList) :: (g1 ++ (.word, name) :: (.colon, c) :: (g2 ++ (.word, type) :: post)) ∧
      Gap g1 ∧ Gap g2 := by
  obtain ⟨pre, i, d, r, rfl, hd, hm⟩ := (C111_grammar h hl).mem he
  cases hd with
  | imports he h => simp at hm
  | enum name c type doc g1 g2 h1 h2 he hr =>
    simp only [List.mem_singleton, Entry.enum.injEq] at hm
    obtain ⟨rfl, rfl, rfl, rfl⟩ := hm
    exact ⟨pre, g1, g2, c, _, rfl, h1, h2⟩
  | _ => simp at hm

/-- Every method of a declared service is written behind the name of the service. -/
theorem C111_methods {src : Str} {ds : List Node} {l : List Lexeme} (h : parseDoc src = .ok ds) (hl : Segments src l)
    {doc name : Str} {ms : List MethodEntry} (he : .service doc name ms ∈ ds.map Node.entry) :
    ∃ pre g i body, l = pre ++ (.word, "service".toList) :: (g ++ i) ∧ Gap g ∧ Value i name body ∧
      ∀ m ∈ ms, ∃ pre' anns j r, body = pre' ++ j ∧ MethodRow anns j m r := by
  obtain ⟨pre, i, d, r, rfl, hd, hm⟩ := (C111_grammar h hl).mem he
  cases hd with
  | imports he h => simp at hm
  | service doc g hg hn he hr =>
    simp only [List.mem_singleton, Entry.service.injEq] at hm
    obtain ⟨rfl, rfl, rfl⟩ := hm
    refine ⟨pre, g, _, _, rfl, hg, hn, fun m hmm => ?_⟩
    obtain ⟨pre', as, j, k, rfl, hk⟩ := hr.mem hmm
    obtain ⟨u, rfl⟩ := he.suf
    exact ⟨u ++ pre', as, j, k, by simp, hk⟩
  | _ => simp at hm

theorem string_open (n : Nat) (A B C : List Token) (acc : List Token) (p : PS) (ht : p.tokens = A ++ (B ++ C)) (hp : p.pos = A.length)
    (hB : ∀ t ∈ B, t.tt ∉ [.quote, .backslash, .newLine, .eof]) (hf : B.length < n) :
    (C = [] → (loopN stringBody n acc p).1 = .err .unexpectedEOF) ∧
      ∀ e D, C = e :: D → e.tt = .newLine → (loopN stringBody n acc p).1 = .err .unexpectedEOL := by
  induction n generalizing A B acc p with
  | zero => omega
  | succ n ih =>
    cases B with
    | nil =>
      refine ⟨?_, ?_⟩
      · rintro rfl
        have hc : p.cursor = eofToken := by simp [PS.cursor, ht, hp]
        have h1 : advance p = (.ok false, p) := by simp [Ridl.advance, ht, hp]
        have h2 : stringBody acc p = (.err .unexpectedEOF, p) := by
          unfold stringBody
          rw [bind_ok (cursor_eq p), bind_ok h1, hc]
          rfl
        simp only [loopN, P.bind, h2]
      · rintro e D rfl he
        have h1 : p.tokens = A ++ e :: D := ht
        have h2 : stringBody acc p = (.err .unexpectedEOL, { p with pos := p.pos + 1 }) := by
          unfold stringBody
          rw [bind_ok (cursor_eq p), bind_ok (advance_at h1 hp), cursor_at h1 hp]
          simp only [he]; rfl
        simp only [loopN, P.bind, h2]
    | cons t B =>
      have ht' : p.tokens = A ++ t :: (B ++ C) := ht
      have hti := hB t (by simp)
      have h1 : stringBody acc p = (.ok (.inl (acc ++ [t])), { p with pos := p.pos + 1 }) := by
        unfold stringBody
        rw [bind_ok (cursor_eq p), bind_ok (advance_at ht' hp), cursor_at ht' hp]
        simp only [List.mem_cons, List.not_mem_nil, or_false, not_or] at hti
        obtain ⟨h1, h2, h3, h4⟩ := hti
        cases htt : t.tt <;> first | contradiction | rfl
      simp only [loopN, P.bind, h1, loopK]
      exact ih (A ++ [t]) B (acc ++ [t]) { p with pos := p.pos + 1 } (by simp [ht]) (by simp [hp]) (fun x hx => hB x (by simp [hx]))
        (by simp at hf; omega)

/-- C06: a string that is not closed is an error, which tells whether the line or the document ended too early. -/
theorem C06_unterminated (A B : List Token) (q : Token) (cm : Comments) (hq : q.tt = .quote)
    (hB : ∀ t ∈ B, t.tt ∉ [.quote, .backslash, .newLine, .eof]) :
    (expectStringValue { tokens := A ++ q :: B, pos := A.length, comments := cm }).1 = .err .unexpectedEOF ∧
      ∀ e D, e.tt = .newLine →
        (expectStringValue { tokens := A ++ q :: (B ++ e :: D), pos := A.length, comments := cm }).1 = .err .unexpectedEOL := by
  have key : ∀ C, expectStringValue { tokens := A ++ q :: (B ++ C), pos := A.length, comments := cm } =
      P.bind (loop stringBody []) composedValue { tokens := A ++ q :: (B ++ C), pos := A.length + 1, comments := cm } := by
    intro C
    unfold expectStringValue
    rw [bind_ok (cursor_eq _), bind_ok (advance_at (A := A) rfl rfl), cursor_at (A := A) rfl rfl, if_neg (by simp [hq])]
    rfl
  have hfail : ∀ (m : P (List Token)) p e, (m p).1 = .err e → (P.bind m composedValue p).1 = .err e := by
    intro m p e h
    unfold P.bind
    rcases hm : m p with ⟨o, p'⟩
    rw [hm] at h
    dsimp only at h
    subst h
    rfl
  refine ⟨?_, fun e D he => ?_⟩
  · have := key []
    rw [List.append_nil] at this
    rw [this]
    exact hfail _ _ _ ((string_open _ (A ++ [q]) B [] [] _ (by simp) (by simp) hB (by simp; omega)).1 rfl)
  · rw [key]
    exact hfail _ _ _ ((string_open _ (A ++ [q]) B (e :: D) [] _ (by simp) (by simp) hB (by simp; omega)).2 e D rfl he)

def failure (s : String) : Option PErr := match parseDoc s.toList with | .err _ _ _ e => some e | _ => none

example : failure "name = \"abc\n" = some .unexpectedEOL := by decide +kernel
example : failure "name = \"abc" = some .unexpectedEOF := by decide +kernel

/-! A document that is accepted, and one whose error has a status that does not follow the word `HTTP`. -/

def accepts (s : String) : Bool := match parseDoc s.toList with | .ok _ => true | _ => false

example : accepts "error 1 Foo \"msg\" HTTP 404\n\nenum Kind: uint32\n  - A\n  - B = 2\n\nstruct S\n  - a?: map<string,[]int>\n    + x.y = z\n\nservice Svc\n  @auth:\"x\" @b\n  - stream A(a: string, b?: S) => stream (c: S) errors Foo\n  - B() => (c: int)\n" = true := by
  decide +kernel

example : accepts "error 1 Foo \"msg\" XTTP 404\n" = false := by decide +kernel
example : accepts "error 1a Foo \"msg\"\n" = false := by decide +kernel
example : accepts "struct S\n  - a int\n" = false := by decide +kernel

end Verif.Props
