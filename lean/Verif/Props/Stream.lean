import Verif.Spec.Stream
import Verif.Props.Rpc
/-!
# C55, C56: streams
-/

namespace Verif.Props
open Verif.Schema hiding Json Method
open Verif.Json Verif.Gen Verif.Rpc Verif.RpcSpec

/-! ### Lines -/

theorem fold_content (t : Str) (a : List Str) (b : Str) (hb : '\n' ∉ b) :
    t.foldl contentStep (a, b) = (a ++ (content (b ++ t)).1, (content (b ++ t)).2) := by
  have base : ∀ (b : Str) (a : List Str) (p : Str), '\n' ∉ b → b.foldl contentStep (a, p) = (a, p ++ b) := by
    intro b
    induction b with
    | nil => simp
    | cons c b ih =>
      intro a p hb
      have h1 : c ≠ '\n' := by rintro rfl; simp at hb
      rw [List.foldl_cons, contentStep, if_neg h1, ih _ _ (by intro h; exact hb (by simp [h]))]
      simp
  have key : ∀ (t : Str) (a : List Str) (b : Str), t.foldl contentStep (a, b) =
      (a ++ (t.foldl contentStep ([], b)).1, (t.foldl contentStep ([], b)).2) := by
    intro t
    induction t with
    | nil => simp
    | cons c t ih =>
      intro a b
      rw [List.foldl_cons, List.foldl_cons]
      have e : ∀ a, contentStep (a, b) c = if c = '\n' then (if b = [] then a else a ++ [b], []) else (a, b ++ [c]) := fun _ => rfl
      rw [e, e]
      split
      · split
        · rw [ih a []]
        · rw [ih (a ++ [b]), ih ([] ++ [b])]; simp
      · rw [ih a]
  unfold content
  rw [List.foldl_append, base b [] [] hb, List.nil_append, key]

theorem content_snoc (t : Str) (c : Char) : content (t ++ [c]) = contentStep (content t) c := by
  unfold content; rw [List.foldl_append]; rfl

theorem content_none {t : Str} (h : '\n' ∉ t) : content t = ([], t) := by
  have := fold_content [] [] t h
  rw [List.append_nil] at this
  simp only [List.foldl_nil, List.nil_append] at this
  exact this.symm

theorem content_line {l t : Str} (h : '\n' ∉ l) :
    content (l ++ '\n' :: t) = (if l = [] then (content t).1 else l :: (content t).1, (content t).2) := by
  have h1 : content (l ++ '\n' :: t) = ('\n' :: t).foldl contentStep (content l) := by unfold content; rw [List.foldl_append]
  rw [h1, content_none h, List.foldl_cons, contentStep, if_pos rfl]
  dsimp only
  rw [fold_content _ _ [] (by simp)]
  simp only [List.nil_append]
  split <;> rfl

theorem splitLine_some {b l r : Str} (h : splitLine b = some (l, r)) : ∃ x, l = x ++ ['\n'] ∧ '\n' ∉ x ∧ b = l ++ r := by
  induction b generalizing l r with
  | nil => cases h
  | cons c b ih =>
    rw [splitLine] at h
    split at h
    · rename_i hc
      cases h
      exact ⟨[], by rw [hc]; rfl, by simp, rfl⟩
    · rename_i hc
      cases hs : splitLine b with
      | none => rw [hs] at h; cases h
      | some p =>
        rw [hs] at h
        cases h
        obtain ⟨x, h1, h2, h3⟩ := ih hs
        refine ⟨c :: x, by simp [h1], ?_, by rw [List.cons_append, ← h3]⟩
        intro hm
        rcases List.mem_cons.1 hm with hm | hm
        · exact hc hm.symm
        · exact h2 hm

theorem splitLine_none {b : Str} (h : splitLine b = none) : '\n' ∉ b := by
  induction b with
  | nil => simp
  | cons c b ih =>
    rw [splitLine] at h
    split at h
    · cases h
    · rename_i hc
      cases hs : splitLine b with
      | some p => rw [hs] at h; cases h
      | none =>
        intro hm
        rcases List.mem_cons.1 hm with hm | hm
        · exact hc hm.symm
        · exact ih hs hm

theorem readBytes_none {b : Str} {cs : List Str} (h : readBytes b cs = none) : '\n' ∉ b ++ cs.flatten := by
  induction cs generalizing b with
  | nil =>
    rw [readBytes] at h
    simpa using splitLine_none (Option.map_eq_none_iff.1 h)
  | cons c cs ih =>
    rw [readBytes] at h
    cases hs : splitLine b with
    | some p => rw [hs] at h; cases h
    | none =>
      rw [hs] at h
      simpa [List.append_assoc] using ih h

theorem readBytes_some {b l b' : Str} {cs cs' : List Str} (h : readBytes b cs = some (l, b', cs')) :
    ∃ x, l = x ++ ['\n'] ∧ '\n' ∉ x ∧ b ++ cs.flatten = l ++ (b' ++ cs'.flatten) := by
  induction cs generalizing b with
  | nil =>
    rw [readBytes] at h
    obtain ⟨p, h1, h2⟩ := Option.map_eq_some_iff.1 h
    cases h2
    obtain ⟨x, a1, a2, a3⟩ := splitLine_some h1
    exact ⟨x, a1, a2, by rw [a3]; simp⟩
  | cons c cs ih =>
    rw [readBytes] at h
    cases hs : splitLine b with
    | some p =>
      rw [hs] at h
      cases h
      obtain ⟨x, a1, a2, a3⟩ := splitLine_some hs
      exact ⟨x, a1, a2, by rw [a3, List.append_assoc]⟩
    | none =>
      rw [hs] at h
      obtain ⟨x, a1, a2, a3⟩ := ih h
      exact ⟨x, a1, a2, by rw [← a3]; simp⟩

/-! ### The reader -/

/-- What can still be read. -/
def StreamReader.text (r : StreamReader) : Str := r.buf ++ r.chunks.flatten

theorem size_text (r : StreamReader) : r.size = (StreamReader.text r).length := by
  unfold StreamReader.size StreamReader.text
  rw [List.length_append, List.length_flatten]

/-- Reading a line, without the context being done. -/
theorem read_spec {α : Type} (dec : Json → Option α) (n : Nat) (r : StreamReader) (hn : r.size < n) (ha : r.abort = none) :
    ((content (StreamReader.text r)).1 = [] → ∃ r', r.read dec n = some (.error (handleReadError r.ending), r')) ∧
    (∀ l ls, (content (StreamReader.text r)).1 = l :: ls → ∃ r', r'.abort = none ∧ r'.ending = r.ending ∧
      content (StreamReader.text r') = (ls, (content (StreamReader.text r)).2) ∧
      r.read dec n = match decodeLine dec (l ++ ['\n']) with
        | none => some (.error (errBadResponse.withCause (S "reading stream: ")), r'.close)
        | some o => some (.ok o, r')) := by
  induction n generalizing r with
  | zero => omega
  | succ n ih =>
    rw [size_text] at hn
    have hr : r.read dec (n + 1) = match readBytes r.buf r.chunks with
      | none => some (.error (handleReadError r.ending), { r with buf := [], chunks := [] }.close)
      | some (line, buf, chunks) =>
        if line = ['\n'] then ({ r with buf := buf, chunks := chunks } : StreamReader).read dec n
        else match decodeLine dec line with
          | none => some (.error (errBadResponse.withCause (S "reading stream: ")), ({ r with buf := buf, chunks := chunks } : StreamReader).close)
          | some o => some (.ok o, { r with buf := buf, chunks := chunks }) := by
      rw [StreamReader.read, ha]
      simp only [reduceCtorEq, if_false, Option.map_none]
      rcases r with ⟨b, c, e, a⟩
      cases ha
      rfl
    rw [hr]
    cases hb : readBytes r.buf r.chunks with
    | none =>
      have := content_none (readBytes_none hb)
      have h0 : content (StreamReader.text r) = ([], StreamReader.text r) := this
      rw [h0]
      exact ⟨fun _ => ⟨_, rfl⟩, fun l ls h => by cases h⟩
    | some p =>
      obtain ⟨line, b', cs'⟩ := p
      obtain ⟨x, h1, h2, h3⟩ := readBytes_some hb
      have ht : StreamReader.text r = x ++ '\n' :: (b' ++ cs'.flatten) := by
        unfold StreamReader.text; rw [h3, h1]; simp
      have hc := content_line (t := b' ++ cs'.flatten) h2
      rw [← ht] at hc
      dsimp only
      by_cases hx : x = []
      · subst hx
        rw [if_pos (by rw [h1]; rfl)]
        rw [if_pos rfl] at hc
        have hlen : (StreamReader.text r).length = 1 + (b' ++ cs'.flatten).length := by rw [ht]; simp; omega
        have := ih { r with buf := b', chunks := cs' } (by rw [size_text]; unfold StreamReader.text; dsimp only; omega) ha
        rw [hc]
        exact this
      · rw [if_neg (by rw [h1]; intro h; apply hx; cases x with | nil => rfl | cons a x => simp at h)]
        rw [if_neg hx] at hc
        rw [hc]
        refine ⟨fun h => (by cases h), ?_⟩
        rintro l ls ⟨rfl, rfl⟩
        exact ⟨{ r with buf := b', chunks := cs' }, ha, rfl, rfl, by rw [h1]⟩

/-- The lines that decode. -/
def decodeLines {α : Type} (dec : Json → Option α) (ls : List Str) : Option (List (LineOut α)) :=
  ls.mapM fun l => decodeLine dec (l ++ ['\n'])

/-- What `Read` returns for a line. -/
def lineResult {α : Type} (o : LineOut α) : ReadResult α := ⟨o.message, o.error⟩

/-- **C56**: whatever the text and however it arrives in pieces, `Read` returns one result for each line that is not
empty, in order, up to the first line that is not what is expected; the next `Read` returns a bad-response error if
there is such a line, else the error that says how the body ended. -/
theorem C56_reads_partial {α : Type} (dec : Json → Option α) (chunks : List Str) (ending : Ending) (good rest : List Str)
    (h : (content chunks.flatten).1 = good ++ rest) (outs : List (LineOut α))
    (hg : Pointwise (fun l o => decodeLine dec (l ++ ['\n']) = some o) good outs) :
    (connect chunks ending).reads dec outs.length = some (outs.map lineResult) ∧
    (rest = [] → (connect chunks ending).reads dec (outs.length + 1) =
      some (outs.map lineResult ++ [readError (handleReadError ending)])) ∧
    (∀ l, rest.head? = some l → decodeLine dec (l ++ ['\n']) = none →
      ∃ cause, (connect chunks ending).reads dec (outs.length + 1) =
        some (outs.map lineResult ++ [readError (errBadResponse.withCause cause)])) := by
  have key : ∀ (r : StreamReader), r.abort = none → (content (StreamReader.text r)).1 = good ++ rest →
      r.reads dec outs.length = some (outs.map lineResult) ∧
      (rest = [] → r.reads dec (outs.length + 1) = some (outs.map lineResult ++ [readError (handleReadError r.ending)])) ∧
      (∀ l, rest.head? = some l → decodeLine dec (l ++ ['\n']) = none →
        ∃ cause, r.reads dec (outs.length + 1) = some (outs.map lineResult ++ [readError (errBadResponse.withCause cause)])) := by
    clear h
    induction hg with
    | nil =>
      intro r ha hc
      obtain ⟨h1, h2⟩ := read_spec dec (r.size + 1) r (by omega) ha
      refine ⟨rfl, ?_, ?_⟩
      · rintro rfl
        obtain ⟨r', hr⟩ := h1 hc
        simp only [StreamReader.reads, StreamReader.Read, hr, List.length_nil, Option.map_some]
        rfl
      · intro l hl hd
        cases rest with
        | nil => cases hl
        | cons l' ls =>
          cases hl
          obtain ⟨r', -, -, -, hr⟩ := h2 l ls hc
          rw [hd] at hr
          refine ⟨S "reading stream: ", ?_⟩
          simp only [StreamReader.reads, StreamReader.Read, hr, List.length_nil, Option.map_some]
          rfl
    | @cons l o good' outs' hlo _ ih =>
      intro r ha hc
      obtain ⟨-, h2⟩ := read_spec dec (r.size + 1) r (by omega) ha
      obtain ⟨r', a1, a2, a3, a4⟩ := h2 l (good' ++ rest) hc
      rw [hlo] at a4
      have hR : r.Read dec = some (lineResult o, r') := by unfold StreamReader.Read; rw [a4]; rfl
      obtain ⟨b1, b2, b3⟩ := ih r' a1 (by rw [a3])
      refine ⟨?_, ?_, ?_⟩
      · rw [List.length_cons, StreamReader.reads, hR]
        dsimp only
        rw [b1]; rfl
      · intro hrest
        rw [List.length_cons, StreamReader.reads, hR]
        dsimp only
        rw [b2 hrest, a2]; rfl
      · intro x hx hd
        obtain ⟨cause, hc'⟩ := b3 x hx hd
        refine ⟨cause, ?_⟩
        rw [List.length_cons, StreamReader.reads, hR]
        dsimp only
        rw [hc']; rfl
  exact key (connect chunks ending) rfl h

/-! ### Lines of JSON -/

theorem escape_no_nl (html : Bool) (s : Str) : '\n' ∉ escape html s := by
  unfold escape
  intro h
  obtain ⟨c, -, hc⟩ := List.mem_flatMap.1 h
  have hex : ∀ n, hexDigit n ≠ '\n' := by
    intro n
    unfold hexDigit
    by_cases hn : n < 16
    · have : ∀ m : Fin 16, "0123456789abcdef".toList.getD m.1 '0' ≠ '\n' := by decide
      exact this ⟨n, hn⟩
    · rw [List.getD_eq_getElem?_getD, List.getElem?_eq_none (by show 16 ≤ n; omega)]; decide
  unfold escChar at hc
  split at hc; · revert hc; decide
  split at hc; · revert hc; decide
  split at hc; · revert hc; decide
  split at hc; · revert hc; decide
  split at hc; · revert hc; decide
  split at hc; · revert hc; decide
  split at hc; · revert hc; decide
  rename_i h5 h6 h7
  split at hc
  · unfold hex4 at hc
    simp only [List.mem_cons, List.not_mem_nil, or_false] at hc
    rcases hc with hc | hc | hc | hc | hc | hc
    · revert hc; decide
    · revert hc; decide
    all_goals exact hex _ hc.symm
  · simp only [List.mem_cons, List.not_mem_nil, or_false] at hc
    exact h5 hc.symm

theorem num_no_nl {t : Str} (h : NumText t) : '\n' ∉ t := by
  obtain ⟨sign, int, frac, exp, rfl, h1, h2, h3, h4⟩ := h.parts
  have dig : ∀ l : Str, (∀ c ∈ l, c ∈ "0123456789".toList) → '\n' ∉ l := by
    intro l hl hm
    have := hl _ hm
    revert this; decide
  simp only [List.mem_append, not_or]
  refine ⟨?_, ?_, ?_, ?_⟩
  · rcases h1 with rfl | rfl <;> decide
  · rcases h2 with rfl | ⟨-, h, -⟩
    · decide
    · exact dig _ h
  · rcases h3 with rfl | ⟨ds, rfl, -, h⟩
    · decide
    · intro hm
      rcases List.mem_cons.1 hm with hm | hm
      · revert hm; decide
      · exact dig _ h hm
  · rcases h4 with rfl | ⟨e, sgn, ds, rfl, he, hs, -, h⟩
    · decide
    · intro hm
      rcases List.mem_cons.1 hm with hm | hm
      · rcases he with rfl | rfl <;> revert hm <;> decide
      · rcases List.mem_append.1 hm with hm | hm
        · rcases hs with rfl | rfl | rfl <;> revert hm <;> decide
        · exact dig _ h hm

mutual
/-- Compact JSON has no newline. -/
theorem print_no_nl (html : Bool) (d : Nat) : ∀ j : Json, Nums j → '\n' ∉ print ⟨false, html⟩ d j
  | .null, _ => by rw [print]; decide
  | .bool true, _ => by rw [print]; decide
  | .bool false, _ => by rw [print]; decide
  | .num t, h => by rw [print]; rw [Nums] at h; exact num_no_nl h
  | .str raw, h => by
    rw [print]
    rw [Nums] at h
    obtain ⟨ht, s, rfl⟩ := h
    have := escape_no_nl ht s
    simp [this]
  | .arr [], _ => by rw [print]; decide
  | .arr (j :: l), h => by
    rw [print]
    rw [Nums, NumsList] at h
    have h1 := print_no_nl html (d + 1) j h.1
    have h2 := printElems_no_nl html d l h.2
    simp [nl, h1, h2]
  | .obj [], _ => by rw [print]; decide
  | .obj ((k, j) :: l), h => by
    rw [print]
    rw [Nums, NumsMembers] at h
    have h1 := print_no_nl html (d + 1) j h.1
    have h2 := printMembers_no_nl html d l h.2
    have h3 := escape_no_nl html k
    have h4 : '\n' ∉ quote html k := by unfold quote; unfold escape at h3; simp only [List.mem_cons, List.mem_append, not_or]; exact ⟨by decide, h3, by decide⟩
    simp [nl, colon, h1, h2, h4]
/-- Compact JSON has no newline. -/
theorem printElems_no_nl (html : Bool) (d : Nat) : ∀ l : List Json, NumsList l → '\n' ∉ printElems ⟨false, html⟩ d l
  | [], _ => by rw [printElems]; simp [nl]
  | j :: l, h => by
    rw [printElems]
    rw [NumsList] at h
    have h1 := print_no_nl html (d + 1) j h.1
    have h2 := printElems_no_nl html d l h.2
    simp [nl, h1, h2]
/-- Compact JSON has no newline. -/
theorem printMembers_no_nl (html : Bool) (d : Nat) :
    ∀ l : List (Str × Json), NumsMembers l → '\n' ∉ printMembers ⟨false, html⟩ d l
  | [], _ => by rw [printMembers]; simp [nl]
  | (k, j) :: l, h => by
    rw [printMembers]
    rw [NumsMembers] at h
    have h1 := print_no_nl html (d + 1) j h.1
    have h2 := printMembers_no_nl html d l h.2
    have h3 := escape_no_nl html k
    have h4 : '\n' ∉ quote html k := by unfold quote; unfold escape at h3; simp only [List.mem_cons, List.mem_append, not_or]; exact ⟨by decide, h3, by decide⟩
    simp [nl, colon, h1, h2, h4]
end

/-- The text of a document. -/
def lineOf (j : Json) : Str := print ⟨false, true⟩ 0 j

theorem jsonLine_eq (j : Json) : jsonLine j = lineOf j ++ ['\n'] := rfl

theorem nums_message {j : Json} (h : Nums j) : Nums (messageJson j) := by
  unfold messageJson; rw [Nums, NumsMembers, NumsMembers]; exact ⟨h, trivial⟩

theorem nums_error (e : RpcError) : Nums (errorJson e) := by
  unfold errorJson; rw [Nums, NumsMembers, NumsMembers]; exact ⟨ints_error e, trivial⟩

theorem lineOf_obj (k : Str) (j : Json) (l : List (Str × Json)) : lineOf (.obj ((k, j) :: l)) ≠ [] := by
  unfold lineOf; rw [print]; simp

theorem decode_message {α : Type} {enc : α → Option Json} {dec : Json → Option α} (hc : Codec enc dec) {m : α} {j : Json}
    (h : enc m = some j) : decodeLine dec (lineOf (messageJson j) ++ ['\n']) = some ⟨some m, none⟩ := by
  unfold decodeLine lineOf
  rw [parse_printed ⟨false, true⟩ _ (nums_message (hc.nums m j h)) ['\n'] (by decide)]
  unfold messageJson
  have hf : fieldFor [S "message", S "webrpcError"] (S "message") = some (S "message") := by decide
  have hd := hc.decodes m j h
  have hs : (⟨none, none⟩ : LineOut α).setMember dec (S "message") j = some ⟨some m, none⟩ := by
    unfold LineOut.setMember
    rw [hf]
    dsimp only
    rw [if_pos rfl]
    cases j with
    | null => exact absurd h (hc.notNull m)
    | _ => dsimp only; rw [hd]; rfl
  show LineOut.setMembers dec ⟨none, none⟩ [(S "message", j)] = _
  rw [LineOut.setMembers, hs]
  rfl

theorem decode_error {α : Type} (dec : Json → Option α) {e : RpcError} (h : Representable e) :
    decodeLine dec (lineOf (errorJson e) ++ ['\n']) = some ⟨none, some e⟩ := by
  unfold decodeLine lineOf
  rw [parse_printed ⟨false, true⟩ _ (nums_error e) ['\n'] (by decide)]
  unfold errorJson
  have hf : fieldFor [S "message", S "webrpcError"] (S "webrpcError") = some (S "webrpcError") := by decide
  have hs : (⟨none, none⟩ : LineOut α).setMember dec (S "webrpcError") e.toJson = some ⟨none, some e⟩ := by
    unfold LineOut.setMember
    rw [hf]
    dsimp only
    rw [if_neg (by decide)]
    have := ofJson_toJson e h
    cases hj : e.toJson with
    | null => unfold RpcError.toJson at hj; cases hj
    | _ => dsimp only; rw [← hj, this]; rfl
  show LineOut.setMembers dec ⟨none, none⟩ [(S "webrpcError", e.toJson)] = _
  rw [LineOut.setMembers, hs]
  rfl

/-! ### The server -/

/-- The lines of the messages whose `Write` succeeded. -/
def goodLines {α : Type} (st : Stream α) (calls : List (α × Bool)) : List Str :=
  calls.filterMap fun c => if c.2 then (st.enc c.1).map fun j => lineOf (messageJson j) else none

/-- The document written by a job. -/
def jobJson {α : Type} (st : Stream α) : Job α → Option Json
  | .msg m => (st.enc m).map messageJson
  | .fail e => some (errorJson e)
  | .panic e => some (errorJson e)

/-- The lines of the response, by what the handler is doing. -/
def Body {α : Type} (st : Stream α) (s : StreamState α) : Prop :=
  match s.handler with
  | .run => (content s.out).1 = goodLines st s.calls ∧ (s.broken = false → (content s.out).2 = [])
  | .wait _ => (content s.out).1 = goodLines st s.calls ∧ (s.broken = false → (content s.out).2 = [])
  | .put j rest ok =>
    (rest ≠ [] → ok = true ∧ (content s.out).1 = goodLines st s.calls ∧
      ∃ d, jobJson st j = some d ∧ (s.broken = false → (content s.out).2 ++ rest = lineOf d ++ ['\n'])) ∧
    (rest = [] → (s.broken = false → (content s.out).2 = []) ∧
      (ok = true → ∃ d, jobJson st j = some d ∧ (content s.out).1 = goodLines st s.calls ++ [lineOf d]) ∧
      (ok = false → (content s.out).1 = goodLines st s.calls))
  | .done e => (content s.out).1 = goodLines st s.calls ++ (e.map fun e => lineOf (errorJson e)).toList ∧
    (s.broken = false → (content s.out).2 = [])

/-- Why something is written. -/
def JobReason {α : Type} (st : Stream α) (calls : List (α × Bool)) : Job α → Prop
  | .msg m => st.impl (calls.map (·.2)) = .send m
  | .fail e => ∃ g, st.impl (calls.map (·.2)) = .finish (some g) ∧ e = st.onError g.toRpc
  | .panic _ => False

/-- Why the handler is where it is. -/
def Reason {α : Type} (st : Stream α) (s : StreamState α) : Prop :=
  match s.handler with
  | .run => True
  | .wait j => JobReason st s.calls j
  | .put j rest ok => JobReason st s.calls j ∧ (ok = false → rest = [] ∧ (s.broken = true ∨ jobJson st j = none))
  | .done none => st.impl (s.calls.map (·.2)) = .finish none ∨ s.broken = true
  | .done (some e) => ∃ g, st.impl (s.calls.map (·.2)) = .finish (some g) ∧ e = st.onError g.toRpc

/-- The lines that were flushed. -/
def Flushed {α : Type} (st : Stream α) (s : StreamState α) : Prop :=
  s.broken = false → content s.flushed = (goodLines st s.calls ++ (match s.handler with
    | .done (some e) => [lineOf (errorJson e)]
    | _ => []), [])

/-- The invariant. -/
structure StreamInv {α : Type} (st : Stream α) (s : StreamState α) : Prop where
  hist : History st.impl s.calls
  handlerLock : ∀ j rest ok, s.handler = .put j rest ok → s.lock = some .handler
  keeperLock : ∀ rest ok, s.keeper = .put rest ok → s.lock = some .keepAlive ∧ (rest = [] ∨ rest = ['\n'])
  body : Body st s
  reason : Reason st s
  flushed : Flushed st s
  results : ∀ c ∈ s.calls, (c.2 = true → (st.enc c.1).isSome = true) ∧ (c.2 = false → s.broken = true ∨ st.enc c.1 = none)

theorem job_text {α : Type} (st : Stream α) (j : Job α) :
    st.text j = match jobJson st j with
      | some d => (lineOf d ++ ['\n'], true)
      | none => ([], false) := by
  cases j with
  | msg m => unfold Stream.text jobJson; dsimp only; cases st.enc m <;> rfl
  | fail e => rfl
  | panic e => rfl

theorem job_line {α : Type} {st : Stream α} (hn : ∀ m j, st.enc m = some j → Nums j) {j : Job α} {d : Json}
    (h : jobJson st j = some d) : '\n' ∉ lineOf d ∧ lineOf d ≠ [] := by
  cases j with
  | msg m =>
    obtain ⟨x, h1, rfl⟩ := Option.map_eq_some_iff.1 h
    exact ⟨print_no_nl true 0 _ (nums_message (hn m x h1)), lineOf_obj _ _ _⟩
  | fail e => cases h; exact ⟨print_no_nl true 0 _ (nums_error e), lineOf_obj _ _ _⟩
  | panic e => cases h; exact ⟨print_no_nl true 0 _ (nums_error e), lineOf_obj _ _ _⟩

theorem ping_content {t : Str} (h : (content t).2 = []) : content (t ++ ['\n']) = content t := by
  rw [content_snoc, contentStep, if_pos rfl, if_pos h, ← h]

/-- The handler is not writing, so a newline changes nothing. -/
theorem body_ping {α : Type} {st : Stream α} {s : StreamState α} (hb : Body st s) (hk : s.lock = some .keepAlive)
    (hl : ∀ j rest ok, s.handler = .put j rest ok → s.lock = some .handler) (hbr : s.broken = false) (k : Keeper) :
    Body st { s with out := s.out ++ ['\n'], keeper := k } := by
  unfold Body at hb ⊢
  dsimp only
  cases hh : s.handler with
  | run => rw [hh] at hb; dsimp only at hb ⊢; rw [ping_content (hb.2 hbr)]; exact hb
  | wait j => rw [hh] at hb; dsimp only at hb ⊢; rw [ping_content (hb.2 hbr)]; exact hb
  | put j rest ok => have := hl j rest ok hh; rw [hk] at this; cases this
  | done e => rw [hh] at hb; dsimp only at hb ⊢; rw [ping_content (hb.2 hbr)]; exact hb

theorem stream_inv {α : Type} {st : Stream α} (hnums : ∀ m j, st.enc m = some j → Nums j) (hp : ∀ h v, st.impl h ≠ .panic v)
    {s : StreamState α} (h : StreamReach st s) : StreamInv st s := by
  induction h with
  | init =>
    refine ⟨.nil, ?_, ?_, ?_, trivial, ?_, ?_⟩
    · intro j rest ok h; cases h
    · intro rest ok h; cases h
    · exact ⟨rfl, fun _ => rfl⟩
    · intro _; rfl
    · intro c hc; cases hc
  | @step s t _ hs ih =>
    obtain ⟨i1, i2, i3, i4, i5, i6, i7⟩ := ih
    cases hs with
    | @send m h1 h2 =>
      refine ⟨i1, ?_, i3, ?_, h2, ?_, i7⟩
      · intro j rest ok h; cases h
      · unfold Body at i4; rw [h1] at i4; exact i4
      · unfold Flushed at i6; rw [h1] at i6; exact i6
    | finish h1 h2 =>
      refine ⟨i1, ?_, i3, ?_, Or.inl h2, ?_, i7⟩
      · intro j rest ok h; cases h
      · unfold Body at i4 ⊢; rw [h1] at i4; dsimp only at i4 ⊢; simpa using i4
      · unfold Flushed at i6 ⊢; rw [h1] at i6; exact i6
    | @fail e h1 h2 =>
      refine ⟨i1, ?_, i3, ?_, ⟨e, h2, rfl⟩, ?_, i7⟩
      · intro j rest ok h; cases h
      · unfold Body at i4; rw [h1] at i4; exact i4
      · unfold Flushed at i6; rw [h1] at i6; exact i6
    | @panic v h1 h2 => exact absurd h2 (hp _ v)
    | @lock j h1 h2 =>
      refine ⟨i1, fun _ _ _ _ => rfl, ?_, ?_, ?_, ?_, i7⟩
      · intro rest ok h
        have := (i3 rest ok h).1
        rw [h2] at this; cases this
      · unfold Body at i4 ⊢
        rw [h1] at i4
        dsimp only at i4 ⊢
        rw [job_text]
        cases hd : jobJson st j with
        | none =>
          dsimp only
          exact ⟨fun h => absurd rfl h, fun _ => ⟨i4.2, fun h => (by cases h), fun _ => i4.1⟩⟩
        | some d =>
          dsimp only
          refine ⟨fun _ => ⟨rfl, i4.1, d, rfl, fun hb => by rw [i4.2 hb]; rfl⟩, fun h => ?_⟩
          simp at h
      · unfold Reason at i5 ⊢
        rw [h1] at i5
        dsimp only at i5 ⊢
        refine ⟨i5, ?_⟩
        rw [job_text]
        cases hd : jobJson st j with
        | none => intro _; exact ⟨rfl, .inr rfl⟩
        | some d => intro h; cases h
      · unfold Flushed at i6; rw [h1] at i6; exact i6
    | @put j c rest ok h1 h2 =>
      refine ⟨i1, fun j' r' o' h => ?_, i3, ?_, ?_, ?_, i7⟩
      · exact i2 _ _ _ h1
      · unfold Body at i4 ⊢
        rw [h1] at i4
        dsimp only at i4 ⊢
        obtain ⟨rfl, a1, d, a2, a3⟩ := i4.1 (by simp)
        have a4 := a3 h2
        obtain ⟨n1, n2⟩ := job_line hnums a2
        rw [content_snoc]
        unfold contentStep
        by_cases hr : rest = []
        · subst hr
          obtain ⟨e1, e2⟩ := List.append_inj' a4 rfl
          cases e2
          rw [if_pos rfl, if_neg (by rw [e1]; exact n2)]
          refine ⟨fun h => absurd rfl h, fun _ => ⟨fun _ => rfl, fun _ => ⟨d, a2, by rw [a1, e1]⟩, fun h => by cases h⟩⟩
        · have hc : c ≠ '\n' := by
            rintro rfl
            rcases List.eq_nil_or_concat rest with rfl | ⟨r, x, rfl⟩
            · exact hr rfl
            · rw [List.concat_eq_append] at a4
              have a5 : ((content s.out).2 ++ '\n' :: r) ++ [x] = lineOf d ++ ['\n'] := by rw [← a4]; simp
              have := (List.append_inj' a5 rfl).1
              apply n1
              rw [← this]; simp
          rw [if_neg hc]
          refine ⟨fun _ => ⟨rfl, a1, d, a2, fun _ => ?_⟩, fun h => absurd h hr⟩
          rw [← a4]; simp
      · unfold Reason at i5 ⊢
        rw [h1] at i5
        dsimp only at i5 ⊢
        refine ⟨i5.1, fun h => ?_⟩
        have := (i5.2 h).1
        cases this
      · unfold Flushed at i6 ⊢; rw [h1] at i6; exact i6
    | @putFails j c rest ok h1 h2 =>
      refine ⟨i1, fun j' r' o' h => ?_, i3, ?_, ?_, ?_, i7⟩
      · exact i2 _ _ _ h1
      · unfold Body at i4 ⊢
        rw [h1] at i4
        dsimp only at i4 ⊢
        obtain ⟨-, a1, -⟩ := i4.1 (by simp)
        refine ⟨fun h => absurd rfl h, fun _ => ⟨fun h => ?_, fun h => (by cases h), fun _ => a1⟩⟩
        rw [h2] at h; cases h
      · unfold Reason at i5 ⊢
        rw [h1] at i5
        dsimp only at i5 ⊢
        exact ⟨i5.1, fun _ => ⟨rfl, .inl h2⟩⟩
      · intro h; change s.broken = false at h; rw [h2] at h; cases h
    | @unlock j ok h1 h2 =>
      have hk : ∀ rest ok, s.keeper ≠ .put rest ok := by
        intro rest ok' h
        have a := (i3 _ _ h).1
        rw [i2 _ _ _ h1] at a; cases a
      have hbd : (s.broken = false → (content s.out).2 = []) ∧
          (ok = true → ∃ d, jobJson st j = some d ∧ (content s.out).1 = goodLines st s.calls ++ [lineOf d]) ∧
          (ok = false → (content s.out).1 = goodLines st s.calls) := by
        unfold Body at i4
        rw [h1] at i4
        exact i4.2 rfl
      have hre : JobReason st s.calls j ∧ (ok = false → s.broken = true ∨ jobJson st j = none) := by
        unfold Reason at i5
        rw [h1] at i5
        dsimp only at i5
        exact ⟨i5.1, fun h => (i5.2 h).2⟩
      have hb : Body st { s.release with handler := .after j ok, calls := s.calls ++ j.call ok } := by
        cases j with
        | panic e => exact absurd rfl (h2 e)
        | msg m =>
          show (content s.out).1 = goodLines st (s.calls ++ [(m, ok)]) ∧ _
          refine ⟨?_, hbd.1⟩
          unfold goodLines
          rw [List.filterMap_append]
          cases ok with
          | true =>
            obtain ⟨d, b1, b2⟩ := hbd.2.1 rfl
            obtain ⟨x, b3, rfl⟩ := Option.map_eq_some_iff.1 b1
            rw [b2]
            simp [goodLines, b3]
          | false => rw [hbd.2.2 rfl]; simp [goodLines]
        | fail e =>
          show (content s.out).1 = goodLines st (s.calls ++ []) ++ _ ∧ _
          rw [List.append_nil]
          refine ⟨?_, hbd.1⟩
          cases ok with
          | true =>
            obtain ⟨d, b1, b2⟩ := hbd.2.1 rfl
            cases b1
            rw [b2]; rfl
          | false => rw [hbd.2.2 rfl]; simp
      refine ⟨?_, ?_, ?_, hb, ?_, ?_, ?_⟩
      · cases j with
        | msg m => exact .snoc i1 hre.1
        | fail e => simpa [Job.call] using i1
        | panic e => simpa [Job.call] using i1
      · intro j' r' o' h
        cases j <;> cases h
      · intro r o h
        exact absurd h (hk r o)
      · cases j with
        | panic e => exact absurd rfl (h2 e)
        | msg m => trivial
        | fail e =>
          unfold Reason
          dsimp only [Handler.after, Job.call]
          rw [List.append_nil]
          cases ok with
          | true => exact hre.1
          | false =>
            rcases hre.2 rfl with h | h
            · exact .inr h
            · cases h
      · intro hbr
        change s.broken = false at hbr
        have e1 : ({ s.release with handler := .after j ok, calls := s.calls ++ j.call ok } : StreamState α).flushed = s.out := by
          show (if s.broken then s.flushed else s.out) = _
          rw [hbr]; rfl
        rw [e1]
        unfold Body at hb
        cases j with
        | panic e => exact absurd rfl (h2 e)
        | msg m =>
          change (content s.out).1 = _ ∧ _ at hb
          dsimp only [Handler.after]
          rw [List.append_nil, ← hbd.1 hbr]
          exact Prod.ext hb.1 rfl
        | fail e =>
          change (content s.out).1 = _ ∧ _ at hb
          cases ok with
          | true =>
            refine Prod.ext ?_ (hbd.1 hbr)
            exact hb.1
          | false =>
            refine Prod.ext ?_ (hbd.1 hbr)
            exact hb.1
      · intro c hc
        cases j with
        | panic e => exact absurd rfl (h2 e)
        | fail e => exact i7 c (by simpa [Job.call] using hc)
        | msg m =>
          rcases List.mem_append.1 hc with hc | hc
          · exact i7 c hc
          · simp only [Job.call, List.mem_singleton] at hc
            subst hc
            refine ⟨fun h => ?_, fun h => ?_⟩
            · obtain ⟨d, b1, -⟩ := hbd.2.1 h
              obtain ⟨x, b3, -⟩ := Option.map_eq_some_iff.1 b1
              simp [b3]
            · rcases hre.2 h with h | h
              · exact .inl h
              · exact .inr (by simpa [jobJson] using h)
    | @panicked e ok h1 =>
      unfold Reason at i5
      rw [h1] at i5
      exact absurd i5.1 id
    | tick h1 =>
      refine ⟨i1, i2, ?_, i4, i5, i6, i7⟩
      intro rest ok h; cases h
    | stop h1 h2 =>
      refine ⟨i1, i2, ?_, i4, i5, i6, i7⟩
      intro rest ok h; cases h
    | pingLock h1 h2 =>
      refine ⟨i1, ?_, ?_, i4, i5, i6, i7⟩
      · intro j r o h
        have := i2 j r o h
        rw [h2] at this; cases this
      · intro rest ok h; cases h; exact ⟨rfl, .inr rfl⟩
    | @ping c rest ok h1 h2 h3 =>
      have hl := i3 _ _ h1
      have hcr : c = '\n' ∧ rest = [] := by
        rcases hl.2 with h | h
        · cases h
        · cases h; exact ⟨rfl, rfl⟩
      obtain ⟨rfl, rfl⟩ := hcr
      refine ⟨i1, i2, ?_, body_ping i4 hl.1 i2 h2 _, i5, i6, i7⟩
      intro rest ok h; cases h; exact ⟨hl.1, .inl rfl⟩
    | @pingLate c rest ok e h1 h2 =>
      have hl := i3 _ _ h1
      refine ⟨i1, i2, ?_, i4, i5, i6, i7⟩
      intro r o h
      cases h
      rcases hl.2 with h | h
      · cases h
      · cases h; exact ⟨hl.1, .inl rfl⟩
    | @pingFails c rest ok h1 h2 =>
      refine ⟨i1, i2, ?_, i4, i5, i6, i7⟩
      intro r o h
      cases h
      exact ⟨(i3 _ _ h1).1, .inl rfl⟩
    | @pingUnlock ok h1 =>
      have hl := (i3 _ _ h1).1
      have hh : ∀ j rest ok, s.handler ≠ .put j rest ok := by
        intro j rest ok h
        have := i2 _ _ _ h
        rw [hl] at this; cases this
      refine ⟨i1, ?_, ?_, i4, i5, ?_, i7⟩
      · intro j r o h; exact absurd h (hh j r o)
      · intro r o h
        change (if ok then Keeper.idle else .stopped) = _ at h
        cases ok <;> cases h
      · intro hbr
        change s.broken = false at hbr
        have e1 : (({ s.release with keeper := if ok then .idle else .stopped } : StreamState α)).flushed = s.out := by
          show (if s.broken then s.flushed else s.out) = _
          rw [hbr]; rfl
        rw [e1]
        show content s.out = (goodLines st s.calls ++ (match s.handler with
          | .done (some e) => [lineOf (errorJson e)]
          | _ => []), [])
        unfold Body at i4
        cases hx : s.handler with
        | run => rw [hx] at i4; exact Prod.ext (by simpa using i4.1) (i4.2 hbr)
        | wait j => rw [hx] at i4; exact Prod.ext (by simpa using i4.1) (i4.2 hbr)
        | put j r o => exact absurd hx (hh j r o)
        | done e =>
          rw [hx] at i4
          cases e with
          | none => exact Prod.ext i4.1 (i4.2 hbr)
          | some e => exact Prod.ext i4.1 (i4.2 hbr)
    | breaks =>
      refine ⟨i1, i2, i3, ?_, ?_, ?_, ?_⟩
      · unfold Body at i4 ⊢
        cases hx : s.handler with
        | run => rw [hx] at i4; exact ⟨i4.1, fun h => by cases h⟩
        | wait j => rw [hx] at i4; exact ⟨i4.1, fun h => by cases h⟩
        | put j r o =>
          rw [hx] at i4
          refine ⟨fun h => ?_, fun h => ⟨fun h => (by cases h), (i4.2 h).2⟩⟩
          obtain ⟨a, b, d, c, -⟩ := i4.1 h
          exact ⟨a, b, d, c, fun h => by cases h⟩
        | done e => rw [hx] at i4; exact ⟨i4.1, fun h => by cases h⟩
      · unfold Reason at i5 ⊢
        dsimp only at i5 ⊢
        cases hx : s.handler with
        | run => trivial
        | wait j => rw [hx] at i5; exact i5
        | put j r o => rw [hx] at i5; exact ⟨i5.1, fun h => ⟨(i5.2 h).1, .inl rfl⟩⟩
        | done e =>
          rw [hx] at i5
          cases e with
          | none => exact .inr rfl
          | some e => exact i5
      · intro h; cases h
      · intro c hc
        exact ⟨(i7 c hc).1, fun _ => .inl rfl⟩

/-! ### What the client gets -/

theorem Pointwise.append {α β : Type} {R : α → β → Prop} {a c : List α} {b d : List β} (h : Pointwise R a b) (k : Pointwise R c d) :
    Pointwise R (a ++ c) (b ++ d) := by
  induction h with
  | nil => exact k
  | cons x _ ih => exact .cons x ih

theorem Pointwise.take {α β : Type} {R : α → β → Prop} {a a' : List α} {b : List β} (h : Pointwise R a b) (hp : a' <+: a) :
    Pointwise R a' (b.take a'.length) := by
  induction h generalizing a' with
  | nil =>
    obtain ⟨t, ht⟩ := hp
    obtain ⟨rfl, -⟩ := List.append_eq_nil_iff.1 ht
    exact .nil
  | @cons x y l l' hxy _ ih =>
    cases a' with
    | nil => exact .nil
    | cons z a' =>
      obtain ⟨rfl, hp'⟩ := List.cons_prefix_cons.1 hp
      exact .cons hxy (ih hp')

theorem content_prefix {p t : Str} (h : p <+: t) : (content p).1 <+: (content t).1 := by
  obtain ⟨r, rfl⟩ := h
  have step : ∀ s c, s.1 <+: (contentStep s c).1 := by
    intro s c
    unfold contentStep
    split
    · dsimp only; split
      · exact List.prefix_rfl
      · exact ⟨_, rfl⟩
    · exact List.prefix_rfl
  have go : ∀ (r : Str) s, s.1 <+: (r.foldl contentStep s).1 := by
    intro r
    induction r with
    | nil => intro s; exact List.prefix_rfl
    | cons c r ih => intro s; exact (step s c).trans (ih _)
  unfold content
  rw [List.foldl_append]
  exact go r _

theorem good_decode {α : Type} {st : Stream α} {dec : Json → Option α} (hc : Codec st.enc dec) {calls : List (α × Bool)}
    (h : ∀ c ∈ calls, c.2 = true → (st.enc c.1).isSome = true) :
    Pointwise (fun l o => decodeLine dec (l ++ ['\n']) = some o) (goodLines st calls)
      ((sentMessages calls).map fun m => (⟨some m, none⟩ : LineOut α)) := by
  induction calls with
  | nil => exact .nil
  | cons c calls ih =>
    have ih := ih fun x hx => h x (by simp [hx])
    unfold goodLines sentMessages
    rw [List.filterMap_cons, List.filterMap_cons]
    cases hb : c.2 with
    | false => simp only [Bool.false_eq_true, if_false]; exact ih
    | true =>
      have := h c (by simp) hb
      cases he : st.enc c.1 with
      | none => rw [he] at this; cases this
      | some j =>
        simp only [if_true, Option.map_some, List.map_cons]
        exact .cons (decode_message hc he) ih

/-- What the server has said or is about to say: the messages whose `Write` succeeded, then the message or error that is
being written or the error that was written last. -/
def promised {α : Type} (s : StreamState α) : List (ReadResult α) :=
  (sentMessages s.calls).map readMessage ++
  match s.handler with
  | .wait (.msg m) => [readMessage m]
  | .put (.msg m) _ _ => [readMessage m]
  | .wait (.fail e) => [readError e]
  | .put (.fail e) _ _ => [readError e]
  | .done (some e) => [readError e]
  | _ => []

/-- **C55**: when the handler has returned and the connection is intact, the client reads exactly the messages whose
`Write` succeeded, in the order of the calls, then the error the implementation returned, if any, and then that the
stream has finished - whatever the implementation does with the outcomes of its calls, however the keep-alive pings are
interleaved, and however the text is cut into pieces on the way. -/
theorem C55_delivery_partial {α : Type} (st : Stream α) (dec : Json → Option α) (hc : Codec st.enc dec)
    (hp : ∀ h v, st.impl h ≠ .panic v) (he : ∀ e : GoError, Representable (st.onError e.toRpc))
    (s : StreamState α) (h : StreamReach st s) (sent : Option RpcError) (hd : s.handler = .done sent) (hb : s.broken = false)
    (chunks : List Str) (ht : chunks.flatten = s.out) :
    History st.impl s.calls ∧ (∀ c ∈ s.calls, c.2 = (st.enc c.1).isSome) ∧
    (∃ ret, st.impl (s.calls.map (·.2)) = .finish ret ∧ sent = ret.map fun e => st.onError e.toRpc) ∧
    (connect chunks .eof).reads dec ((sentMessages s.calls).length + sent.toList.length + 1) =
      some ((sentMessages s.calls).map readMessage ++ sent.toList.map readError ++
        [readError (errStreamFinished.withCause (S "EOF"))]) := by
  obtain ⟨i1, -, -, i4, i5, -, i7⟩ := stream_inv hc.nums hp h
  have hr : ∃ ret, st.impl (s.calls.map (·.2)) = .finish ret ∧ sent = ret.map fun e => st.onError e.toRpc := by
    unfold Reason at i5
    rw [hd] at i5
    cases sent with
    | none =>
      rcases i5 with h | h
      · exact ⟨none, h, rfl⟩
      · rw [hb] at h; cases h
    | some e =>
      obtain ⟨g, h1, h2⟩ := i5
      exact ⟨some g, h1, by rw [h2]; rfl⟩
  refine ⟨i1, ?_, hr, ?_⟩
  · intro c hc'
    obtain ⟨a, b⟩ := i7 c hc'
    cases hx : c.2 with
    | true => exact (a hx).symm
    | false =>
      rcases b hx with b | b
      · rw [hb] at b; cases b
      · rw [b]; rfl
  · unfold Body at i4
    rw [hd] at i4
    have hpw : Pointwise (fun l o => decodeLine dec (l ++ ['\n']) = some o)
        (goodLines st s.calls ++ (sent.map fun e => lineOf (errorJson e)).toList)
        ((sentMessages s.calls).map (fun m => (⟨some m, none⟩ : LineOut α)) ++ sent.toList.map fun e => ⟨none, some e⟩) := by
      refine (good_decode hc fun c hc' => (i7 c hc').1).append ?_
      cases sent with
      | none => exact .nil
      | some e =>
        obtain ⟨ret, -, h2⟩ := hr
        cases ret with
        | none => cases h2
        | some g =>
          cases h2
          exact .cons (decode_error dec (he g)) .nil
    obtain ⟨-, h2, -⟩ := C56_reads_partial dec chunks .eof _ [] (by rw [ht, i4.1, List.append_nil]) _ hpw
    have := h2 rfl
    rw [List.length_append, List.length_map, List.length_map, List.map_append, List.map_map, List.map_map] at this
    exact this

/-- **C55**: at any time, whatever part of the response has reached the client and however the connection ends, the
client reads some of what the server has said, from the beginning and in order, nothing else, and then how the
connection ended. -/
theorem C55_any_time_partial {α : Type} (st : Stream α) (dec : Json → Option α) (hc : Codec st.enc dec)
    (hp : ∀ h v, st.impl h ≠ .panic v) (he : ∀ e : GoError, Representable (st.onError e.toRpc))
    (s : StreamState α) (h : StreamReach st s) (chunks : List Str) (ht : chunks.flatten <+: s.out) (ending : Ending) :
    ∃ n, n ≤ (promised s).length ∧ (connect chunks ending).reads dec (n + 1) =
      some ((promised s).take n ++ [readError (handleReadError ending)]) := by
  obtain ⟨i1, -, -, i4, i5, -, i7⟩ := stream_inv hc.nums hp h
  have hg := good_decode hc fun c hc' => (i7 c hc').1
  have key : ∃ outs : List (LineOut α), outs.map lineResult <+: promised s ∧
      Pointwise (fun l o => decodeLine dec (l ++ ['\n']) = some o) (content s.out).1 outs := by
    have short : (content s.out).1 = goodLines st s.calls → ∃ outs : List (LineOut α), outs.map lineResult <+: promised s ∧
        Pointwise (fun l o => decodeLine dec (l ++ ['\n']) = some o) (content s.out).1 outs := by
      intro hx
      refine ⟨_, ?_, hx ▸ hg⟩
      rw [List.map_map]
      exact ⟨_, rfl⟩
    have long : ∀ (e : RpcError), (∃ g : GoError, e = st.onError g.toRpc) → promised s = (sentMessages s.calls).map readMessage ++ [readError e] →
        (content s.out).1 = goodLines st s.calls ++ [lineOf (errorJson e)] → ∃ outs : List (LineOut α), outs.map lineResult <+: promised s ∧
        Pointwise (fun l o => decodeLine dec (l ++ ['\n']) = some o) (content s.out).1 outs := by
      rintro e ⟨g, rfl⟩ hx hy
      refine ⟨_, ?_, hy ▸ hg.append (.cons (decode_error dec (he g)) .nil)⟩
      rw [hx, List.map_append, List.map_map]
      exact ⟨[], by rw [List.append_nil]; rfl⟩
    unfold Body at i4
    unfold Reason at i5
    cases hh : s.handler with
    | run => rw [hh] at i4; exact short i4.1
    | wait j => rw [hh] at i4; exact short i4.1
    | put j rest ok =>
      rw [hh] at i4 i5
      by_cases hr : rest = []
      · obtain ⟨-, b1, b2⟩ := i4.2 hr
        cases ok with
        | false => exact short (b2 rfl)
        | true =>
          obtain ⟨d, c1, c2⟩ := b1 rfl
          cases j with
          | panic e => exact absurd i5.1 id
          | fail e =>
            cases c1
            obtain ⟨g, -, h2⟩ := i5.1
            exact long e ⟨g, h2⟩ (by unfold promised; rw [hh]) c2
          | msg m =>
            obtain ⟨x, h1, rfl⟩ := Option.map_eq_some_iff.1 c1
            refine ⟨_, ?_, c2 ▸ hg.append (.cons (decode_message hc h1) .nil)⟩
            unfold promised
            rw [hh, List.map_append, List.map_map]
            exact ⟨[], by rw [List.append_nil]; rfl⟩
      · exact short (i4.1 hr).2.1
    | done sent =>
      rw [hh] at i4 i5
      cases sent with
      | none => exact short (by simpa using i4.1)
      | some e =>
        obtain ⟨g, -, h2⟩ := i5
        exact long e ⟨g, h2⟩ (by unfold promised; rw [hh]) (by simpa using i4.1)
  obtain ⟨outs, ho, hpw⟩ := key
  have hpre := content_prefix ht
  have hpw' := Pointwise.take hpw hpre
  obtain ⟨-, h2, -⟩ := C56_reads_partial dec chunks ending _ [] (by rw [List.append_nil]) _ hpw'
  refine ⟨(outs.take (content chunks.flatten).1.length).length, ?_, ?_⟩
  · have := ho.length_le
    rw [List.length_map] at this
    rw [List.length_take]; omega
  · rw [h2 rfl]
    congr 2
    obtain ⟨t, ht'⟩ := ho
    rw [← ht', List.take_append_of_le_length (by rw [List.length_map, List.length_take]; omega), List.map_take]
    rw [List.length_take, List.take_eq_take_min, List.length_map]

/-- **C55**: while the connection is intact, a message whose `Write` has returned without error has been sent to the
client: from what was flushed the client reads at least all these messages, in order. -/
theorem C55_flushed_partial {α : Type} (st : Stream α) (dec : Json → Option α) (hc : Codec st.enc dec)
    (hp : ∀ h v, st.impl h ≠ .panic v) (s : StreamState α) (h : StreamReach st s) (hb : s.broken = false)
    (chunks : List Str) (ht : chunks.flatten = s.flushed) (ending : Ending) :
    (connect chunks ending).reads dec (sentMessages s.calls).length = some ((sentMessages s.calls).map readMessage) := by
  obtain ⟨-, -, -, -, -, i6, i7⟩ := stream_inv hc.nums hp h
  have hg := good_decode hc fun c hc' => (i7 c hc').1
  have := i6 hb
  obtain ⟨h1, -, -⟩ := C56_reads_partial dec chunks ending _ _ (by rw [ht, this]) _ hg
  rw [List.length_map, List.map_map] at h1
  exact h1

/-! ### Cancellation by the client -/

theorem read_abort {α : Type} (dec : Json → Option α) (n : Nat) (r : StreamReader) (k : Nat) (hk : r.abort = some k)
    {x : Except RpcError (LineOut α)} {r0 : StreamReader} (h : ({ r with abort := none } : StreamReader).read dec n = some (x, r0)) :
    (∃ k', r.read dec n = some (x, { r0 with abort := some k' })) ∨
    (∃ r', r.read dec n = some (.error (errClientAborted.withCause (S "context canceled")), r')) := by
  induction n generalizing r k with
  | zero => cases h
  | succ n ih =>
    rw [StreamReader.read] at h ⊢
    rw [hk]
    cases k with
    | zero => rw [if_pos rfl]; exact .inr ⟨_, rfl⟩
    | succ k =>
      rw [if_neg (by simp)]
      rw [if_neg (by simp)] at h
      dsimp only [Option.map_none, Option.map_some, Nat.add_sub_cancel] at h ⊢
      cases hb : readBytes r.buf r.chunks with
      | none =>
        rw [hb] at h
        cases h
        exact .inl ⟨k, rfl⟩
      | some p =>
        obtain ⟨line, b, cs⟩ := p
        rw [hb] at h
        dsimp only at h ⊢
        by_cases hl : line = ['\n']
        · rw [if_pos hl] at h ⊢
          exact ih { r with buf := b, chunks := cs, abort := some k } k rfl h
        · rw [if_neg hl] at h ⊢
          cases hd : decodeLine dec line with
          | none => rw [hd] at h; cases h; exact .inl ⟨k, rfl⟩
          | some o => rw [hd] at h; cases h; exact .inl ⟨k, rfl⟩

/-- **C56**: when the client's context is done, at whatever look at it, the client has read a part of what it would
have read otherwise, from the beginning, and then reads that it has aborted. -/
theorem C56_abort_partial {α : Type} (dec : Json → Option α) (chunks : List Str) (ending : Ending) (k n : Nat) (results : List (ReadResult α))
    (h : (connect chunks ending).reads dec n = some results) :
    ({ connect chunks ending with abort := some k } : StreamReader).reads dec n = some results ∨
    ∃ i < n, ({ connect chunks ending with abort := some k } : StreamReader).reads dec (i + 1) =
      some (results.take i ++ [readError (errClientAborted.withCause (S "context canceled"))]) := by
  have key : ∀ (n : Nat) (r : StreamReader) (k : Nat) (results : List (ReadResult α)),
      ({ r with abort := none } : StreamReader).reads dec n = some results →
      ({ r with abort := some k } : StreamReader).reads dec n = some results ∨
      ∃ i < n, ({ r with abort := some k } : StreamReader).reads dec (i + 1) =
        some (results.take i ++ [readError (errClientAborted.withCause (S "context canceled"))]) := by
    intro n
    induction n with
    | zero => intro r k results h; exact .inl h
    | succ n ih =>
      intro r k results h
      rw [StreamReader.reads] at h
      unfold StreamReader.Read at h
      have hsz : ({ r with abort := none } : StreamReader).size = r.size := rfl
      cases hr : ({ r with abort := none } : StreamReader).read dec (r.size + 1) with
      | none => rw [hsz, hr] at h; cases h
      | some p =>
        obtain ⟨x, r0⟩ := p
        rw [hsz, hr] at h
        have hcons : ∃ y rest, results = y :: rest ∧ r0.reads dec n = some rest ∧
            (match x with | .error e => (⟨none, some e⟩ : ReadResult α) | .ok o => ⟨o.message, o.error⟩) = y := by
          cases x with
          | error e =>
            dsimp only at h
            obtain ⟨rest, h1, h2⟩ := Option.map_eq_some_iff.1 h
            exact ⟨_, rest, h2.symm, h1, rfl⟩
          | ok o =>
            dsimp only at h
            obtain ⟨rest, h1, h2⟩ := Option.map_eq_some_iff.1 h
            exact ⟨_, rest, h2.symm, h1, rfl⟩
        obtain ⟨y, rest, rfl, h1, h2⟩ := hcons
        have ha0 : ∀ (n : Nat) (r : StreamReader) {x r0}, r.abort = none → r.read dec n = some (x, r0) → r0.abort = none := by
          intro n
          induction n with
          | zero => intro r x r0 _ h; cases h
          | succ n ih =>
            intro r x r0 ha h
            rw [StreamReader.read, ha, if_neg (by simp)] at h
            dsimp only [Option.map_none] at h
            cases hb : readBytes r.buf r.chunks with
            | none => rw [hb] at h; cases h; rfl
            | some p =>
              obtain ⟨line, b, cs⟩ := p
              rw [hb] at h
              dsimp only at h
              by_cases hl : line = ['\n']
              · rw [if_pos hl] at h; exact ih _ rfl h
              · rw [if_neg hl] at h
                cases hd : decodeLine dec line with
                | none => rw [hd] at h; cases h; rfl
                | some o => rw [hd] at h; cases h; rfl
        have hr0 := ha0 _ _ rfl hr
        have hr0' : r0 = { r0 with abort := none } := by cases r0; cases hr0; rfl
        have hsz' : ({ r with abort := some k } : StreamReader).size = r.size := rfl
        rcases read_abort dec _ { r with abort := some k } k rfl hr with ⟨k', hk'⟩ | ⟨r', hk'⟩
        · have hR : ({ r with abort := some k } : StreamReader).Read dec = some (y, { r0 with abort := some k' }) := by
            unfold StreamReader.Read
            rw [hsz', hk']
            cases x with
            | error e => dsimp only; rw [← h2]
            | ok o => dsimp only; rw [← h2]
          rw [hr0'] at h1
          rcases ih r0 k' rest h1 with h3 | ⟨i, hi, h3⟩
          · left
            rw [StreamReader.reads, hR]
            dsimp only
            rw [h3]; rfl
          · right
            refine ⟨i + 1, by omega, ?_⟩
            rw [StreamReader.reads, hR]
            dsimp only
            rw [h3]; rfl
        · right
          refine ⟨0, by omega, ?_⟩
          have hR : ({ r with abort := some k } : StreamReader).Read dec = some (readError (errClientAborted.withCause (S "context canceled")), r') := by
            unfold StreamReader.Read
            rw [hsz', hk']; rfl
          rw [StreamReader.reads, hR]
          rfl
  exact key n (connect chunks ending) k results h

/-- **C56**: the errors by which a client tells how the connection ended are different from each other. -/
theorem C56_endings (e : Ending) :
    ((handleReadError e).is errStreamFinished = true ↔ e = .eof) ∧
    ((handleReadError e).is errStreamLost = true ↔ e = .unexpectedEof) ∧
    ((handleReadError e).is errClientAborted = true ↔ ∃ t, e = .cancelled t) ∧
    ((handleReadError e).is errBadResponse = true ↔ ∃ t, e = .other t) := by
  cases e with
  | eof => refine ⟨?_, ?_, ?_, ?_⟩ <;> simp [handleReadError, RpcError.is, RpcError.withCause, errStreamFinished, errStreamLost, errClientAborted, errBadResponse]
  | unexpectedEof => refine ⟨?_, ?_, ?_, ?_⟩ <;> simp [handleReadError, RpcError.is, RpcError.withCause, errStreamFinished, errStreamLost, errClientAborted, errBadResponse]
  | cancelled t => refine ⟨?_, ?_, ?_, ?_⟩ <;> simp [handleReadError, RpcError.is, RpcError.withCause, errStreamFinished, errStreamLost, errClientAborted, errBadResponse]
  | other t => refine ⟨?_, ?_, ?_, ?_⟩ <;> simp [handleReadError, RpcError.is, RpcError.withCause, errStreamFinished, errStreamLost, errClientAborted, errBadResponse]

/-- Messages that are booleans, for the examples. -/
def decBoolean : Json → Option Bool
  | .bool b => some b
  | _ => none

/-- `C56_reads_partial` on an example: two messages, pings, pieces that cut lines, and an error line. -/
theorem C56_example : (connect [S "\n{\"mess", S "age\":true}", S "\n\n\n{\"message\":false}\n{\"webrpcError\":{\"error\":\"X\",\"code\":7}}\n"]
      .unexpectedEof).reads decBoolean 4 =
    some [readMessage true, readMessage false, readError ⟨S "X", 7, [], [], 0⟩,
      readError (errStreamLost.withCause (S "unexpected EOF"))] := by decide +kernel

/-- A message that is cut off by the end of the body is lost without notice: the client reads that the stream has
finished, as after a complete stream. -/
theorem C56_truncated : (content (S "{\"message\":true}\n{\"message\":fal")).2 ≠ [] ∧
    (connect [S "{\"message\":true}\n{\"message\":fal"] .eof).reads decBoolean 2 =
      some [readMessage true, readError (errStreamFinished.withCause (S "EOF"))] := by decide +kernel

/-- An error found by the client does not end its stream: after a line that is not JSON the client may read another
message, depending on how the text arrived. -/
theorem C56_not_terminal :
    (connect [S "oops\n{\"message\":true}\n"] .eof).reads decBoolean 2 =
      some [readError (errBadResponse.withCause (S "reading stream: ")), readMessage true] ∧
    (connect [S "oops\n", S "{\"message\":true}\n"] .eof).reads decBoolean 2 =
      some [readError (errBadResponse.withCause (S "reading stream: ")),
        readError (errBadResponse.withCause (S "reading stream: http: read on closed response body"))] := by decide +kernel

/-! ### Runs -/

/-- The handler can write all it has to write. -/
theorem reach_put {α : Type} {st : Stream α} {s : StreamState α} (h : StreamReach st s) {j : Job α} {rest : Str} {ok : Bool}
    (hh : s.handler = .put j rest ok) (hb : s.broken = false) :
    StreamReach st { s with out := s.out ++ rest, handler := .put j [] ok } := by
  induction rest generalizing s with
  | nil => rw [List.append_nil, ← hh]; exact h
  | cons c rest ih =>
    have := ih (.step h (.put hh hb)) rfl hb
    simpa using this

/-- **C55**: nobody waits for ever: whenever the handler waits for the mutex, the keep-alive loop, if it holds the mutex,
can go on until it has released it (and `C55_writes_partial` says what the handler then does). -/
theorem C55_no_deadlock_partial {α : Type} (st : Stream α) (hn : ∀ m j, st.enc m = some j → Nums j) (hp : ∀ h v, st.impl h ≠ .panic v)
    (s : StreamState α) (h : StreamReach st s) (j : Job α) (hw : s.handler = .wait j) :
    ∃ t, StreamReach st t ∧ t.handler = .wait j ∧ t.lock = none ∧ t.calls = s.calls ∧ t.broken = s.broken ∧
      (t = s ∨ s.lock = some .keepAlive) := by
  have inv := stream_inv hn hp h
  cases hl : s.lock with
  | none => exact ⟨s, h, hw, hl, rfl, rfl, .inl rfl⟩
  | some w =>
    have hwho : ∃ rest ok, s.keeper = .put rest ok := by
      clear inv
      have : ∀ {s : StreamState α}, StreamReach st s → (∀ w, s.lock = some w → (∃ j rest ok, s.handler = .put j rest ok) ∨ (∃ rest ok, s.keeper = .put rest ok)) := by
        intro s h
        induction h with
        | init => intro w hw; cases hw
        | @step s t hr hs ih =>
          have inv := stream_inv hn hp hr
          intro w hw
          cases hs with
          | send a b => rcases ih w hw with ⟨_, _, _, x⟩ | x
                        · rw [a] at x; cases x
                        · exact .inr x
          | finish a b => rcases ih w hw with ⟨_, _, _, x⟩ | x
                          · rw [a] at x; cases x
                          · exact .inr x
          | fail a b => rcases ih w hw with ⟨_, _, _, x⟩ | x
                        · rw [a] at x; cases x
                        · exact .inr x
          | @panic v a b => exact absurd b (hp _ v)
          | lock a b => exact .inl ⟨_, _, _, rfl⟩
          | put a b => exact .inl ⟨_, _, _, rfl⟩
          | putFails a b => exact .inl ⟨_, _, _, rfl⟩
          | unlock a b => cases hw
          | @panicked e ok a =>
            have := inv.reason
            unfold Reason at this
            rw [a] at this
            exact absurd this.1 id
          | tick a => rcases ih w hw with x | ⟨_, _, x⟩
                      · exact .inl x
                      · rw [a] at x; cases x
          | stop a b => rcases ih w hw with x | ⟨_, _, x⟩
                        · exact .inl x
                        · rw [a] at x; cases x
          | pingLock a b => exact .inr ⟨_, _, rfl⟩
          | ping a b c => exact .inr ⟨_, _, rfl⟩
          | pingLate a b => exact .inr ⟨_, _, rfl⟩
          | pingFails a b => exact .inr ⟨_, _, rfl⟩
          | pingUnlock a => cases hw
          | breaks => exact ih w hw
      rcases this h w hl with ⟨_, _, _, x⟩ | x
      · rw [hw] at x; cases x
      · exact x
    obtain ⟨rest, ok, hk⟩ := hwho
    obtain ⟨hk1, hk2⟩ := inv.keeperLock rest ok hk
    have hsome : w = .keepAlive := by rw [hl] at hk1; cases hk1; rfl
    subst hsome
    rcases hk2 with rfl | rfl
    · exact ⟨_, .step h (.pingUnlock hk), hw, rfl, rfl, rfl, .inr rfl⟩
    · cases hb : s.broken with
      | false =>
        have h1 := StreamReach.step h (.ping hk hb (by intro e he; rw [hw] at he; cases he))
        exact ⟨_, .step h1 (.pingUnlock rfl), hw, rfl, rfl, hb, .inr rfl⟩
      | true =>
        have h1 := StreamReach.step h (.pingFails hk hb)
        exact ⟨_, .step h1 (.pingUnlock rfl), hw, rfl, rfl, hb, .inr rfl⟩

/-- **C55**: a call of `Write` on an intact connection can come to its end, and it succeeds if the message can be
encoded. -/
theorem C55_writes_partial {α : Type} (st : Stream α) (hn : ∀ m j, st.enc m = some j → Nums j) (hp : ∀ h v, st.impl h ≠ .panic v)
    (s : StreamState α) (h : StreamReach st s) (hr : s.handler = .run) (hb : s.broken = false) (m : α)
    (hm : st.impl (s.calls.map (·.2)) = .send m) :
    ∃ t, StreamReach st t ∧ t.handler = .run ∧ t.broken = false ∧ t.calls = s.calls ++ [(m, (st.enc m).isSome)] := by
  obtain ⟨t, h1, h2, h3, h4, h5, -⟩ := C55_no_deadlock_partial st hn hp _ (.step h (.send hr hm)) (.msg m) rfl
  have hbt : t.broken = false := by rw [h5]; exact hb
  have hl := StreamReach.step h1 (.lock h2 h3)
  have hw := reach_put hl (j := .msg m) (rest := (st.text (.msg m)).1) (ok := (st.text (.msg m)).2) rfl hbt
  have hu := StreamReach.step hw (.unlock rfl (by intro e he; cases he))
  refine ⟨_, hu, rfl, hbt, ?_⟩
  show t.calls ++ [(m, (st.text (.msg m)).2)] = _
  rw [h4]
  have : (st.text (.msg m)).2 = (st.enc m).isSome := by unfold Stream.text; dsimp only; cases st.enc m <;> rfl
  rw [this]

/-- A stream that sends `true` and ends. -/
def exStream : Stream Bool :=
  { impl := fun h => match h with | [] => .send true | _ => .finish none
    enc := fun b => some (.bool b)
    onError := id }

/-- The hypotheses of `C55_delivery_partial` are met: the example, with a ping before the message. -/
theorem C55_example : Codec exStream.enc decBoolean ∧ (∀ h v, exStream.impl h ≠ .panic v) ∧
    ∃ s, StreamReach exStream s ∧ s.handler = .done none ∧ s.broken = false ∧ s.calls = [(true, true)] := by
  have hc : Codec exStream.enc decBoolean := by
    refine ⟨?_, ?_, ?_⟩
    · intro m j h; cases h; rw [Nums]; trivial
    · intro m j h; cases h; rfl
    · intro m h; cases h
  have hp : ∀ h v, exStream.impl h ≠ .panic v := by
    intro h v he
    unfold exStream at he
    dsimp only at he
    split at he <;> cases he
  refine ⟨hc, hp, ?_⟩
  have h0 := StreamReach.init (st := exStream)
  have h1 := StreamReach.step h0 (.tick rfl)
  have h2 := StreamReach.step h1 (.pingLock rfl rfl)
  have h3 := StreamReach.step h2 (.ping rfl rfl (by intro e he; cases he))
  have h4 := StreamReach.step h3 (.pingUnlock rfl)
  obtain ⟨t, t1, t2, t3, t4⟩ := C55_writes_partial exStream hc.nums hp _ h4 rfl rfl true rfl
  have t5 : exStream.impl (t.calls.map (·.2)) = .finish none := by rw [t4]; rfl
  exact ⟨_, .step t1 (.finish t2 t5), rfl, t3, t4⟩

/-- The keep-alive loop is not stopped before the handler returns: the response can be used after that, which
`net/http` forbids. -/
theorem C55_ping_after_return : ∃ (st : Stream Bool) (s : StreamState Bool), (∀ h v, st.impl h ≠ .panic v) ∧
    StreamReach st s ∧ s.handler = .done none ∧ s.late = true := by
  refine ⟨{ impl := fun _ => .finish none, enc := fun b => some (.bool b), onError := id }, ?_⟩
  have h0 := StreamReach.init (st := { impl := fun _ => .finish none, enc := fun b => some (.bool b), onError := id })
  have h1 := StreamReach.step h0 (.finish rfl rfl)
  have h2 := StreamReach.step h1 (.tick rfl)
  have h3 := StreamReach.step h2 (.pingLock rfl rfl)
  have h4 := StreamReach.step h3 (.pingLate rfl rfl)
  exact ⟨_, (by intro h v he; cases he), h4, rfl, rfl⟩

/-- After a panic the error is written without the mutex: a ping can get into its line, and the client reads a bad
response instead of the error. -/
theorem C55_panic_race : ∃ (st : Stream Bool) (s : StreamState Bool) (e : RpcError), StreamReach st s ∧ s.handler = .done (some e) ∧
    s.broken = false ∧ (connect [s.out] .eof).reads decBoolean 1 = some [readError (errBadResponse.withCause (S "reading stream: "))] := by
  let st : Stream Bool := { impl := fun _ => .panic (S "x"), enc := fun b => some (.bool b), onError := id }
  let e := errServerPanic.withCause (S "x")
  have h0 := StreamReach.init (st := st)
  have h1 := StreamReach.step h0 (.tick rfl)
  have h2 := StreamReach.step h1 (.pingLock rfl rfl)
  have h3 := StreamReach.step h2 (.panic rfl rfl)
  obtain ⟨c, rest, hcr⟩ : ∃ c rest, jsonLine (errorJson e) = c :: rest := ⟨_, _, rfl⟩
  have hc : c = '{' := by
    have : (jsonLine (errorJson e)).head? = some '{' := by decide +kernel
    rw [hcr] at this; cases this; rfl
  subst hc
  have h4 := StreamReach.step h3 (.put (j := .panic e) (c := '{') (rest := rest) (ok := true)
    (by show st.panicPut e = _; unfold Stream.panicPut Stream.text; dsimp only; rw [hcr]) rfl)
  have h5 := StreamReach.step h4 (.ping rfl rfl (by intro e he; cases he))
  have h6 := reach_put h5 (j := .panic e) (rest := rest) (ok := true) rfl rfl
  have h7 := StreamReach.step h6 (.panicked rfl)
  refine ⟨st, _, e, h7, rfl, rfl, ?_⟩
  have hr : rest = (jsonLine (errorJson e)).tail := by rw [hcr]; rfl
  subst hr
  show (connect [(['\n'] ++ ['{'] ++ ['\n']) ++ (jsonLine (errorJson e)).tail] .eof).reads decBoolean 1 = _
  decide +kernel

end Verif.Props
