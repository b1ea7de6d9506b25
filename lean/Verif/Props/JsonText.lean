import Verif.Props.Rpc
import Verif.Props.SchemaJson
/-!
# C74: texts are read and written as JSON
-/

namespace Verif.Props
open Verif.Schema hiding Json Method
open Verif.Spec Verif.Json Verif.Rpc

/-- C74. A text is read as a value exactly if it is a JSON text (RFC 8259) for it, whatever its layout. -/
theorem C74_reads (s : Str) (j : Json) : parse s = some j ↔ JsonText s j := parse_iff

/-- C74. The text between two quotes is read as the string it stands for, whatever escapes are used. -/
theorem C74_strings (t s : Str) : cook t = some s ↔ Chars t s := by
  unfold cook
  constructor
  · intro h
    split at h
    · rename_i x hx
      cases h
      obtain ⟨u, hu, hc⟩ := parseStr_sound hx
      obtain ⟨rfl, -⟩ := List.append_inj' hu rfl
      exact hc
    · cases h
  · intro h
    rw [parseStr_complete h [] (t.length + 2) (by omega)]

/-- C74. A schema file that is not JSON is refused. -/
theorem C74_not_json [GoUnicode] (text : Str) (h : ¬ ∃ j, JsonText text j) : ∃ r, parseSchemaJSON text = r ∧ r matches .badJson := by
  refine ⟨_, rfl, ?_⟩
  unfold parseSchemaJSON
  cases hp : parse text with
  | none => rfl
  | some j => exact absurd ⟨j, parse_iff.1 hp⟩ h

/-- C74. What a schema file means depends only on its JSON value, not on layout. -/
theorem C74_layout [GoUnicode] (a b : Str) (j : Json) (ha : JsonText a j) (hb : JsonText b j) : parseSchemaJSON a = parseSchemaJSON b := by
  unfold parseSchemaJSON
  rw [parse_iff.2 ha, parse_iff.2 hb]

mutual
/-- Comparing values. -/
def same : Json → Json → Bool
  | .null, .null => true
  | .bool a, .bool b => a == b
  | .num a, .num b => a == b
  | .str a, .str b => a == b
  | .arr a, .arr b => sameList a b
  | .obj a, .obj b => sameMembers a b
  | _, _ => false
/-- Comparing elements. -/
def sameList : List Json → List Json → Bool
  | [], [] => true
  | a :: l, b :: m => same a b && sameList l m
  | _, _ => false
/-- Comparing members. -/
def sameMembers : List (Str × Json) → List (Str × Json) → Bool
  | [], [] => true
  | (k, a) :: l, (k', b) :: m => k == k' && same a b && sameMembers l m
  | _, _ => false
end

mutual
theorem same_eq : (a b : Json) → same a b = true → a = b
  | .null, b, h => by cases b <;> simp [same] at h; rfl
  | .bool a, b, h => by cases b <;> simp [same] at h; rw [h]
  | .num a, b, h => by cases b <;> simp [same] at h; rw [h]
  | .str a, b, h => by cases b <;> simp [same] at h; rw [h]
  | .arr a, b, h => by
    cases b <;> simp [same] at h
    rw [sameList_eq _ _ h]
  | .obj a, b, h => by
    cases b <;> simp [same] at h
    rw [sameMembers_eq _ _ h]
theorem sameList_eq : (a b : List Json) → sameList a b = true → a = b
  | [], b, h => by cases b <;> simp [sameList] at h; rfl
  | a :: l, b, h => by
    cases b <;> simp [sameList] at h
    rw [same_eq _ _ h.1, sameList_eq _ _ h.2]
theorem sameMembers_eq : (a b : List (Str × Json)) → sameMembers a b = true → a = b
  | [], b, h => by cases b <;> simp [sameMembers] at h; rfl
  | (k, a) :: l, b, h => by
    cases b with
    | nil => simp [sameMembers] at h
    | cons p m =>
      obtain ⟨k', b⟩ := p
      simp [sameMembers] at h
      rw [h.1.1, same_eq _ _ h.1.2, sameMembers_eq _ _ h.2]
end

/-- A text is read as a given value. -/
def readsAs (s : Str) (j : Json) : Bool :=
  match parse s with
  | some j' => same j' j
  | none => false

theorem readsAs_iff {s : Str} {j : Json} (h : readsAs s j = true) : parse s = some j := by
  unfold readsAs at h
  split at h
  · rename_i e; rw [e, same_eq _ _ h]
  · cases h

/-- C74: a text that uses the other forms of JSON: blanks, capital hexadecimal digits, a surrogate pair, an escaped slash. -/
theorem C74_example : JsonText (S " { \"a\\/\\uD83D\\ude00\" :\n[ -1.50e+3 , {} ]} ")
    (.obj [(['a', '/', Char.ofNat 0x1F600], .arr [.num (S "-1.50e+3"), .obj []])]) := by
  refine parse_iff.1 (readsAs_iff ?_)
  decide +kernel

/-- C61 is false of the code for the JSON text `null` too: loading it crashes. -/
theorem C61_null_json [GoUnicode] : ∃ r, parseSchemaJSON (S " null\n") = r ∧ r matches .panic := by
  refine ⟨_, rfl, ?_⟩
  unfold parseSchemaJSON
  rw [readsAs_iff (s := S " null\n") (j := .null) (by decide +kernel)]

/-! ### No markup in responses -/

mutual
/-- All strings are written by the standard encoder, all numbers are numbers. -/
def Marshaled : Json → Prop
  | .null | .bool _ => True
  | .num t => NumText t
  | .str raw => ∃ s, raw = escape true s
  | .arr l => MarshaledList l
  | .obj l => MarshaledMembers l
/-- All elements are. -/
def MarshaledList : List Json → Prop
  | [] => True
  | j :: l => Marshaled j ∧ MarshaledList l
/-- All members are. -/
def MarshaledMembers : List (Str × Json) → Prop
  | [] => True
  | (_, j) :: l => Marshaled j ∧ MarshaledMembers l
end

/-- No character that means something in HTML, and no line separator. -/
def NoMarkup (s : Str) : Prop := ∀ c ∈ s, c ≠ '<' ∧ c ≠ '>' ∧ c ≠ '&' ∧ c.toNat ≠ 0x2028 ∧ c.toNat ≠ 0x2029

theorem NoMarkup.append {a b : Str} (ha : NoMarkup a) (hb : NoMarkup b) : NoMarkup (a ++ b) := by
  intro c hc
  rcases List.mem_append.1 hc with h | h
  · exact ha c h
  · exact hb c h

theorem NoMarkup.cons {c : Char} {b : Str} (hc : c ≠ '<' ∧ c ≠ '>' ∧ c ≠ '&' ∧ c.toNat ≠ 0x2028 ∧ c.toNat ≠ 0x2029) (hb : NoMarkup b) :
    NoMarkup (c :: b) := by
  intro d hd
  rcases List.mem_cons.1 hd with rfl | h
  · exact hc
  · exact hb d h

theorem noMarkup_nil : NoMarkup [] := by intro c hc; cases hc

theorem hex_noMarkup (n : Nat) : NoMarkup (hex4 n) := by
  have : ∀ k : Fin 16, hexDigit k.val ≠ '<' ∧ hexDigit k.val ≠ '>' ∧ hexDigit k.val ≠ '&' ∧ (hexDigit k.val).toNat ≠ 0x2028 ∧
      (hexDigit k.val).toNat ≠ 0x2029 := by decide
  have f : ∀ m, hexDigit (m % 16) ≠ '<' ∧ hexDigit (m % 16) ≠ '>' ∧ hexDigit (m % 16) ≠ '&' ∧ (hexDigit (m % 16)).toNat ≠ 0x2028 ∧
      (hexDigit (m % 16)).toNat ≠ 0x2029 := fun m => this ⟨m % 16, by omega⟩
  exact .cons (f _) (.cons (f _) (.cons (f _) (.cons (f _) noMarkup_nil)))

theorem escChar_noMarkup (c : Char) : NoMarkup (escChar true c) := by
  unfold escChar
  repeat' split
  any_goals (intro d hd; revert d; decide)
  · exact .cons (by decide) (.cons (by decide) (hex_noMarkup _))
  · rename_i h
    refine .cons ⟨?_, ?_, ?_, ?_, ?_⟩ noMarkup_nil <;> intro e <;> apply h <;> simp [e]

theorem escape_noMarkup (s : Str) : NoMarkup (s.flatMap (escChar true)) := by
  intro c hc
  obtain ⟨x, -, hx⟩ := List.mem_flatMap.1 hc
  exact escChar_noMarkup x c hx

theorem digits_noMarkup {s : Str} (h : ∀ c ∈ s, c ∈ "0123456789".toList) : NoMarkup s := by
  intro c hc
  have h2 : c ∈ ['0', '1', '2', '3', '4', '5', '6', '7', '8', '9'] := h c hc
  simp only [List.mem_cons, List.not_mem_nil, or_false] at h2
  rcases h2 with rfl | rfl | rfl | rfl | rfl | rfl | rfl | rfl | rfl | rfl <;> decide

theorem num_noMarkup {t : Str} (h : NumText t) : NoMarkup t := by
  obtain ⟨sign, int, frac, exp, rfl, h1, h2, h3, h4⟩ := h
  refine .append ?_ (.append ?_ (.append ?_ ?_))
  · rcases h1 with rfl | rfl
    · exact noMarkup_nil
    · exact .cons (by decide) noMarkup_nil
  · rcases h2 with rfl | ⟨-, h, -⟩
    · exact .cons (by decide) noMarkup_nil
    · exact digits_noMarkup h
  · rcases h3 with rfl | ⟨ds, rfl, -, h⟩
    · exact noMarkup_nil
    · exact .cons (by decide) (digits_noMarkup h)
  · rcases h4 with rfl | ⟨e, sg, ds, rfl, he, hs, -, h⟩
    · exact noMarkup_nil
    · refine .cons ?_ (.append ?_ (digits_noMarkup h))
      · rcases he with rfl | rfl <;> decide
      · rcases hs with rfl | rfl | rfl
        · exact noMarkup_nil
        · exact .cons (by decide) noMarkup_nil
        · exact .cons (by decide) noMarkup_nil

theorem word_noMarkup {w : Str} (h : ∀ c ∈ w, c ∈ "nulltruefalse[]{}".toList) : NoMarkup w := by
  have : ∀ c ∈ "nulltruefalse[]{}".toList, c ≠ '<' ∧ c ≠ '>' ∧ c ≠ '&' ∧ c.toNat ≠ 0x2028 ∧ c.toNat ≠ 0x2029 := by decide
  exact fun c hc => this c (h c hc)

theorem quote_noMarkup (k : Str) : NoMarkup (quote true k) :=
  .cons (by decide) (.append (escape_noMarkup k) (.cons (by decide) noMarkup_nil))

mutual
theorem print_noMarkup (d : Nat) : (j : Json) → Marshaled j → NoMarkup (print ⟨false, true⟩ d j)
  | .null, _ => by rw [print]; exact word_noMarkup (by decide)
  | .bool true, _ => by rw [print]; exact word_noMarkup (by decide)
  | .bool false, _ => by rw [print]; exact word_noMarkup (by decide)
  | .num t, h => by rw [Marshaled] at h; rw [print]; exact num_noMarkup h
  | .str raw, h => by
    rw [Marshaled] at h
    obtain ⟨s, e⟩ := h
    cases e
    rw [print]
    exact .cons (by decide) (.append (escape_noMarkup s) (.cons (by decide) noMarkup_nil))
  | .arr [], _ => by rw [print]; exact word_noMarkup (by decide)
  | .arr (j :: l), h => by
    rw [Marshaled, MarshaledList] at h
    rw [print]
    exact .cons (by decide) (.append (.append noMarkup_nil (print_noMarkup _ j h.1)) (printElems_noMarkup _ l h.2))
  | .obj [], _ => by rw [print]; exact word_noMarkup (by decide)
  | .obj ((k, j) :: l), h => by
    rw [Marshaled, MarshaledMembers] at h
    rw [print]
    exact .cons (by decide) (.append (.append (.append (.append noMarkup_nil (quote_noMarkup k)) (.cons (by decide) noMarkup_nil))
      (print_noMarkup _ j h.1)) (printMembers_noMarkup _ l h.2))
theorem printElems_noMarkup (d : Nat) : (l : List Json) → MarshaledList l → NoMarkup (printElems ⟨false, true⟩ d l)
  | [], _ => by rw [printElems]; exact .append noMarkup_nil (.cons (by decide) noMarkup_nil)
  | j :: l, h => by
    rw [MarshaledList] at h
    rw [printElems]
    exact .cons (by decide) (.append (.append noMarkup_nil (print_noMarkup _ j h.1)) (printElems_noMarkup _ l h.2))
theorem printMembers_noMarkup (d : Nat) : (l : List (Str × Json)) → MarshaledMembers l → NoMarkup (printMembers ⟨false, true⟩ d l)
  | [], _ => by rw [printMembers]; exact .append noMarkup_nil (.cons (by decide) noMarkup_nil)
  | (k, j) :: l, h => by
    rw [MarshaledMembers] at h
    rw [printMembers]
    exact .cons (by decide) (.append (.append (.append (.append noMarkup_nil (quote_noMarkup k)) (.cons (by decide) noMarkup_nil))
      (print_noMarkup _ j h.1)) (printMembers_noMarkup _ l h.2))
end

theorem error_marshaled (e : RpcError) : Marshaled e.toJson := by
  unfold RpcError.toJson
  rw [Marshaled]
  by_cases h : e.cause = []
  · rw [if_pos h]
    simp only [List.append_nil, List.cons_append, List.nil_append, MarshaledMembers, and_true]
    refine ⟨⟨_, rfl⟩, ?_, ⟨_, rfl⟩, ?_⟩
    · rw [Marshaled]; exact numText_int _
    · rw [Marshaled]; exact numText_int _
  · rw [if_neg h]
    simp only [List.cons_append, List.nil_append, MarshaledMembers, and_true]
    refine ⟨⟨_, rfl⟩, ?_, ⟨_, rfl⟩, ⟨_, rfl⟩, ?_⟩
    · rw [Marshaled]; exact numText_int _
    · rw [Marshaled]; exact numText_int _

theorem sendError_noMarkup (s : Server) (e : RpcError) (b : Str) (h : Eff.write b ∈ (sendErrorJSON s e).1) : NoMarkup b := by
  have key : ∀ (hook : List Eff) (e : RpcError), (∀ b, Eff.write b ∉ hook) →
      Eff.write b ∈ (if e.httpStatus < 100 ∨ 999 < e.httpStatus then (hook ++ [.setHeader (S "Content-Type") (S "application/json")], Ends.panic (S "invalid WriteHeader code"))
        else (hook ++ [.setHeader (S "Content-Type") (S "application/json")] ++ [.writeHeader e.httpStatus, .write (print ⟨false, true⟩ 0 e.toJson)], .ok ()) : Run).1 →
      NoMarkup b := by
    intro hook e hh hb
    split at hb
    · simp [hh] at hb
    · simp [hh] at hb
      subst hb
      exact print_noMarkup 0 _ (error_marshaled e)
  unfold sendErrorJSON at h
  cases ho : s.onError with
  | none => rw [ho] at h; exact key [] e (by simp) h
  | some f => rw [ho] at h; exact key [Eff.onError e] (f e) (by simp) h

/-- C74. If the implementation's results are encoded the standard way, nothing a server writes contains a character that
means something in HTML. -/
theorem C74_no_markup [GoUnicode] (s : Server) (r : Request)
    (hm : ∀ p ∈ s.routes, ∀ a j, p.2.impl a = .result (some j) → Marshaled j)
    (b : Str) (h : Eff.write b ∈ (serveHTTP s r).1) : NoMarkup b := by
  have hsend := fun e => sendError_noMarkup s e b
  have hcall : ∀ m ∈ s.routes.map Prod.snd, ∀ a, Eff.write b ∈ (callImpl s m a).1 → NoMarkup b := by
    intro m hmem a hb
    unfold callImpl Run.andThen at hb
    dsimp only at hb
    rcases List.mem_append.1 hb with hb | hb
    · simp at hb
    cases hi : m.impl a with
    | panic v => rw [hi] at hb; simp at hb
    | error e => rw [hi] at hb; exact hsend _ hb
    | result j =>
      rw [hi] at hb
      dsimp only at hb
      split at hb
      · cases j with
        | none => exact hsend _ hb
        | some j =>
          simp at hb
          subst hb
          obtain ⟨p, hp, rfl⟩ := List.mem_map.1 hmem
          exact print_noMarkup 0 j (hm p hp a j hi)
      · simp at hb
        subst hb
        exact word_noMarkup (by decide)
  have hserve : ∀ m ∈ s.routes.map Prod.snd, Eff.write b ∈ (serveMethod s m r).1 → NoMarkup b := by
    intro m hmem hb
    unfold serveMethod at hb
    split at hb
    · split at hb
      · exact hsend _ hb
      · split at hb
        · exact hsend _ hb
        · exact hcall m hmem _ hb
    · exact hcall m hmem _ hb
  have hdisp : Eff.write b ∈ (dispatch s r).1 → NoMarkup b := by
    intro hb
    unfold dispatch at hb
    cases hl : s.routes.lookup r.path with
    | none => rw [hl] at hb; exact hsend _ hb
    | some m =>
      have hmem : m ∈ s.routes.map Prod.snd := List.mem_map.2 ⟨(r.path, m), lookup_mem hl, rfl⟩
      rw [hl] at hb
      dsimp only at hb
      split at hb
      · unfold Run.andThen at hb
        dsimp only at hb
        rcases List.mem_append.1 hb with hb | hb
        · simp at hb
        · exact hsend _ hb
      · split at hb
        · cases ho : s.onRequest with
          | none => rw [ho] at hb; exact hserve m hmem hb
          | some hook =>
            rw [ho] at hb
            unfold Run.andThen at hb
            dsimp only at hb
            rcases List.mem_append.1 hb with hb | hb
            · simp at hb
            · split at hb
              · simp at hb
              · exact hsend _ hb
              · exact hserve m hmem hb
        · exact hsend _ hb
  rw [serve_shape] at h
  split at h
  · rcases List.mem_cons.1 h with h | h
    · cases h
    · exact hdisp h
  · rcases List.mem_cons.1 h with h | h
    · cases h
    · rcases List.mem_append.1 h with h | h
      · exact hdisp h
      · exact hsend _ h

/-- Strings encoded the standard way meet the hypothesis. -/
example : Marshaled (.obj [(S "html", .ofStr true (S "<b>&amp;</b>"))]) ∧
    print ⟨false, true⟩ 0 (.obj [(S "html", .ofStr true (S "<b>"))]) = S "{\"html\":\"\\u003cb\\u003e\"}" :=
  ⟨by simp only [Marshaled, MarshaledMembers, and_true]; exact ⟨_, rfl⟩, by decide +kernel⟩

end Verif.Props
