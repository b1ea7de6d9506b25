import Verif.Spec.Cli
import Verif.Props.Generate
import Verif.Props.Filters
import Verif.Props.SchemaJson
/-!
# Proofs about the command webrpc-gen (C68-C69)
-/

namespace Verif.Cli
open Verif.Schema hiding Json
open Verif.Gen Verif.Spec Verif.Props
open Verif.Compile (mapSet)
open Verif.Json (GoPrint toJSON schemaHash)

/-! ## C68: flags -/

theorem own_iff (n : Str) : OwnFlag n ↔ TextFlag n ∨ Switch n := by
  unfold OwnFlag TextFlag Switch
  simp only [List.map_cons, List.map_nil, List.mem_cons, List.not_mem_nil, or_false]
  constructor
  · rintro (h | h | h | h | h | h | h | h | h | h | h | h) <;> simp [h]
  · rintro ((h | h | h | h | h | h | h) | (h | h | h | h | h)) <;> simp [h]

theorem text_not_switch {n : Str} (h : TextFlag n) : ¬ Switch n := by
  unfold TextFlag at h
  simp only [List.map_cons, List.map_nil, List.mem_cons, List.not_mem_nil, or_false] at h
  unfold Switch
  rcases h with h | h | h | h | h | h | h <;> subst h <;> decide

theorem isBoolFlag_iff (n : Str) : isBoolFlag n = true ↔ Switch n := by
  unfold isBoolFlag Switch
  rw [List.contains_iff_mem]
  exact Iff.rfl

theorem parseBool_iff (v : Str) (b : Bool) : parseBool v = some b ↔ BoolText v b := by
  unfold parseBool
  have h1 : [S "1", S "t", S "T", S "true", S "TRUE", S "True"].contains v = true ↔
      v ∈ ["1", "t", "T", "true", "TRUE", "True"].map String.toList := by rw [List.contains_iff_mem]; exact Iff.rfl
  have h2 : [S "0", S "f", S "F", S "false", S "FALSE", S "False"].contains v = true ↔
      v ∈ ["0", "f", "F", "false", "FALSE", "False"].map String.toList := by rw [List.contains_iff_mem]; exact Iff.rfl
  constructor
  · intro h
    split at h
    · rename_i hc; cases h; exact .on v (h1.1 hc)
    · split at h
      · rename_i hc; cases h; exact .off v (h2.1 hc)
      · cases h
  · intro h
    cases h with
    | on h => rw [if_pos (h1.2 h)]
    | off h =>
      rw [if_neg, if_pos (h2.2 h)]
      intro hc
      have h' := h1.1 hc
      simp only [List.map_cons, List.map_nil, List.mem_cons, List.not_mem_nil, or_false] at h
      rcases h with h | h | h | h | h | h <;> subst h <;> revert h' <;> decide

theorem own_text {n : Str} (h : OwnFlag n) : n ≠ [] ∧ n.head? ≠ some '-' ∧ n.head? ≠ some '=' ∧ '=' ∉ n := by
  unfold OwnFlag at h
  simp only [List.map_cons, List.map_nil, List.mem_cons, List.not_mem_nil, or_false] at h
  rcases h with h | h | h | h | h | h | h | h | h | h | h | h <;> subst h <;> decide

theorem nameValue_plain {n : Str} (h1 : n ≠ []) (h2 : n.head? ≠ some '-') (h4 : '=' ∉ n) : nameValue n = .flag n none := by
  cases n with
  | nil => exact absurd rfl h1
  | cons c r =>
    have hc : c ≠ '=' := by rintro rfl; simp at h4
    have hd : c ≠ '-' := by rintro rfl; simp at h2
    unfold nameValue
    simp only [hc, hd, or_self, if_false]
    rw [show S "=" = ['='] from rfl, cut_char_none.2 h4]

theorem nameValue_value {n v : Str} (h1 : n ≠ []) (h2 : n.head? ≠ some '-') (h4 : '=' ∉ n) :
    nameValue (n ++ S "=" ++ v) = .flag n (some v) := by
  cases n with
  | nil => exact absurd rfl h1
  | cons c r =>
    have hc : c ≠ '=' := by rintro rfl; simp at h4
    have hd : c ≠ '-' := by rintro rfl; simp at h2
    have hcut : cut (S "=") (c :: r ++ S "=" ++ v) = some (c :: r, v) := cut_char.2 ⟨h4, by rw [show S "=" = ['='] from rfl, List.append_assoc]; rfl⟩
    rw [show (c :: r ++ S "=" ++ v) = c :: (r ++ S "=" ++ v) from rfl] at hcut ⊢
    unfold nameValue
    simp only [hc, hd, or_self, if_false, hcut]

theorem flagText_dashes {d s : Str} (hd : Dashes d) (hs : s ≠ []) (h : s.head? ≠ some '-') : flagText (d ++ s) = nameValue s := by
  cases s with
  | nil => exact absurd rfl hs
  | cons c r =>
    have hc : c ≠ '-' := by rintro rfl; simp at h
    rcases hd with rfl | rfl
    · show flagText ('-' :: c :: r) = _
      rw [flagText.eq_def]
      split
      · rename_i h; cases h; exact absurd rfl hc
      · rename_i h; cases h; exact absurd rfl hc
      · rename_i h; cases h; rfl
      · rename_i h; exact absurd rfl (h _ _)
    · show flagText ('-' :: '-' :: c :: r) = _
      rfl

theorem flagText_many {d s : Str} (hd : d ≠ []) (hall : ∀ c ∈ d, c = '-') (hn : ¬ Dashes d) : flagText (d ++ s) = .bad := by
  match d, hd, hall, hn with
  | [a], _, hall, hn => exact absurd (.inl (by rw [hall a (by simp)]; rfl)) hn
  | [a, b], _, hall, hn => exact absurd (.inr (by rw [hall a (by simp), hall b (by simp)]; rfl)) hn
  | a :: b :: c :: r, _, hall, _ =>
    rw [hall a (by simp), hall b (by simp), hall c (by simp)]
    show flagText ('-' :: '-' :: '-' :: (r ++ s)) = _
    rw [flagText.eq_def]
    rfl

/-- Setting the flags one after the other. -/
def setAll (f : Flags) : List (Str × Str) → Option Flags
  | [] => some f
  | p :: r => match setFlag f p.1 p.2 with
    | none => none
    | some f => setAll f r

theorem setFlag_text {n : Str} (h : TextFlag n) (f : Flags) (v : Str) : ∃ f', setFlag f n v = some f' := by
  unfold TextFlag at h
  simp only [List.map_cons, List.map_nil, List.mem_cons, List.not_mem_nil, or_false] at h
  rcases h with h | h | h | h | h | h | h <;> subst h <;> exact ⟨_, rfl⟩

theorem setFlag_switch {n : Str} (h : Switch n) (f : Flags) (v : Str) : (∃ f', setFlag f n v = some f') ↔ ∃ b, BoolText v b := by
  have key : ∀ g : Bool → Flags, (∃ f', (parseBool v).map g = some f') ↔ ∃ b, BoolText v b := by
    intro g
    simp only [← parseBool_iff]
    cases parseBool v <;> simp
  unfold Switch at h
  simp only [List.map_cons, List.map_nil, List.mem_cons, List.not_mem_nil, or_false] at h
  rcases h with h | h | h | h | h <;> subst h <;> exact key _

theorem parseFlags_iff (m : Nat) (cli : List Str) (hm : cli.length ≤ m) (f0 f : Flags) (h : ∀ a ∈ cli, ∃ n v, CliArg a n v) :
    parseFlags f0 cli = .ok f ↔ ∃ sets, Settings cli sets ∧ setAll f0 sets = some f := by
  induction m generalizing cli f0 with
  | zero =>
    cases cli with
    | nil =>
      rw [parseFlags]
      constructor
      · intro h; cases h; exact ⟨[], .nil, rfl⟩
      · rintro ⟨s, h1, h2⟩; cases h1; cases h2; rfl
    | cons a r => simp at hm
  | succ m ih =>
    cases cli with
    | nil =>
      rw [parseFlags]
      constructor
      · intro h; cases h; exact ⟨[], .nil, rfl⟩
      · rintro ⟨s, h1, h2⟩; cases h1; cases h2; rfl
    | cons a r =>
      have hr : ∀ a ∈ r, ∃ n v, CliArg a n v := fun x hx => h x (by simp [hx])
      have hlen : r.length ≤ m := by simpa using hm
      constructor
      · intro hp
        obtain ⟨n, v, hc⟩ := h a (by simp)
        cases hc with
        | plain d _ h1 h2 h3 h4 h5 =>
          by_cases hd : Dashes d
          · rw [parseFlags, flagText_dashes hd h3 h4, nameValue_plain h3 h4 h5] at hp
            dsimp only at hp
            by_cases ho : flagNames.contains n = true
            · simp only [ho, Bool.not_true, Bool.false_eq_true, if_false] at hp
              by_cases hb : isBoolFlag n = true
              · simp only [hb, if_true, Option.getD_none] at hp
                cases e : setFlag f0 n (S "true") with
                | none => rw [e] at hp; cases hp
                | some f1 =>
                  rw [e] at hp
                  obtain ⟨s, s1, s2⟩ := (ih r hlen f1 hr).1 hp
                  exact ⟨_, .switchOn hd ((isBoolFlag_iff n).1 hb) s1, by rw [setAll, e]; exact s2⟩
              · simp only [hb, if_false, Bool.false_eq_true] at hp
                have ht : TextFlag n := ((own_iff n).1 ((ownFlag_iff n).1 ho)).resolve_right fun hs => hb ((isBoolFlag_iff n).2 hs)
                cases r with
                | nil => cases hp
                | cons v r =>
                  dsimp only at hp
                  cases e : setFlag f0 n v with
                  | none => rw [e] at hp; cases hp
                  | some f1 =>
                    rw [e] at hp
                    have hl2 : r.length ≤ m := by simp at hlen; omega
                    obtain ⟨s, s1, s2⟩ := (ih r hl2 f1 fun x hx => hr x (by simp [hx])).1 hp
                    exact ⟨_, .next hd ht s1, by rw [setAll, e]; exact s2⟩
            · simp only [ho, Bool.not_false, if_true] at hp
              split at hp <;> cases hp
          · rw [parseFlags, flagText_many h1 h2 hd] at hp
            cases hp
        | value d _ _ h1 h2 h3 h4 h5 =>
          by_cases hd : Dashes d
          · have he : (n ++ S "=" ++ v) ≠ [] := by cases n <;> simp_all
            have hh : (n ++ S "=" ++ v).head? ≠ some '-' := by cases n <;> simp_all
            rw [parseFlags, show d ++ n ++ S "=" ++ v = d ++ (n ++ S "=" ++ v) from by simp, flagText_dashes hd he hh, nameValue_value h3 h4 h5] at hp
            dsimp only at hp
            by_cases ho : flagNames.contains n = true
            · simp only [ho, Bool.not_true, Bool.false_eq_true, if_false] at hp
              by_cases hb : isBoolFlag n = true
              · simp only [hb, if_true, Option.getD_some] at hp
                cases e : setFlag f0 n v with
                | none => rw [e] at hp; cases hp
                | some f1 =>
                  rw [e] at hp
                  obtain ⟨s, s1, s2⟩ := (ih r hlen f1 hr).1 hp
                  have hs := (isBoolFlag_iff n).1 hb
                  obtain ⟨b, hbt⟩ := (setFlag_switch hs f0 v).1 ⟨_, e⟩
                  exact ⟨_, .switchTo hd hs hbt s1, by rw [setAll, e]; exact s2⟩
              · simp only [hb, if_false, Bool.false_eq_true] at hp
                have ht : TextFlag n := ((own_iff n).1 ((ownFlag_iff n).1 ho)).resolve_right fun hs => hb ((isBoolFlag_iff n).2 hs)
                cases e : setFlag f0 n v with
                | none => rw [e] at hp; cases hp
                | some f1 =>
                  rw [e] at hp
                  obtain ⟨s, s1, s2⟩ := (ih r hlen f1 hr).1 hp
                  exact ⟨_, .text hd ht s1, by rw [setAll, e]; exact s2⟩
            · simp only [ho, Bool.not_false, if_true] at hp
              split at hp <;> cases hp
          · rw [parseFlags, show d ++ n ++ S "=" ++ v = d ++ (n ++ S "=" ++ v) from by simp, flagText_many h1 h2 hd] at hp
            cases hp
      · rintro ⟨s, hs, hset⟩
        cases hs with
        | @text d n v r s hd ht hs =>
          obtain ⟨t1, t2, t3, t4⟩ := own_text ((own_iff n).2 (.inl ht))
          have he : (n ++ S "=" ++ v) ≠ [] := by cases n <;> simp_all
          have hh : (n ++ S "=" ++ v).head? ≠ some '-' := by cases n <;> simp_all
          have hb : isBoolFlag n = false := by
            cases hb : isBoolFlag n with
            | false => rfl
            | true => exact absurd ((isBoolFlag_iff n).1 hb) (text_not_switch ht)
          rw [parseFlags, show d ++ n ++ S "=" ++ v = d ++ (n ++ S "=" ++ v) from by simp, flagText_dashes hd he hh, nameValue_value t1 t2 t4]
          simp only [(ownFlag_iff n).2 ((own_iff n).2 (.inl ht)), hb, Bool.not_true, Bool.false_eq_true, if_false]
          obtain ⟨f1, e⟩ := setFlag_text ht f0 v
          rw [setAll] at hset
          simp only [e] at hset ⊢
          exact (ih r hlen f1 hr).2 ⟨s, hs, hset⟩
        | @next d n v r s hd ht hs =>
          obtain ⟨t1, t2, t3, t4⟩ := own_text ((own_iff n).2 (.inl ht))
          have hb : isBoolFlag n = false := by
            cases hb : isBoolFlag n with
            | false => rfl
            | true => exact absurd ((isBoolFlag_iff n).1 hb) (text_not_switch ht)
          rw [parseFlags, flagText_dashes hd t1 t2, nameValue_plain t1 t2 t4]
          simp only [(ownFlag_iff n).2 ((own_iff n).2 (.inl ht)), hb, Bool.not_true, Bool.false_eq_true, if_false]
          obtain ⟨f1, e⟩ := setFlag_text ht f0 v
          rw [setAll] at hset
          simp only [e] at hset ⊢
          have hl2 : r.length ≤ m := by simp at hlen; omega
          exact (ih r hl2 f1 fun x hx => hr x (by simp [hx])).2 ⟨s, hs, hset⟩
        | @switchTo d n v b r s hd hw hbt hs =>
          obtain ⟨t1, t2, t3, t4⟩ := own_text ((own_iff n).2 (.inr hw))
          have he : (n ++ S "=" ++ v) ≠ [] := by cases n <;> simp_all
          have hh : (n ++ S "=" ++ v).head? ≠ some '-' := by cases n <;> simp_all
          rw [parseFlags, show d ++ n ++ S "=" ++ v = d ++ (n ++ S "=" ++ v) from by simp, flagText_dashes hd he hh, nameValue_value t1 t2 t4]
          simp only [(ownFlag_iff n).2 ((own_iff n).2 (.inr hw)), (isBoolFlag_iff n).2 hw, Bool.not_true, Bool.false_eq_true, if_false, if_true, Option.getD_some]
          obtain ⟨f1, e⟩ := (setFlag_switch hw f0 v).2 ⟨b, hbt⟩
          rw [setAll] at hset
          simp only [e] at hset ⊢
          exact (ih r hlen f1 hr).2 ⟨s, hs, hset⟩
        | @switchOn d n r s hd hw hs =>
          obtain ⟨t1, t2, t3, t4⟩ := own_text ((own_iff n).2 (.inr hw))
          rw [parseFlags, flagText_dashes hd t1 t2, nameValue_plain t1 t2 t4]
          simp only [(ownFlag_iff n).2 ((own_iff n).2 (.inr hw)), (isBoolFlag_iff n).2 hw, Bool.not_true, Bool.false_eq_true, if_false, if_true, Option.getD_none]
          obtain ⟨f1, e⟩ := (setFlag_switch hw f0 (S "true")).2 ⟨true, .on _ (by decide)⟩
          rw [setAll] at hset
          simp only [e] at hset ⊢
          exact (ih r hlen f1 hr).2 ⟨s, hs, hset⟩

/-- What one setting changes. -/
theorem setFlag_changes {f f' : Flags} {n v : Str} (h : setFlag f n v = some f') :
    (TextFlag n → textValue f' n = v) ∧ (Switch n → BoolText v (switchValue f' n)) ∧
    (∀ k, k ≠ n → textValue f' k = textValue f k ∧ switchValue f' k = switchValue f k) := by
  have hb : ∀ {g : Bool → Flags}, (parseBool v).map g = some f' → ∃ b, BoolText v b ∧ f' = g b := by
    intro g hg
    obtain ⟨b, e1, e2⟩ := Option.map_eq_some_iff.1 hg
    exact ⟨b, (parseBool_iff v b).1 e1, e2.symm⟩
  unfold setFlag at h
  by_cases e : n = S "version"
  · rw [if_pos e] at h
    subst e
    obtain ⟨b, hbt, rfl⟩ := hb h
    exact ⟨fun ht => absurd ht (by unfold TextFlag; decide), fun _ => hbt, fun k hk => ⟨rfl, by simp only [switchValue, hk, if_false]⟩⟩
  rw [if_neg e] at h
  clear e
  by_cases e : n = S "schema"
  · rw [if_pos e] at h
    subst e
    cases h
    exact ⟨fun _ => rfl, fun ht => absurd ht (by unfold Switch; decide), fun k hk => ⟨by simp only [textValue, hk, if_false], rfl⟩⟩
  rw [if_neg e] at h
  clear e
  by_cases e : n = S "schemaVersion"
  · rw [if_pos e] at h
    subst e
    cases h
    exact ⟨fun _ => rfl, fun ht => absurd ht (by unfold Switch; decide), fun k hk => ⟨by simp only [textValue, hk, if_false], rfl⟩⟩
  rw [if_neg e] at h
  clear e
  by_cases e : n = S "target"
  · rw [if_pos e] at h
    subst e
    cases h
    exact ⟨fun _ => rfl, fun ht => absurd ht (by unfold Switch; decide), fun k hk => ⟨by simp only [textValue, hk, if_false], rfl⟩⟩
  rw [if_neg e] at h
  clear e
  by_cases e : n = S "out"
  · rw [if_pos e] at h
    subst e
    cases h
    exact ⟨fun _ => rfl, fun ht => absurd ht (by unfold Switch; decide), fun k hk => ⟨by simp only [textValue, hk, if_false], rfl⟩⟩
  rw [if_neg e] at h
  clear e
  by_cases e : n = S "fmt"
  · rw [if_pos e] at h
    subst e
    obtain ⟨b, hbt, rfl⟩ := hb h
    exact ⟨fun ht => absurd ht (by unfold TextFlag; decide), fun _ => hbt, fun k hk => ⟨rfl, by simp only [switchValue, hk, if_false]⟩⟩
  rw [if_neg e] at h
  clear e
  by_cases e : n = S "refreshCache"
  · rw [if_pos e] at h
    subst e
    obtain ⟨b, hbt, rfl⟩ := hb h
    exact ⟨fun ht => absurd ht (by unfold TextFlag; decide), fun _ => hbt, fun k hk => ⟨rfl, by simp only [switchValue, hk, if_false]⟩⟩
  rw [if_neg e] at h
  clear e
  by_cases e : n = S "silent"
  · rw [if_pos e] at h
    subst e
    obtain ⟨b, hbt, rfl⟩ := hb h
    exact ⟨fun ht => absurd ht (by unfold TextFlag; decide), fun _ => hbt, fun k hk => ⟨rfl, by simp only [switchValue, hk, if_false]⟩⟩
  rw [if_neg e] at h
  clear e
  by_cases e : n = S "service"
  · rw [if_pos e] at h
    subst e
    cases h
    exact ⟨fun _ => rfl, fun ht => absurd ht (by unfold Switch; decide), fun k hk => ⟨by simp only [textValue, hk, if_false], rfl⟩⟩
  rw [if_neg e] at h
  clear e
  by_cases e : n = S "methodTreeShake"
  · rw [if_pos e] at h
    subst e
    obtain ⟨b, hbt, rfl⟩ := hb h
    exact ⟨fun ht => absurd ht (by unfold TextFlag; decide), fun _ => hbt, fun k hk => ⟨rfl, by simp only [switchValue, hk, if_false]⟩⟩
  rw [if_neg e] at h
  clear e
  by_cases e : n = S "ignore"
  · rw [if_pos e] at h
    subst e
    cases h
    exact ⟨fun _ => rfl, fun ht => absurd ht (by unfold Switch; decide), fun k hk => ⟨by simp only [textValue, hk, if_false], rfl⟩⟩
  rw [if_neg e] at h
  clear e
  by_cases e : n = S "match"
  · rw [if_pos e] at h
    subst e
    cases h
    exact ⟨fun _ => rfl, fun ht => absurd ht (by unfold Switch; decide), fun k hk => ⟨by simp only [textValue, hk, if_false], rfl⟩⟩
  rw [if_neg e] at h
  clear e
  cases h

theorem lastPair_cons {p : Str × Str} {l : List (Str × Str)} {k v : Str} :
    LastPair (p :: l) k v ↔ LastPair l k v ∨ (p = (k, v) ∧ ∀ w, (k, w) ∉ l) := by
  constructor
  · rintro ⟨l1, l2, e, h⟩
    cases l1 with
    | nil =>
      rw [List.nil_append] at e
      cases e
      exact .inr ⟨rfl, fun w hw => h _ hw rfl⟩
    | cons q l1 =>
      rw [List.cons_append] at e
      cases e
      exact .inl ⟨l1, l2, rfl, h⟩
  · rintro (⟨l1, l2, e, h⟩ | ⟨rfl, h⟩)
    · exact ⟨p :: l1, l2, by rw [e]; rfl, h⟩
    · exact ⟨[], l, rfl, fun q hq hk => h q.2 (by rw [← hk]; exact hq)⟩

theorem lastPair_mem {l : List (Str × Str)} {k v : Str} (h : LastPair l k v) : (k, v) ∈ l := by
  obtain ⟨l1, l2, rfl, -⟩ := h
  simp

theorem setAll_values {sets : List (Str × Str)} {f f' : Flags} (h : setAll f sets = some f') :
    (∀ n, TextFlag n → ∀ v, LastPair sets n v → textValue f' n = v) ∧
    (∀ n, Switch n → ∀ v, LastPair sets n v → BoolText v (switchValue f' n)) ∧
    (∀ n, (∀ v, (n, v) ∉ sets) → textValue f' n = textValue f n ∧ switchValue f' n = switchValue f n) := by
  induction sets generalizing f with
  | nil =>
    cases h
    refine ⟨fun n _ v hl => absurd (lastPair_mem hl) (by simp), fun n _ v hl => absurd (lastPair_mem hl) (by simp), fun n _ => ⟨rfl, rfl⟩⟩
  | cons p r ih =>
    rw [setAll] at h
    cases e : setFlag f p.1 p.2 with
    | none => rw [e] at h; cases h
    | some f1 =>
      rw [e] at h
      obtain ⟨i1, i2, i3⟩ := ih h
      obtain ⟨c1, c2, c3⟩ := setFlag_changes e
      refine ⟨fun n ht v hl => ?_, fun n ht v hl => ?_, fun n hn => ?_⟩
      · rcases lastPair_cons.1 hl with hl | ⟨rfl, hno⟩
        · exact i1 n ht v hl
        · rw [(i3 n hno).1]; exact c1 ht
      · rcases lastPair_cons.1 hl with hl | ⟨rfl, hno⟩
        · exact i2 n ht v hl
        · rw [(i3 n hno).2]; exact c2 ht
      · have h1 := i3 n fun v hv => hn v (by simp [hv])
        have h2 := c3 n fun hk => hn p.2 (by rw [hk]; simp)
        exact ⟨h1.1.trans h2.1, h1.2.trans h2.2⟩

theorem flags_ext {f g : Flags} (h1 : ∀ n, TextFlag n → textValue f n = textValue g n) (h2 : ∀ n, Switch n → switchValue f n = switchValue g n) : f = g := by
  cases f; cases g
  have a1 := h1 (S "schema") (by unfold TextFlag; decide)
  have a2 := h1 (S "schemaVersion") (by unfold TextFlag; decide)
  have a3 := h1 (S "target") (by unfold TextFlag; decide)
  have a4 := h1 (S "out") (by unfold TextFlag; decide)
  have a5 := h1 (S "service") (by unfold TextFlag; decide)
  have a6 := h1 (S "ignore") (by unfold TextFlag; decide)
  have a7 := h1 (S "match") (by unfold TextFlag; decide)
  have b1 := h2 (S "version") (by unfold Switch; decide)
  have b2 := h2 (S "fmt") (by unfold Switch; decide)
  have b3 := h2 (S "refreshCache") (by unfold Switch; decide)
  have b4 := h2 (S "silent") (by unfold Switch; decide)
  have b5 := h2 (S "methodTreeShake") (by unfold Switch; decide)
  change _ = _ at a1
  simp only [Flags.mk.injEq]
  exact ⟨b1, a1, a2, a3, a4, b2, b3, b4, a5, b5, a6, a7⟩

theorem last_or_none (l : List (Str × Str)) (k : Str) : (∃ v, LastPair l k v) ∨ ∀ v, (k, v) ∉ l := by
  induction l with
  | nil => exact .inr fun v hv => by simp at hv
  | cons p l ih =>
    rcases ih with ⟨v, hv⟩ | h
    · exact .inl ⟨v, lastPair_cons.2 (.inl hv)⟩
    · by_cases hp : p.1 = k
      · exact .inl ⟨p.2, lastPair_cons.2 (.inr ⟨by rw [← hp], h⟩)⟩
      · refine .inr fun v hv => ?_
        rcases List.mem_cons.1 hv with hv | hv
        · exact hp (by rw [← hv])
        · exact h v hv

theorem boolText_unique {v : Str} {a b : Bool} (h : BoolText v a) (h' : BoolText v b) : a = b := by
  have := ((parseBool_iff v a).2 h).symm.trans ((parseBool_iff v b).2 h')
  simpa using this

theorem flagsAre_unique {sets : List (Str × Str)} {f g : Flags} (hf : FlagsAre sets f) (hg : FlagsAre sets g) : f = g := by
  refine flags_ext (fun n hn => ?_) fun n hn => ?_
  · rcases last_or_none sets n with ⟨v, hv⟩ | h
    · rw [hf.text n hn v hv, hg.text n hn v hv]
    · rw [hf.textDefault n hn h, hg.textDefault n hn h]
  · rcases last_or_none sets n with ⟨v, hv⟩ | h
    · exact boolText_unique (hf.switch n hn v hv) (hg.switch n hn v hv)
    · rw [hf.switchDefault n hn h, hg.switchDefault n hn h]

theorem settings_set {cli : List Str} {sets : List (Str × Str)} (h : Settings cli sets) (f : Flags) : ∃ f', setAll f sets = some f' := by
  induction h generalizing f with
  | nil => exact ⟨f, rfl⟩
  | @text d n v r s _ ht _ ih =>
    obtain ⟨f1, e⟩ := setFlag_text ht f v
    rw [setAll, e]; exact ih f1
  | @next d n v r s _ ht _ ih =>
    obtain ⟨f1, e⟩ := setFlag_text ht f v
    rw [setAll, e]; exact ih f1
  | @switchTo d n v b r s _ ht hb _ ih =>
    obtain ⟨f1, e⟩ := (setFlag_switch ht f v).2 ⟨b, hb⟩
    rw [setAll, e]; exact ih f1
  | @switchOn d n r s _ ht _ ih =>
    obtain ⟨f1, e⟩ := (setFlag_switch ht f (S "true")).2 ⟨true, .on _ (by decide)⟩
    rw [setAll, e]; exact ih f1

theorem setAll_are {sets : List (Str × Str)} {f : Flags} (h : setAll {} sets = some f) : FlagsAre sets f := by
  obtain ⟨h1, h2, h3⟩ := setAll_values h
  refine ⟨h1, fun n hn hv => ?_, h2, fun n hn hv => ?_⟩
  · rw [(h3 n hv).1]
    unfold TextFlag at hn
    simp only [List.map_cons, List.map_nil, List.mem_cons, List.not_mem_nil, or_false] at hn
    rcases hn with h | h | h | h | h | h | h <;> subst h <;> decide
  · rw [(h3 n hv).2]
    unfold Switch at hn
    simp only [List.map_cons, List.map_nil, List.mem_cons, List.not_mem_nil, or_false] at hn
    rcases hn with h | h | h | h | h <;> subst h <;> decide

/-- C68. The flags of the program are accepted exactly when they are written as described by `Settings`, and then every
flag has the value last given to it, or its default. -/
theorem C68_flags (cli : List Str) (f : Flags) (h : ∀ a ∈ cli, ∃ n v, CliArg a n v) :
    parseFlags {} cli = .ok f ↔ ∃ sets, Settings cli sets ∧ FlagsAre sets f := by
  rw [parseFlags_iff cli.length cli (Nat.le_refl _) {} f h]
  constructor
  · rintro ⟨s, h1, h2⟩
    exact ⟨s, h1, setAll_are h2⟩
  · rintro ⟨s, h1, h2⟩
    obtain ⟨f', e⟩ := settings_set h1 {}
    rw [flagsAre_unique h2 (setAll_are e)]
    exact ⟨s, h1, e⟩

/-- C68. Both parts of the command line: what is not a flag of the program goes to the templates (C49), the flags are
read as above. -/
theorem C68_command (args : List Str) (f : Flags) (opts : List (Str × Str)) :
    (∃ own, collectCliArgs args = some (own, opts) ∧ parseFlags {} own = .ok f) ↔ Command args f opts := by
  have hown : ∀ own, collectCliArgs args = some (own, opts) → ∀ a ∈ own, ∃ n v, CliArg a n v := by
    intro own h a ha
    rw [C49_flags args own opts h] at ha
    have := (List.mem_filter.1 ha).2
    simp only [decide_eq_true_eq] at this
    obtain ⟨n, v, hc, -⟩ := this
    exact ⟨n, v, hc⟩
  constructor
  · rintro ⟨own, h1, h2⟩
    exact ⟨own, h1, (C68_flags own f (hown own h1)).1 h2⟩
  · rintro ⟨own, h1, h2⟩
    exact ⟨own, h1, (C68_flags own f (hown own h1)).2 h2⟩

/-- C68: a command line with both kinds of arguments. -/
theorem C68_example : Command [S "-schema=a.ridl", S "-client", S "--target=golang", S "-fmt=0", S "-silent", S "-target=json"]
    { schema := S "a.ridl", target := S "json", fmt := false, silent := true } [(S "client", [])] := by
  rw [← C68_command]
  exact ⟨[S "-schema=a.ridl", S "--target=golang", S "-fmt=0", S "-silent", S "-target=json"], by decide +kernel, by decide +kernel⟩

/-- C68: a flag written without its value takes the next flag as its value, even across options for the templates. -/
theorem C68_next_argument : Command [S "-schema", S "-client", S "-target=json"]
    { schema := S "-target=json" } [(S "client", [])] := by
  rw [← C68_command]
  exact ⟨[S "-schema", S "-target=json"], by decide +kernel, by decide +kernel⟩

/-! ## C69: what is generated -/

theorem items_iff (text : Str) (items : List Str) : Items text items ↔ items = split (S ",") text := by
  rw [show S "," = [','] from rfl]
  constructor
  · rintro ⟨h1, h2, rfl⟩
    exact (split_join h1 h2).symm
  · rintro rfl
    refine ⟨split_ne_nil (by simp), ?_, join_split.symm⟩
    intro i hi hc
    refine split_free (sep := [',']) (by simp) hi ?_
    obtain ⟨a, b, rfl⟩ := List.append_of_mem hc
    exact ⟨a, b, by simp⟩

theorem annText_unique {a n v n' v' : Str} (h : AnnText a n v) (h' : AnnText a n' v') : n = n' ∧ v = v' := by
  obtain ⟨x, full, h1, h2⟩ := annText_iff.1 h
  obtain ⟨x', full', h1', h2'⟩ := annText_iff.1 h'
  rw [h1] at h1'
  cases h1'
  rcases h2 with ⟨e, rfl, rfl⟩ | e <;> rcases h2' with ⟨e', rfl, rfl⟩ | e'
  · exact ⟨rfl, rfl⟩
  · rw [e] at e'; cases e'
  · rw [e'] at e; cases e
  · rw [e] at e'; cases e'; exact ⟨rfl, rfl⟩

theorem annTexts_unique {items : List Str} {ps ps' : List (Str × Str)} (h : AnnTexts items ps) (h' : AnnTexts items ps') : ps = ps' := by
  induction h generalizing ps' with
  | nil => cases h'; rfl
  | cons h1 _ ih =>
    cases h' with
    | cons h1' h2' =>
      obtain ⟨rfl, rfl⟩ := annText_unique h1 h1'
      rw [ih h2']

theorem mapSet_keys {β : Type} (k : Str) (v : β) (m : List (Str × β)) (h : (m.map Prod.fst).Nodup) :
    ((mapSet k v m).map Prod.fst).Nodup ∧ ∀ x, x ∈ (mapSet k v m).map Prod.fst ↔ x = k ∨ x ∈ m.map Prod.fst := by
  induction m with
  | nil => simp [mapSet]
  | cons p m ih =>
    obtain ⟨k', v'⟩ := p
    rw [List.map_cons, List.nodup_cons] at h
    obtain ⟨i1, i2⟩ := ih h.2
    unfold mapSet
    by_cases hk : k' = k
    · rw [if_pos hk]
      subst hk
      refine ⟨by rw [List.map_cons, List.nodup_cons]; exact h, fun x => by simp⟩
    · rw [if_neg hk]
      refine ⟨?_, fun x => ?_⟩
      · rw [List.map_cons, List.nodup_cons]
        refine ⟨fun hm => ?_, i1⟩
        rcases (i2 k').1 hm with e | e
        · exact hk e
        · exact h.1 e
      · rw [List.map_cons, List.mem_cons, i2 x, List.map_cons, List.mem_cons]
        constructor
        · rintro (h | h | h) <;> simp [h]
        · rintro (h | h | h) <;> simp [h]

theorem annLoop_keys (items : List Str) (m m' : List (Str × Str)) (h : (m.map Prod.fst).Nodup) (hm : annLoop m items = some m') :
    (m'.map Prod.fst).Nodup := by
  induction items generalizing m with
  | nil => cases hm; exact h
  | cons a r ih =>
    rw [annLoop] at hm
    split at hm
    · cases hm
    · split at hm
      · exact ih _ (mapSet_keys _ _ _ h).1 hm
      · exact ih _ (mapSet_keys _ _ _ h).1 hm

theorem mem_lookup {m : List (Str × Str)} (h : (m.map Prod.fst).Nodup) (k v : Str) : (k, v) ∈ m ↔ m.lookup k = some v := by
  induction m with
  | nil => simp
  | cons p m ih =>
    obtain ⟨k', v'⟩ := p
    rw [List.map_cons, List.nodup_cons] at h
    rw [List.mem_cons, List.lookup_cons]
    by_cases hk : k = k'
    · subst hk
      simp only [beq_self_eq_true, Prod.mk.injEq, true_and, Option.some.injEq]
      constructor
      · rintro (rfl | hm)
        · rfl
        · exact absurd (List.mem_map.2 ⟨_, hm, rfl⟩) h.1
      · rintro rfl; exact .inl rfl
    · have hb : (k == k') = false := by simpa using hk
      rw [hb]
      simp only [Prod.mk.injEq, hk, false_and, false_or]
      exact ih h.2

theorem asked_iff {text : Str} {anns : List (Str × Str)} (h : makeAnnotationsMap text = some anns) (m : Method) :
    Asked text m ↔ CarriesOne m anns := by
  have hk : (anns.map Prod.fst).Nodup := annLoop_keys _ [] anns (by simp) h
  obtain ⟨ps, h1, h2⟩ := annLoop_iff _ [] [] anns holdsLast_nil h
  rw [List.nil_append] at h2
  constructor
  · rintro ⟨items, ps', k, v, hi, ht, hl, hc⟩
    rw [(items_iff _ _).1 hi] at ht
    rw [annTexts_unique ht h1] at hl
    exact ⟨(k, v), (mem_lookup hk k v).2 ((h2 k v).2 hl), hc⟩
  · rintro ⟨⟨k, v⟩, hm, hc⟩
    exact ⟨_, ps, k, v, (items_iff _ _).2 rfl, h1, (h2 k v).1 ((mem_lookup hk k v).1 hm), hc⟩

theorem annotations_some (text : Str) : (∃ anns, makeAnnotationsMap text = some anns) ↔ ∀ items, Items text items → ∀ i ∈ items, '@' ∈ i := by
  have hn := annLoop_none (split (S ",") text) []
  constructor
  · rintro ⟨anns, h⟩ items hi i him
    rw [(items_iff _ _).1 hi] at him
    cases hc : decide ('@' ∈ i) with
    | true => exact of_decide_eq_true hc
    | false =>
      have := hn.2 ⟨i, him, of_decide_eq_false hc⟩
      unfold makeAnnotationsMap at h
      rw [h] at this
      cases this
  · intro h
    cases e : makeAnnotationsMap text with
    | some a => exact ⟨a, rfl⟩
    | none =>
      obtain ⟨i, hi, hni⟩ := hn.1 e
      exact absurd (h _ ((items_iff _ _).2 rfl) i hi) hni

theorem filters_iff (f : Flags) (s : Schema) : (∃ s', selectMethods f s = some s') ↔ FiltersOk f := by
  unfold selectMethods FiltersOk
  by_cases h1 : f.ignore = [] <;> by_cases h2 : f.matching = []
  · simp [h1, h2]
  · simp only [h1, h2, ne_eq, not_true, false_and, if_false, not_false_eq_true, if_true, true_and, List.mem_cons, List.not_mem_nil, or_false, forall_eq_or_imp, forall_eq, false_implies, forall_const]
    rw [← annotations_some]
    constructor
    · rintro ⟨s', h⟩
      obtain ⟨a, ha, -⟩ := Option.map_eq_some_iff.1 h
      exact ⟨a, ha⟩
    · rintro ⟨a, ha⟩
      exact ⟨_, by rw [ha]; rfl⟩
  · simp only [h1, h2, ne_eq, not_true, and_false, if_false, not_false_eq_true, if_true, or_true, true_and, List.mem_cons, List.not_mem_nil, or_false, forall_eq_or_imp, forall_eq, false_implies, and_true, forall_const]
    rw [← annotations_some]
    constructor
    · rintro ⟨s', h⟩
      obtain ⟨a, ha, -⟩ := Option.map_eq_some_iff.1 h
      exact ⟨a, ha⟩
    · rintro ⟨a, ha⟩
      exact ⟨_, by rw [ha]; rfl⟩
  · simp [h1, h2]

theorem prepare_parts (w : World) (f : Flags) (s : Schema) :
    prepare w f s = { s with
      basePath := if s.basePath = [] ∧ s.services ≠ [] then S "/rpc/" else s.basePath
      schemaVersion := if f.schemaVersion ≠ S "$WEBRPC_SCHEMA_VERSION" then f.schemaVersion
        else if w.schemaVersionVar ≠ [] then w.schemaVersionVar else s.schemaVersion } := by
  have hd : defaultBasePath s = { s with basePath := if s.basePath = [] ∧ s.services ≠ [] then S "/rpc/" else s.basePath } := by
    unfold defaultBasePath
    by_cases h : s.basePath = [] ∧ s.services ≠ []
    · rw [if_pos h, if_pos h]
    · rw [if_neg h, if_neg h]
  unfold prepare
  dsimp only
  rw [hd]
  by_cases h2 : f.schemaVersion = S "$WEBRPC_SCHEMA_VERSION" <;> by_cases h3 : w.schemaVersionVar = [] <;>
    simp only [h2, h3, if_true, if_false, ne_eq, not_true, not_false_eq_true]

theorem treeShake_eq (n : Nat) (s s' : Schema) (names : List Str) (h : treeShakeN n s names = some s') (p : TypeDecl → Bool)
    (hp : ∀ t, p t = true ↔ NeededBy s names t) :
    s' = { s with types := s.types.filter p, nils := { s.nils with types := true } } := by
  obtain ⟨used, rfl, hu⟩ := treeShake_some n s s' names h
  have hfun : (fun t : TypeDecl => used.contains t.name) = p := by
    funext t
    rw [Bool.eq_iff_iff, hp, List.contains_iff_mem, hu]
    constructor
    · rintro ⟨v, hv, hvn, a, ha, u, hn, hw, hne⟩
      exact ⟨hne, v, hv, hvn, a, ha, u, hn, hw.symm⟩
    · rintro ⟨hne, v, hv, hvn, a, ha, u, hn, hw⟩
      exact ⟨v, hv, hvn, a, ha, u, hn, hw.symm, hne⟩
  rw [hfun]

theorem filter_true {α : Type} (l : List α) (p : α → Bool) (h : ∀ x, p x = true) : l.filter p = l := by
  rw [List.filter_eq_self]; intro x _; exact h x

open Classical in
theorem selectServices_eq (n : Nat) (f : Flags) (s s' : Schema) (h : selectServices n f s = some s') :
    s' = { s with types := s.types.filter fun t => decide (KeptType f s t)
                  services := s.services.filter fun v => decide (Chosen f v)
                  nils := { s.nils with
                    types := s.nils.types || decide (f.methodTreeShake = true ∧ f.service ≠ [])
                    services := s.nils.services || decide (f.service ≠ []) } } := by
  unfold selectServices at h
  dsimp only at h
  by_cases hs : f.service = []
  · have e1 : (fun t => decide (KeptType f s t)) = fun _ => true := by funext t; simp [KeptType, hs]
    have e2 : (fun v => decide (Chosen f v)) = fun _ => true := by funext t; simp [Chosen, hs]
    simp [hs] at h
    rw [e1, e2, ← h, filter_true _ _ (fun _ => rfl), filter_true _ _ (fun _ => rfl)]
    simp [hs]
  · have hitems : ∀ items, Items f.service items ↔ items = split (S ",") f.service := items_iff _
    have e2 : (fun v : Service => decide (Chosen f v)) = fun v => (split (S ",") f.service).contains v.name := by
      funext v
      rw [Bool.eq_iff_iff, decide_eq_true_eq, List.contains_iff_mem]
      unfold Chosen
      constructor
      · rintro (h | ⟨items, h1, h2⟩)
        · exact absurd h hs
        · rwa [(hitems _).1 h1] at h2
      · intro h
        exact .inr ⟨_, (hitems _).2 rfl, h⟩
    have hms : ∀ s : Schema, matchServices s (split (S ",") f.service) = { s with services := s.services.filter (fun v => (split (S ",") f.service).contains v.name), nils := { s.nils with services := true } } := by
      intro s
      unfold matchServices
      rw [if_neg]
      have := split_ne_nil (sep := S ",") (s := f.service) (by decide)
      simp [this]
    rw [e2]
    by_cases ht : f.methodTreeShake = true
    · simp only [ht, hs, ne_eq, not_false_eq_true, decide_true, Bool.and_self, if_true] at h
      obtain ⟨s1, h1, h2⟩ := Option.map_eq_some_iff.1 h
      have hp : ∀ t, decide (KeptType f s t) = true ↔ NeededBy s (split (S ",") f.service) t := by
        intro t
        rw [decide_eq_true_eq]
        unfold KeptType
        constructor
        · intro hk
          obtain ⟨items, i1, i2⟩ := hk ⟨ht, hs⟩
          rwa [(hitems _).1 i1] at i2
        · intro hn _
          exact ⟨_, (hitems _).2 rfl, hn⟩
      rw [treeShake_eq n s s1 _ h1 _ hp] at h2
      rw [← h2, hms]
      simp [hs, ht]
    · have e1 : (fun t => decide (KeptType f s t)) = fun _ => true := by funext t; simp [KeptType, ht]
      simp only [ht, hs, ne_eq, not_false_eq_true, decide_true, Bool.and_true, if_true, if_false, Bool.false_eq_true, Option.map_some, Option.some.injEq] at h
      rw [e1, filter_true s.types _ (fun _ => rfl), ← h, hms]
      simp [hs, ht]

theorem selectServices_ends (f : Flags) (s : Schema) :
    (∃ n s', selectServices n f s = some s') ↔ (f.methodTreeShake = true ∧ f.service ≠ [] → ¬ RecursiveArgs s) := by
  unfold selectServices
  dsimp only
  by_cases h : f.methodTreeShake = true ∧ f.service ≠ []
  · simp only [h.1, h.2, ne_eq, not_false_eq_true, decide_true, Bool.and_self, if_true, and_self, true_implies, forall_const]
    rw [← C39_ends s (split (S ",") f.service)]
    constructor
    · rintro ⟨n, s', e⟩
      obtain ⟨s1, e1, -⟩ := Option.map_eq_some_iff.1 e
      exact ⟨n, by rw [e1]; rfl⟩
    · rintro ⟨n, e⟩
      obtain ⟨s1, e1⟩ := Option.isSome_iff_exists.1 e
      exact ⟨n, _, by rw [e1]; rfl⟩
  · constructor
    · intro _ h'; exact absurd h' h
    · intro _
      refine ⟨0, ?_⟩
      by_cases h1 : f.methodTreeShake = true
      · have : f.service = [] := by
          apply Classical.byContradiction
          intro hs; exact h ⟨h1, hs⟩
        exact ⟨s, by simp [this]⟩
      · simp [h1]

open Classical in
theorem selectMethods_eq (f : Flags) (s s' : Schema) (h : selectMethods f s = some s') :
    s' = { s with services := s.services.map fun v =>
      { v with methods := v.methods.filter (fun m => decide (Kept f m))
               nils := { v.nils with methods := v.nils.methods || decide (f.ignore ≠ [] ∨ f.matching ≠ []) } } } := by
  have hid : ∀ p : Method → Bool, (∀ m, p m = true) →
      s.services.map (fun v => { v with methods := v.methods.filter p, nils := { v.nils with methods := v.nils.methods || false } }) = s.services := by
    intro p hp
    have : (fun v : Service => { v with methods := v.methods.filter p, nils := { v.nils with methods := v.nils.methods || false } }) = id := by
      funext v; rw [filter_true _ _ hp, Bool.or_false]; rfl
    rw [this, List.map_id]
  unfold selectMethods at h
  by_cases h1 : f.ignore = [] <;> by_cases h2 : f.matching = []
  · simp only [h1, h2, ne_eq, not_true, and_self, if_false, Option.some.injEq] at h
    rw [show decide (f.ignore ≠ [] ∨ f.matching ≠ []) = false by simp [h1, h2], hid _ (by intro m; simp [Kept, h1, h2]), h]
  · simp only [h1, h2, ne_eq, not_true, false_and, if_false, not_false_eq_true, if_true] at h
    obtain ⟨a, ha, e⟩ := Option.map_eq_some_iff.1 h
    rw [← e]
    unfold matchMethods
    have : (fun m => decide (Kept f m)) = fun m => annotated m a := by
      funext m
      rw [Bool.eq_iff_iff, decide_eq_true_eq, annotated_iff, ← asked_iff ha]
      simp [Kept, h1, h2]
    rw [this, show decide (f.ignore ≠ [] ∨ f.matching ≠ []) = true by simp [h1, h2]]
    simp only [Bool.or_true]
  · simp only [h1, h2, ne_eq, not_true, and_false, if_false, not_false_eq_true, if_true] at h
    obtain ⟨a, ha, e⟩ := Option.map_eq_some_iff.1 h
    rw [← e]
    unfold ignoreMethods
    have : (fun m => decide (Kept f m)) = fun m => !annotated m a := by
      funext m
      rw [Bool.eq_iff_iff, decide_eq_true_eq, Bool.not_eq_true', ← Bool.not_eq_true, annotated_iff, ← asked_iff ha]
      simp [Kept, h1, h2]
    rw [this, show decide (f.ignore ≠ [] ∨ f.matching ≠ []) = true by simp [h1, h2]]
    simp only [Bool.or_true]
  · simp [h1, h2] at h

theorem picked_eq (n : Nat) (w : World) (f : Flags) (s s1 s2 : Schema) (h1 : selectServices n f (prepare w f s) = some s1)
    (h2 : selectMethods f s1 = some s2) : s2 = picked w f s := by
  rw [selectMethods_eq f s1 s2 h2, selectServices_eq n f _ s1 h1]
  have hk : ∀ t, KeptType f (prepare w f s) t ↔ KeptType f s t := by
    intro t
    have : ∀ items, NeededBy (prepare w f s) items t ↔ NeededBy s items t := by
      intro items; rw [prepare_parts]; exact Iff.rfl
    simp only [KeptType, this]
  simp only [hk]
  rw [prepare_parts]
  rfl

theorem recursive_prepare (w : World) (f : Flags) (s : Schema) : RecursiveArgs (prepare w f s) ↔ RecursiveArgs s := by
  rw [prepare_parts]; exact Iff.rfl

/-- What `output` makes of the result of `generate`. -/
def finish (w : World) (f : Flags) : Made → Outcome
  | .fails => { status := 1 }
  | .exits st => { status := st }
  | .code code e => output w f code e

theorem runSchema_eq [GoUnicode] [GoPrint] (n : Nat) (w : World) (x : Ext) (f : Flags) (opts : List (Str × Str)) (s s1 s2 : Schema)
    (ht : f.target ≠ []) (h1 : selectServices n f s = some s1) (h2 : selectMethods f s1 = some s2) :
    runSchema n w x f opts s = .ends (finish w f (generate x s2 f.target opts f.fmt f.refreshCache)) := by
  unfold runSchema
  rw [if_neg ht, h1]
  dsimp only
  rw [h2]
  dsimp only
  cases generate x s2 f.target opts f.fmt f.refreshCache with
  | fails => rfl
  | exits st => rfl
  | code c e => rfl

theorem run_generating [GoUnicode] [GoPrint] (w : World) (x : Ext) (args : List Str) (f : Flags) (opts : List (Str × Str)) (s : Schema)
    (h : Generating w args f opts s) :
    ∃ n, run n w x args = .ends (finish w f (generate x (picked w f s) f.target opts f.fmt f.refreshCache)) := by
  obtain ⟨own, h1, h2⟩ := (C68_command args f opts).2 h.command
  obtain ⟨n, s1, h3⟩ := (selectServices_ends f (prepare w f s)).2 (by rw [recursive_prepare]; exact h.ends)
  obtain ⟨s2, h4⟩ := (filters_iff f s1).2 h.filters
  refine ⟨n, ?_⟩
  unfold run
  rw [h1]
  dsimp only
  rw [h2]
  dsimp only
  rw [h.version, h.loaded]
  simp only [Bool.false_eq_true, if_false, h.schema]
  rw [runSchema_eq n w x f opts _ s1 s2 h.target h3 h4, picked_eq n w f s s1 s2 h3 h4]

theorem parseFlags_help (m : Nat) (cli : List Str) (hm : cli.length ≤ m) (f0 f : Flags) (h : parseFlags f0 cli = .help f) :
    ∃ a ∈ cli, ∃ n v, flagText a = .flag n v ∧ HelpFlag n := by
  induction m generalizing cli f0 with
  | zero =>
    cases cli with
    | nil => rw [parseFlags] at h; cases h
    | cons a r => simp at hm
  | succ m ih =>
    cases cli with
    | nil => rw [parseFlags] at h; cases h
    | cons a r =>
      have hlen : r.length ≤ m := by simpa using hm
      have go : ∀ {r' : List Str} {f1 : Flags}, r'.length ≤ m → (∀ x ∈ r', x ∈ a :: r) → parseFlags f1 r' = .help f →
          ∃ b ∈ a :: r, ∃ n v, flagText b = .flag n v ∧ HelpFlag n := by
        intro r' f1 hl hsub hp
        obtain ⟨b, hb, rest⟩ := ih r' hl f1 hp
        exact ⟨b, hsub b hb, rest⟩
      rw [parseFlags] at h
      cases ht : flagText a with
      | stop => rw [ht] at h; cases h
      | bad => rw [ht] at h; cases h
      | flag n v =>
        rw [ht] at h
        dsimp only at h
        by_cases ho : flagNames.contains n = true
        · simp only [ho, Bool.not_true, Bool.false_eq_true, if_false] at h
          by_cases hb : isBoolFlag n = true
          · simp only [hb, if_true] at h
            cases e : setFlag f0 n (v.getD (S "true")) with
            | none => rw [e] at h; cases h
            | some f1 => rw [e] at h; exact go hlen (fun x hx => by simp [hx]) h
          · simp only [hb, if_false, Bool.false_eq_true] at h
            cases v with
            | some v =>
              dsimp only at h
              cases e : setFlag f0 n v with
              | none => rw [e] at h; cases h
              | some f1 => rw [e] at h; exact go hlen (fun x hx => by simp [hx]) h
            | none =>
              cases r with
              | nil => cases h
              | cons y r =>
                dsimp only at h
                cases e : setFlag f0 n y with
                | none => rw [e] at h; cases h
                | some f1 => rw [e] at h; exact go (by simp at hlen; omega) (fun x hx => by simp [hx]) h
        · simp only [ho, Bool.not_false, if_true] at h
          by_cases hh : n = S "h" ∨ n = S "help"
          · exact ⟨a, by simp, n, v, ht, hh⟩
          · rw [if_neg hh] at h; cases h

theorem flagText_name {a n k v : Str} {v' : Option Str} (h : CliArg a n v) (h' : flagText a = .flag k v') : k = n := by
  cases h with
  | plain d _ h1 h2 h3 h4 h5 =>
    by_cases hd : Dashes d
    · rw [flagText_dashes hd h3 h4, nameValue_plain h3 h4 h5] at h'
      cases h'; rfl
    · rw [flagText_many h1 h2 hd] at h'; cases h'
  | value d _ _ h1 h2 h3 h4 h5 =>
    rw [show d ++ n ++ S "=" ++ v = d ++ (n ++ S "=" ++ v) from by simp] at h'
    have he : (n ++ S "=" ++ v) ≠ [] := by cases n <;> simp_all
    have hh : (n ++ S "=" ++ v).head? ≠ some '-' := by cases n <;> simp_all
    by_cases hd : Dashes d
    · rw [flagText_dashes hd he hh, nameValue_value h3 h4 h5] at h'
      cases h'; rfl
    · rw [flagText_many h1 h2 hd] at h'; cases h'

theorem usage_idle [GoUnicode] [GoPrint] (x : Ext) (f : Flags) (opts : List (Str × Str)) (st : Nat) :
    (usage x f opts st).wrote = none ∧ (usage x f opts st).stdout = none ∧
    ((usage x f opts st).status = st ∨ generate x {} f.target opts false false = .exits (usage x f opts st).status) := by
  unfold usage
  split
  · exact ⟨rfl, rfl, .inl rfl⟩
  · cases h : generate x {} f.target opts false false with
    | fails => exact ⟨rfl, rfl, .inl rfl⟩
    | code _ _ => exact ⟨rfl, rfl, .inl rfl⟩
    | exits s => exact ⟨rfl, rfl, .inr rfl⟩

/-- A run that generates nothing. -/
structure Idle (x : Ext) (args : List Str) (o : Outcome) : Prop where
  wrote : o.wrote = none
  stdout : o.stdout = none ∨ ∃ f opts, Command args f opts ∧ f.version = true ∧ o.stdout = some (S "webrpc-gen " ++ x.version ++ ['\n'])

theorem run_inv [GoUnicode] [GoPrint] (n : Nat) (w : World) (x : Ext) (args : List Str) (o : Outcome) (h : run n w x args = .ends o) :
    (∃ f opts s, Generating w args f opts s ∧ o = finish w f (generate x (picked w f s) f.target opts f.fmt f.refreshCache)) ∨
    ((¬ ∃ f opts s, Generating w args f opts s) ∧ Idle x args o ∧
      (o.status = 0 → (∃ own opts f, collectCliArgs args = some (own, opts) ∧ parseFlags {} own = .help f) ∨
        (∃ f opts, Command args f opts ∧ f.version = true ∧ o.stdout = some (S "webrpc-gen " ++ x.version ++ ['\n'])) ∨
        ∃ target opts, generate x {} target opts false false = .exits 0)) := by
  have hnone : ∀ {P : Flags → List (Str × Str) → Prop}, (∀ f opts, Command args f opts → P f opts) →
      (∀ f opts, P f opts → f.version = false → f.schema ≠ [] → ∀ s, parseSchemaFile w f.schema = .ok s → f.target ≠ [] → FiltersOk f → False) →
      ¬ ∃ f opts s, Generating w args f opts s := by
    rintro P hP hno ⟨f, opts, s, hg⟩
    exact hno f opts (hP f opts hg.command) hg.version hg.schema s hg.loaded hg.target hg.filters
  unfold run at h
  cases hc : collectCliArgs args with
  | none =>
    rw [hc] at h
    cases h
    refine .inr ⟨?_, ⟨rfl, .inl rfl⟩, by simp⟩
    rintro ⟨f, opts, s, hg⟩
    obtain ⟨own, h1, -⟩ := hg.command
    rw [hc] at h1; cases h1
  | some p =>
    obtain ⟨own, opts⟩ := p
    rw [hc] at h
    dsimp only at h
    have hcmd : ∀ f' opts', Command args f' opts' → parseFlags {} own = .ok f' ∧ opts' = opts := by
      intro f' opts' h'
      obtain ⟨own', e1, e2⟩ := (C68_command args f' opts').2 h'
      rw [hc] at e1
      cases e1
      exact ⟨e2, rfl⟩
    cases hp : parseFlags {} own with
    | bad f =>
      rw [hp] at h
      cases h
      obtain ⟨u1, u2, u3⟩ := usage_idle x f opts 2
      refine .inr ⟨?_, ⟨u1, .inl u2⟩, fun h0 => ?_⟩
      rotate_left
      · rw [h0] at u3
        rcases u3 with u3 | u3
        · cases u3
        · exact .inr (.inr ⟨_, _, u3⟩)
      rintro ⟨f', opts', s, hg⟩
      have := (hcmd _ _ hg.command).1
      rw [hp] at this; cases this
    | help f =>
      rw [hp] at h
      cases h
      obtain ⟨u1, u2, -⟩ := usage_idle x f opts 0
      refine .inr ⟨?_, ⟨u1, .inl u2⟩, fun _ => .inl ⟨own, opts, f, rfl, hp⟩⟩
      rintro ⟨f', opts', s, hg⟩
      have := (hcmd _ _ hg.command).1
      rw [hp] at this; cases this
    | ok f =>
      rw [hp] at h
      dsimp only at h
      have hf : ∀ f' opts', Command args f' opts' → f' = f ∧ opts' = opts := by
        intro f' opts' h'
        obtain ⟨e1, e2⟩ := hcmd f' opts' h'
        rw [hp] at e1; cases e1
        exact ⟨rfl, e2⟩
      have hC : Command args f opts := (C68_command args f opts).1 ⟨own, hc, hp⟩
      cases hv : f.version with
      | true =>
        simp only [hv, if_true] at h
        cases h
        refine .inr ⟨hnone hf fun f' opts' e ev _ _ _ _ _ => ?_, ⟨rfl, .inr ⟨f, opts, hC, hv, rfl⟩⟩, fun _ => .inr (.inl ⟨f, opts, hC, hv, rfl⟩)⟩
        rw [e.1, hv] at ev; cases ev
      | false =>
        simp only [hv, Bool.false_eq_true, if_false] at h
        by_cases hs : f.schema = []
        · simp only [hs, if_true] at h
          cases h
          obtain ⟨u1, u2, u3⟩ := usage_idle x f opts 1
          refine .inr ⟨hnone hf fun f' opts' e _ es _ _ _ _ => es (by rw [e.1]; exact hs), ⟨u1, .inl u2⟩, fun h0 => ?_⟩
          rw [h0] at u3
          rcases u3 with u3 | u3
          · cases u3
          · exact .inr (.inr ⟨_, _, u3⟩)
        · simp only [hs, if_false] at h
          cases hl : parseSchemaFile w f.schema with
          | err =>
            rw [hl] at h
            cases h
            refine .inr ⟨hnone hf fun f' opts' e _ _ s el _ _ => ?_, ⟨rfl, .inl rfl⟩, by simp⟩
            rw [e.1, hl] at el; cases el
          | panic => rw [hl] at h; cases h
          | hangs => rw [hl] at h; cases h
          | unmodelled => rw [hl] at h; cases h
          | ok s =>
            rw [hl] at h
            dsimp only at h
            by_cases ht : f.target = []
            · unfold runSchema at h
              rw [if_pos ht] at h
              cases h
              exact .inr ⟨hnone hf fun f' opts' e _ _ _ _ et _ => et (by rw [e.1]; exact ht), ⟨rfl, .inl rfl⟩, by simp⟩
            · cases h1 : selectServices n f (prepare w f s) with
              | none => unfold runSchema at h; rw [if_neg ht, h1] at h; cases h
              | some s1 =>
                cases h2 : selectMethods f s1 with
                | none =>
                  unfold runSchema at h; rw [if_neg ht, h1] at h; dsimp only at h; rw [h2] at h
                  cases h
                  refine .inr ⟨hnone hf fun f' opts' e _ _ _ _ _ ef => ?_, ⟨rfl, .inl rfl⟩, by simp⟩
                  rw [e.1] at ef
                  obtain ⟨s2, h3⟩ := (filters_iff f s1).2 ef
                  rw [h2] at h3; cases h3
                | some s2 =>
                  rw [runSchema_eq n w x f opts _ s1 s2 ht h1 h2, picked_eq n w f s s1 s2 h1 h2] at h
                  refine .inl ⟨f, opts, s, ⟨hC, hv, hs, hl, ht, (filters_iff f s1).1 ⟨s2, h2⟩, ?_⟩, ?_⟩
                  · have := (selectServices_ends f (prepare w f s)).1 ⟨n, s1, h1⟩
                    rwa [recursive_prepare] at this
                  · cases h; rfl

theorem generating_unique [GoUnicode] {w : World} {args : List Str} {f f' : Flags} {opts opts' : List (Str × Str)} {s s' : Schema}
    (h : Generating w args f opts s) (h' : Generating w args f' opts' s') : f = f' ∧ opts = opts' ∧ s = s' := by
  obtain ⟨own, a1, a2⟩ := (C68_command args f opts).2 h.command
  obtain ⟨own', b1, b2⟩ := (C68_command args f' opts').2 h'.command
  rw [a1] at b1; cases b1
  rw [a2] at b2; cases b2
  have := h'.loaded
  rw [h.loaded] at this
  cases this
  exact ⟨rfl, rfl, rfl⟩

/-- C69. A run that gets as far as generating ends, and puts the code generated from the picked schema where it was asked
to: on stdout with a newline, or in the file; it fails if generating fails or the file cannot be written. -/
theorem C69_generates [GoUnicode] [GoPrint] (w : World) (x : Ext) (args : List Str) (f : Flags) (opts : List (Str × Str)) (s : Schema)
    (h : Generating w args f opts s) :
    ∃ n o, run n w x args = .ends o ∧
      (generate x (picked w f s) f.target opts f.fmt f.refreshCache = .fails → o = { status := 1 }) ∧
      (∀ st, generate x (picked w f s) f.target opts f.fmt f.refreshCache = .exits st → o = { status := st }) ∧
      ∀ code formatErr, generate x (picked w f s) f.target opts f.fmt f.refreshCache = .code code formatErr →
        (f.out = [] ∨ f.out = S "stdout" → o = { status := 0, stdout := some (code ++ S "\n") }) ∧
        (f.out ≠ [] → f.out ≠ S "stdout" → w.writable (absPath w.cwd f.out) = false → o = { status := 1 }) ∧
        (f.out ≠ [] → f.out ≠ S "stdout" → w.writable (absPath w.cwd f.out) = true →
          o.wrote = some (absPath w.cwd f.out, code) ∧ o.stdout = none ∧ (o.status = 0 ↔ f.silent = true ∨ formatErr = false)) := by
  obtain ⟨n, hn⟩ := run_generating w x args f opts s h
  refine ⟨n, _, hn, fun e => by rw [e]; rfl, fun st e => by rw [e]; rfl, fun code fe e => ?_⟩
  rw [e]
  refine ⟨fun ho => ?_, fun h1 h2 hw => ?_, fun h1 h2 hw => ?_⟩
  · show output w f code fe = _
    unfold output
    rw [if_pos ho]
    rfl
  · show output w f code fe = _
    unfold output outPath
    rw [if_neg (by simp [h1, h2]), hw]
    rfl
  · show (output w f code fe).wrote = _ ∧ (output w f code fe).stdout = _ ∧ ((output w f code fe).status = _ ↔ _)
    have : output w f code fe = { status := if f.silent then 0 else if fe then 1 else 0, wrote := some (absPath w.cwd f.out, code) } := by
      unfold output outPath
      rw [if_neg (by simp [h1, h2]), hw]
      rfl
    rw [this]
    refine ⟨rfl, rfl, ?_⟩
    cases f.silent <;> cases fe <;> simp

/-- C69. No other run generates anything: it writes no file, prints nothing on stdout but the version if that was asked
for, and its exit status is zero only if it was asked for the version or for help, or templates ended the program with
that status when asked for their help. -/
theorem C69_only [GoUnicode] [GoPrint] (n : Nat) (w : World) (x : Ext) (args : List Str) (o : Outcome) (h : run n w x args = .ends o)
    (hno : ¬ ∃ f opts s, Generating w args f opts s) :
    o.wrote = none ∧ (o.stdout ≠ none → ∃ f opts, Command args f opts ∧ f.version = true ∧ o.stdout = some (S "webrpc-gen " ++ x.version ++ S "\n")) ∧
    (o.status = 0 → (∃ f opts, Command args f opts ∧ f.version = true) ∨ (∃ a ∈ args, ∃ k v, CliArg a k v ∧ HelpFlag k) ∨
      ∃ target opts, generate x {} target opts false false = .exits 0) := by
  rcases run_inv n w x args o h with ⟨f, opts, s, hg, -⟩ | ⟨-, hi, hst⟩
  · exact absurd ⟨f, opts, s, hg⟩ hno
  · refine ⟨hi.wrote, fun hs => ?_, fun h0 => ?_⟩
    · rcases hi.stdout with e | e
      · exact absurd e hs
      · exact e
    · rcases hst h0 with ⟨own, opts, f, hc, hp⟩ | ⟨f, opts, hC, hv, e⟩ | hex
      · refine .inr (.inl ?_)
        obtain ⟨a, ha, n, v, h1, h2⟩ := parseFlags_help own.length own (Nat.le_refl _) {} f hp
        rw [C49_flags args own opts hc] at ha
        obtain ⟨ha1, ha2⟩ := List.mem_filter.1 ha
        simp only [decide_eq_true_eq] at ha2
        obtain ⟨k, u, hcl, -⟩ := ha2
        exact ⟨a, ha1, k, u, hcl, by rw [← flagText_name hcl h1]; exact h2⟩
      · exact .inl ⟨f, opts, hC, hv⟩
      · exact .inr (.inr hex)

theorem runSchema_bound [GoUnicode] [GoPrint] (n k : Nat) (w : World) (x : Ext) (f : Flags) (opts : List (Str × Str)) (s : Schema)
    (o o' : Outcome) (h : runSchema n w x f opts s = .ends o) (h' : runSchema k w x f opts s = .ends o') : o = o' := by
  by_cases ht : f.target = []
  · unfold runSchema at h h'
    rw [if_pos ht] at h h'
    cases h; cases h'; rfl
  · cases h1 : selectServices n f s with
    | none => unfold runSchema at h; rw [if_neg ht, h1] at h; cases h
    | some s1 =>
      cases h2 : selectServices k f s with
      | none => unfold runSchema at h'; rw [if_neg ht, h2] at h'; cases h'
      | some s2 =>
        have e : s1 = s2 := (selectServices_eq n f s s1 h1).trans (selectServices_eq k f s s2 h2).symm
        subst e
        have : runSchema n w x f opts s = runSchema k w x f opts s := by
          unfold runSchema
          rw [h1, h2]
        rw [this, h'] at h
        cases h; rfl

/-- C69. The outcome does not depend on the bound. -/
theorem C69_bound [GoUnicode] [GoPrint] (n k : Nat) (w : World) (x : Ext) (args : List Str) (o o' : Outcome)
    (h : run n w x args = .ends o) (h' : run k w x args = .ends o') : o = o' := by
  unfold run at h h'
  cases hc : collectCliArgs args with
  | none => rw [hc] at h h'; cases h; cases h'; rfl
  | some co =>
    obtain ⟨own, opts⟩ := co
    rw [hc] at h h'
    dsimp only at h h'
    cases hp : parseFlags {} own with
    | bad f => rw [hp] at h h'; cases h; cases h'; rfl
    | help f => rw [hp] at h h'; cases h; cases h'; rfl
    | ok f =>
      rw [hp] at h h'
      dsimp only at h h'
      by_cases hv : f.version = true
      · rw [if_pos hv] at h h'
        cases h; cases h'; rfl
      · rw [if_neg hv] at h h'
        by_cases hs : f.schema = []
        · rw [if_pos hs] at h h'
          cases h; cases h'; rfl
        · rw [if_neg hs] at h h'
          cases hl : parseSchemaFile w f.schema with
          | err => rw [hl] at h h'; cases h; cases h'; rfl
          | panic => rw [hl] at h; cases h
          | hangs => rw [hl] at h; cases h
          | unmodelled => rw [hl] at h; cases h
          | ok s =>
            rw [hl] at h h'
            exact runSchema_bound n k w x f _ _ o o' h h'

theorem defaultBasePath_picked (w : World) (f : Flags) (s : Schema) : defaultBasePath (picked w f s) = picked w f s := by
  unfold defaultBasePath
  rw [if_neg]
  rintro ⟨h1, h2⟩
  by_cases hb : s.basePath = [] ∧ s.services ≠ []
  · have : (picked w f s).basePath = S "/rpc/" := by unfold picked; exact if_pos hb
    rw [this] at h1
    exact absurd h1 (by decide)
  · have h3 : (picked w f s).basePath = s.basePath := by unfold picked; exact if_neg hb
    rw [h3] at h1
    have hs : s.services = [] := by
      cases hs : s.services with
      | nil => rfl
      | cons v l => exact absurd ⟨h1, by rw [hs]; simp⟩ hb
    apply h2
    unfold picked
    simp [hs]

/-- C69. With `-target=json` the code is the JSON text of the picked schema. -/
theorem C69_json [GoUnicode] [GoPrint] (w : World) (x : Ext) (args : List Str) (f : Flags) (opts : List (Str × Str)) (s : Schema) (t : Str)
    (h : Generating w args f opts s) (hj : f.target = S "json") (ht : toJSON (picked w f s) = some t) :
    ∃ n o, run n w x args = .ends o ∧
      (f.out = [] → o = { status := 0, stdout := some (t ++ S "\n") }) ∧
      (f.out ≠ [] → f.out ≠ S "stdout" → w.writable (absPath w.cwd f.out) = true →
        o = { status := 0, wrote := some (absPath w.cwd f.out, t) }) := by
  obtain ⟨n, hn⟩ := run_generating w x args f opts s h
  have hg : generate x (picked w f s) f.target opts f.fmt f.refreshCache = .code t false := by
    unfold generate
    rw [defaultBasePath_picked, hj]
    unfold schemaHash
    dsimp only
    rw [ht]
    rfl
  refine ⟨n, _, hn, fun ho => ?_, fun h1 h2 hw => ?_⟩
  · rw [hg]
    show output w f t false = _
    unfold output
    rw [if_pos (.inl ho)]
    rfl
  · rw [hg]
    show output w f t false = _
    unfold output outPath
    rw [if_neg (by simp [h1, h2]), hw]
    cases f.silent <;> rfl

theorem split_last (c : Char) (s : Str) :
    ∃ pre, (pre = [] ∨ pre.getLast? = some c) ∧ s = pre ++ (split [c] s).getLastD [] ∧ c ∉ (split [c] s).getLastD [] := by
  refine split_induction (sep := [c]) (by simp)
    (P := fun s => ∃ pre, (pre = [] ∨ pre.getLast? = some c) ∧ s = pre ++ (split [c] s).getLastD [] ∧ c ∉ (split [c] s).getLastD []) ?_ ?_ s
  · intro s h
    rw [split_none (by simp) h]
    exact ⟨[], .inl rfl, rfl, cut_char_none.1 h⟩
  · intro s a b h ⟨pre, h1, h2, h3⟩
    rw [split_some (by simp) h]
    have hne : split [c] b ≠ [] := split_ne_nil (by simp)
    have e : (a :: split [c] b).getLastD [] = (split [c] b).getLastD [] := by
      cases hs : split [c] b with
      | nil => exact absurd hs hne
      | cons x l => simp [List.getLastD]
    rw [e]
    refine ⟨a ++ c :: pre, .inr ?_, ?_, h3⟩
    · rcases h1 with rfl | h1
      · simp
      · obtain ⟨l, rfl⟩ := List.getLast?_eq_some_iff.1 h1
        exact List.getLast?_eq_some_iff.2 ⟨a ++ c :: l, by simp⟩
    · rw [(cut_char.1 h).2]
      conv => lhs; rw [h2]
      simp

theorem golang_iff (t : Str) : isGolangTarget (oldTarget t) = true ↔ GolangTarget t := by
  have key : ∀ n, (decide (n = S "golang") || decide (n = S "go") || hasSuffix n (S "gen-golang")) = true ↔
      (n = "golang".toList ∨ n = "go".toList ∨ "gen-golang".toList <:+ n) := by
    intro n
    simp only [Bool.or_eq_true, decide_eq_true_eq, or_assoc]
    unfold hasSuffix
    rw [List.isSuffixOf_iff_suffix]
    rfl
  unfold isGolangTarget
  rw [show S "@" = ['@'] from rfl]
  dsimp only
  rw [key]
  constructor
  · intro h
    cases hc : cut ['@'] (oldTarget t) with
    | none =>
      rw [hc] at h
      exact ⟨_, oldTarget t, [], oldTarget_means.2 rfl, by simp, cut_char_none.1 hc, .inl rfl, h⟩
    | some q =>
      rw [hc] at h
      obtain ⟨h1, h2⟩ := cut_char.1 (show cut ['@'] (oldTarget t) = some (q.1, q.2) from hc)
      exact ⟨_, q.1, '@' :: q.2, oldTarget_means.2 rfl, h2, h1, .inr rfl, h⟩
  · rintro ⟨u, n, r, hu, e, hn, hr, h⟩
    rw [oldTarget_means.1 hu]
    subst e
    rcases hr with rfl | hr
    · rw [List.append_nil, cut_char_none.2 hn]
      exact h
    · obtain ⟨r', rfl⟩ : ∃ r', r = '@' :: r' := by
        cases r with
        | nil => cases hr
        | cons a r => simp at hr; exact ⟨r, by rw [hr]⟩
      rw [cut_char.2 ⟨hn, rfl⟩]
      exact h

/-- C69. Templates are told about the picked schema (`Told`); what they make of it is the code, formatted if it is Go and
formatting is on.  If formatting fails the code stays as it is. -/
theorem C69_templates [GoUnicode] [GoPrint] (w : World) (x : Ext) (f : Flags) (opts : List (Str × Str)) (s : Schema) (text : Str)
    (tm : Templates) (h1 : f.target ≠ S "json") (h2 : f.target ≠ S "debug") (ht : toJSON (picked w f s) = some text)
    (hl : x.load (resolve x.modLines f.target) f.refreshCache = some tm) :
    ∃ v, Told x f.target opts tm.version (picked w f s) v ∧
      (tm.render v = .fails → generate x (picked w f s) f.target opts f.fmt f.refreshCache = .fails) ∧
      (∀ st, tm.render v = .exits st → generate x (picked w f s) f.target opts f.fmt f.refreshCache = .exits st) ∧
      ∀ code, tm.render v = .text code →
        (¬ (f.fmt = true ∧ GolangTarget f.target) → generate x (picked w f s) f.target opts f.fmt f.refreshCache = .code code false) ∧
        (f.fmt = true → GolangTarget f.target → ∀ c, x.format code = some c →
          generate x (picked w f s) f.target opts f.fmt f.refreshCache = .code c false) ∧
        (f.fmt = true → GolangTarget f.target → x.format code = none →
          generate x (picked w f s) f.target opts f.fmt f.refreshCache = .code code true) := by
  have hgen : generate x (picked w f s) f.target opts f.fmt f.refreshCache =
      match tm.render (fullVars (baseVars x (picked w f s) (x.sha1 text) f.target opts) tm.version) with
      | .fails => .fails
      | .exits st => .exits st
      | .text code =>
        if f.fmt && isGolangTarget (oldTarget f.target) then
          match x.format code with
          | some c => .code c false
          | none => .code code true
        else .code code false := by
    unfold generate
    dsimp only
    rw [defaultBasePath_picked, schemaHash, ht]
    dsimp only [Option.map_some]
    obtain ⟨c1, c2⟩ := C50_builtin x.modLines f.target
    cases hr : resolve x.modLines f.target with
    | json => exact absurd (c1.1 hr) h1
    | debug => exact absurd (c2.1 hr) h2
    | embedded e => rw [hr] at hl; simp only [hl]; rfl
    | local_ e => rw [hr] at hl; simp only [hl]; rfl
    | remote e => rw [hr] at hl; simp only [hl]; rfl
  refine ⟨_, ?_, fun hn => by rw [hgen, hn], fun st hn => by rw [hgen, hn], fun code hc => ?_⟩
  · refine ⟨rfl, ⟨text, ht, rfl⟩, rfl, rfl, rfl, rfl, split_last '/' tm.version, ⟨C42_code_gen tm.version, ?_⟩, ?_⟩
    · show ('@' ∉ (split (S "/") tm.version).getLastD [] ∧ (codeGenOf tm.version).1 = (split (S "/") tm.version).getLastD [] ∧
          (codeGenOf tm.version).2 = []) ∨ (split (S "/") tm.version).getLastD [] = (codeGenOf tm.version).1 ++ '@' :: (codeGenOf tm.version).2
      unfold codeGenOf
      dsimp only
      rw [show S "@" = ['@'] from rfl]
      cases hc : cut ['@'] ((split (S "/") tm.version).getLastD []) with
      | none => exact .inl ⟨cut_char_none.1 hc, rfl, rfl⟩
      | some q => exact .inr (cut_char.1 (show cut ['@'] _ = some (q.1, q.2) from hc)).2
    · intro hm hp
      simp only [List.mem_cons, List.not_mem_nil, or_false, forall_eq_or_imp, forall_eq] at hp
      obtain ⟨p1, p2, p3, p4, p5⟩ := hp
      have hlast : ∀ ch, ch ∈ (split (S "/") tm.version).getLastD [] → ch ∈ tm.version := by
        intro ch hch
        obtain ⟨pre, -, e, -⟩ := split_last '/' tm.version
        rw [e]
        exact List.mem_append_right _ hch
      have hcg : ';' ∉ (codeGenOf tm.version).1 ∧ ';' ∉ (codeGenOf tm.version).2 := by
        unfold codeGenOf
        dsimp only
        rw [show S "@" = ['@'] from rfl]
        cases hc : cut ['@'] ((split (S "/") tm.version).getLastD []) with
        | none => exact ⟨fun h => p2 (hlast _ h), by simp⟩
        | some q =>
          have e := (cut_char.1 (show cut ['@'] _ = some (q.1, q.2) from hc)).2
          refine ⟨fun h => p2 (hlast _ ?_), fun h => p2 (hlast _ ?_)⟩ <;> rw [e] <;> simp [h]
      refine C42_round_trip { webrpcGenVersion := x.version, codeGenName := (codeGenOf tm.version).1, codeGenVersion := (codeGenOf tm.version).2,
                              schemaName := (picked w f s).schemaName, schemaVersion := (picked w f s).schemaVersion,
                              schemaHash := x.sha1 text } (C42_code_gen _) hm ?_
      simp only [List.mem_cons, List.not_mem_nil, or_false, forall_eq_or_imp, forall_eq]
      exact ⟨p1, hcg.1, hcg.2, p3, p4, p5⟩
  · rw [hgen, hc]
    dsimp only
    refine ⟨fun hn => ?_, fun hf hg c hx => ?_, fun hf hg hx => ?_⟩
    · rw [if_neg]
      rw [Bool.and_eq_true, golang_iff]
      exact hn
    · rw [if_pos (by rw [Bool.and_eq_true, golang_iff]; exact ⟨hf, hg⟩), hx]
    · rw [if_pos (by rw [Bool.and_eq_true, golang_iff]; exact ⟨hf, hg⟩), hx]

/-! ### Examples -/

/-- A schema with two services; the methods of one carry annotations. -/
def exText : Str := "webrpc = v1\nname = demo\nversion = v0.1.0\nstruct In\n  - a: string\nstruct Unused\n  - b: string\nservice A\n  @internal\n  - P(x: In)\n  - Q()\nservice B\n  - R()\n".toList

def exWorld : World :=
  { cwd := S "/w", files := [(S "w/a.ridl", exText)], schemaVersionVar := [], writable := fun p => p = S "/w/gen/out.ts" }

/-- Templates that list the version of the schema, its types, services and methods, and the options; a formatter that always fails. -/
def exExt : Ext :=
  { modLines := [], sha1 := fun _ => S "hash", version := S "v1", command := S "cmd", dump := fun _ => [],
    format := fun _ => none,
    load := fun _ _ => some { version := S "gen-x@v2", render := fun v => .text (join (S ";")
      ([v.schema.schemaVersion, v.schema.basePath] ++ v.schema.types.map TypeDecl.name ++
        v.schema.services.flatMap (fun s => s.name :: s.methods.map Method.name) ++ v.opts.map Prod.fst)) } }

def exArgs : List Str :=
  [S "-schema=./a.ridl", S "-target=typescript", S "-client", S "-service=A", S "-methodTreeShake", S "-ignore=@internal", S "-schemaVersion=v7", S "-out=gen/out.ts"]

theorem exRun : let _ := asciiOnly; let _ := asciiPrint
    run 9 exWorld exExt exArgs = .ends { status := 0, wrote := some (S "/w/gen/out.ts", S "v7;/rpc/;In;A;Q;client") } := by
  intro _ _
  decide +kernel

/-- C69: the hypotheses of the theorems above are met. -/
theorem C69_example : let _ := asciiOnly
    ∃ f opts s, Generating exWorld exArgs f opts s := by
  intro _
  let _ := asciiPrint
  refine Classical.byContradiction fun hn => ?_
  have := (C69_only 9 exWorld exExt exArgs _ exRun hn).1
  exact absurd this (by simp)

/-- C69 is false of formatting errors: when the code goes to stdout, or with `-silent`, the exit status is zero although
formatting failed. -/
theorem C69_format_error_hidden : let _ := asciiOnly; let _ := asciiPrint
    run 9 exWorld exExt [S "-schema=a.ridl", S "-target=golang"] = .ends { status := 0, stdout := some (S "v0.1.0;/rpc/;In;Unused;A;P;Q;B;R\n") } ∧
    run 9 exWorld exExt [S "-schema=a.ridl", S "-target=golang", S "-out=gen/out.ts", S "-silent"] =
      .ends { status := 0, wrote := some (S "/w/gen/out.ts", S "v0.1.0;/rpc/;In;Unused;A;P;Q;B;R") } ∧
    run 9 exWorld exExt [S "-schema=a.ridl", S "-target=golang", S "-out=gen/out.ts"] =
      .ends { status := 1, wrote := some (S "/w/gen/out.ts", S "v0.1.0;/rpc/;In;Unused;A;P;Q;B;R") } := by
  intro _ _
  refine ⟨by decide +kernel, by decide +kernel, by decide +kernel⟩

end Verif.Cli
