import Verif.Spec.TestCommand
import Verif.Props.Cli
import Verif.Props.TestSuite
/-!
# C100, C101, C102: the command webrpc-test
-/

namespace Verif.TestCmd
open Verif.Schema (Str S GoUnicode)
open Verif.Spec (Dashes BoolText LastPair)
open Verif.Cli (FlagText flagText nameValue parseBool)
open Verif.RpcSpec (Passes)
open Verif.Rpc (GoVal TypedReturn runTests)
open Verif.Gen (cut cut_char cut_char_none)

/-! ### Arguments -/

theorem nameValue_flag {s n : Str} {v : Option Str} (h : nameValue s = .flag n v) :
    n ≠ [] ∧ n.head? ≠ some '-' ∧ '=' ∉ n ∧ (match v with
      | none => s = n
      | some v => s = n ++ S "=" ++ v) := by
  unfold nameValue at h
  cases s with
  | nil => cases h
  | cons c r =>
    dsimp only at h
    by_cases hc : c = '-' ∨ c = '='
    · rw [if_pos hc] at h; cases h
    · rw [if_neg hc] at h
      cases hk : cut (S "=") (c :: r) with
      | none =>
        rw [hk] at h
        cases h
        have := cut_char_none.1 hk
        refine ⟨by simp, ?_, this, rfl⟩
        simp only [List.head?_cons, ne_eq, Option.some.injEq]
        exact fun e => hc (.inl e)
      | some x =>
        obtain ⟨a, b⟩ := x
        rw [hk] at h
        cases h
        obtain ⟨h1, h2⟩ := cut_char.1 hk
        have hne : n ≠ [] := by
          rintro rfl
          simp only [List.nil_append, List.cons.injEq] at h2
          exact hc (.inr h2.1)
        refine ⟨hne, ?_, h1, ?_⟩
        · cases n with
          | nil => exact absurd rfl hne
          | cons d n =>
            simp only [List.cons_append, List.cons.injEq] at h2
            simp only [List.head?_cons, ne_eq, Option.some.injEq]
            rintro rfl
            exact hc (.inl h2.1)
        · show c :: r = n ++ S "=" ++ b
          rw [h2, show S "=" = ['='] from rfl, List.append_assoc]; rfl

/-- The argument is a flag exactly when it is written as one. -/
theorem flag_iff (a n : Str) (v : Option Str) : flagText a = .flag n v ↔ Written n v a := by
  constructor
  · intro h
    match a with
    | [] => cases h
    | ['-'] => cases h
    | ['-', '-'] => cases h
    | '-' :: '-' :: c :: s =>
      obtain ⟨h1, h2, h3, h4⟩ := nameValue_flag (s := c :: s) h
      refine ⟨h1, h2, h3, S "--", .inr rfl, ?_⟩
      cases v with
      | none => dsimp only at h4 ⊢; rw [← h4]; rfl
      | some v => dsimp only at h4 ⊢; rw [List.append_assoc, List.append_assoc, ← List.append_assoc n, ← h4]; rfl
    | c :: s =>
      by_cases hc : c = '-'
      · subst hc
        cases s with
        | nil => cases h
        | cons x s =>
          by_cases hx : x = '-'
          · subst hx
            cases s with
            | nil => cases h
            | cons y s =>
              obtain ⟨h1, h2, h3, h4⟩ := nameValue_flag (s := y :: s) h
              refine ⟨h1, h2, h3, S "--", .inr rfl, ?_⟩
              cases v with
              | none => dsimp only at h4 ⊢; rw [← h4]; rfl
              | some v => dsimp only at h4 ⊢; rw [List.append_assoc, List.append_assoc, ← List.append_assoc n, ← h4]; rfl
          · have e : flagText ('-' :: x :: s) = nameValue (x :: s) :=
              Verif.Cli.flagText_dashes (d := S "-") (.inl rfl) (by simp) (by simpa using hx)
            rw [e] at h
            obtain ⟨h1, h2, h3, h4⟩ := nameValue_flag h
            refine ⟨h1, h2, h3, S "-", .inl rfl, ?_⟩
            cases v with
            | none => dsimp only at h4 ⊢; rw [← h4]; rfl
            | some v => dsimp only at h4 ⊢; rw [List.append_assoc, List.append_assoc, ← List.append_assoc n, ← h4]; rfl
      · rw [flagText.eq_def] at h
        split at h
        · rename_i e; cases e; exact absurd rfl hc
        · rename_i e; cases e; exact absurd rfl hc
        · rename_i e; cases e; exact absurd rfl hc
        · cases h
  · rintro ⟨h1, h2, h3, d, hd, h⟩
    cases v with
    | none =>
      dsimp only at h
      rw [h, Verif.Cli.flagText_dashes hd h1 h2, Verif.Cli.nameValue_plain h1 h2 h3]
    | some v =>
      dsimp only at h
      have he : n ++ S "=" ++ v ≠ [] := by simp [h1]
      have hh : (n ++ S "=" ++ v).head? ≠ some '-' := by
        cases n with
        | nil => exact absurd rfl h1
        | cons c n => simpa using h2
      rw [h, show d ++ n ++ S "=" ++ v = d ++ (n ++ S "=" ++ v) from by simp, Verif.Cli.flagText_dashes hd he hh,
        Verif.Cli.nameValue_value h1 h2 h3]

theorem stop_iff (a : Str) : flagText a = .stop ↔ NotFlag a := by
  have hnv : ∀ s, nameValue s ≠ .stop := by
    intro s h
    unfold nameValue at h
    split at h
    · cases h
    · split at h
      · cases h
      · split at h <;> cases h
  constructor
  · intro h
    match a with
    | [] => exact .inr (.inr (by simp))
    | [c] =>
      by_cases hc : c = '-'
      · subst hc; exact .inl rfl
      · exact .inr (.inr (by simpa using hc))
    | c :: x :: s =>
      by_cases hc : c = '-'
      · subst hc
        by_cases hx : x = '-'
        · subst hx
          cases s with
          | nil => exact .inr (.inl rfl)
          | cons y s => exact absurd h (hnv (y :: s))
        · rw [show flagText ('-' :: x :: s) = nameValue (x :: s) from
            Verif.Cli.flagText_dashes (d := S "-") (.inl rfl) (by simp) (by simpa using hx)] at h
          exact absurd h (hnv _)
      · exact .inr (.inr (by simpa using hc))
  · rintro (rfl | rfl | h)
    · rfl
    · rfl
    · rw [flagText.eq_def]
      split
      · rfl
      · simp at h
      · simp at h
      · rfl

theorem written_unique {a n m : Str} {v w : Option Str} (h1 : Written n v a) (h2 : Written m w a) : n = m ∧ v = w := by
  have e := ((flag_iff a n v).2 h1).symm.trans ((flag_iff a m w).2 h2)
  cases e; exact ⟨rfl, rfl⟩

/-! ### Flag sets -/

theorem parse_ok (fs : List (Str × Kind)) (args : List Str) (acc out : List (Str × Str)) :
    parseSet fs acc args = .ok out ↔ ∃ sets, Options fs args sets ∧ out = sets.reverse ++ acc := by
  constructor
  · intro h
    fun_induction parseSet fs acc args with
    | case1 acc => cases h; exact ⟨[], .nil, rfl⟩
    | case2 acc a rest hf => cases h; exact ⟨[], .stop ((stop_iff a).1 hf), rfl⟩
    | case3 => cases h
    | case4 => cases h
    | case5 => cases h
    | case6 => cases h
    | case7 acc a rest name value hf hl b hb ih =>
      obtain ⟨sets, h1, h2⟩ := ih h
      cases value with
      | none => exact ⟨_, .on ((flag_iff _ _ _).1 hf) hl h1, by rw [h2]; simp⟩
      | some v => exact ⟨_, .switch ((flag_iff _ _ _).1 hf) hl ((Verif.Cli.parseBool_iff v b).1 hb) h1, by rw [h2]; simp⟩
    | case8 acc a name p hl v rest hp hf ih =>
      obtain ⟨sets, h1, h2⟩ := ih h
      exact ⟨_, .value ((flag_iff _ _ _).1 hf) hl hp h1, by rw [h2]; simp⟩
    | case9 => cases h
    | case10 => cases h
    | case11 acc a name p hl v rest hp hf ih =>
      obtain ⟨sets, h1, h2⟩ := ih h
      exact ⟨_, .next ((flag_iff _ _ _).1 hf) hl hp h1, by rw [h2]; simp⟩
    | case12 => cases h
  · rintro ⟨sets, h, rfl⟩
    induction h generalizing acc with
    | nil => rfl
    | stop h => rw [parseSet, (stop_iff _).2 h]; rfl
    | on hw hl _ ih =>
      rw [parseSet, (flag_iff _ _ _).2 hw]
      simp only [hl, Option.getD_none]
      rw [show parseBool (S "true") = some true from rfl]
      simp only [ih]
      simp
    | switch hw hl hb _ ih =>
      rw [parseSet, (flag_iff _ _ _).2 hw]
      simp only [hl, Option.getD_some, (Verif.Cli.parseBool_iff _ _).2 hb, ih]
      simp
    | value hw hl hp _ ih =>
      rw [parseSet, (flag_iff _ _ _).2 hw]
      simp only [hl, hp, if_true, ih]
      simp
    | next hw hl hp _ ih =>
      rw [parseSet, (flag_iff _ _ _).2 hw]
      simp only [hl, hp, if_true, ih]
      simp

theorem parse_help (fs : List (Str × Kind)) (args : List Str) (acc : List (Str × Str)) :
    parseSet fs acc args = .help ↔ Helps fs args := by
  constructor
  · intro h
    fun_induction parseSet fs acc args with
    | case1 => cases h
    | case2 => cases h
    | case3 => cases h
    | case4 acc a rest name value hf hl hh => exact .here ((flag_iff _ _ _).1 hf) hl hh
    | case5 => cases h
    | case6 => cases h
    | case7 acc a rest name value hf hl b hb ih =>
      cases value with
      | none => exact .on ((flag_iff _ _ _).1 hf) hl (ih h)
      | some v => exact .switch ((flag_iff _ _ _).1 hf) hl ((Verif.Cli.parseBool_iff v b).1 hb) (ih h)
    | case8 acc a name p hl v rest hp hf ih => exact .value ((flag_iff _ _ _).1 hf) hl hp (ih h)
    | case9 => cases h
    | case10 => cases h
    | case11 acc a name p hl v rest hp hf ih => exact .next ((flag_iff _ _ _).1 hf) hl hp (ih h)
    | case12 => cases h
  · intro h
    induction h generalizing acc with
    | here hw hl hh =>
      rw [parseSet, (flag_iff _ _ _).2 hw]
      simp only [hl, hh, if_true]
    | on hw hl _ ih =>
      rw [parseSet, (flag_iff _ _ _).2 hw]
      simp only [hl, Option.getD_none]
      rw [show parseBool (S "true") = some true from rfl]
      simp only [ih]
    | switch hw hl hb _ ih =>
      rw [parseSet, (flag_iff _ _ _).2 hw]
      simp only [hl, Option.getD_some, (Verif.Cli.parseBool_iff _ _).2 hb, ih]
    | value hw hl hp _ ih =>
      rw [parseSet, (flag_iff _ _ _).2 hw]
      simp only [hl, hp, if_true, ih]
    | next hw hl hp _ ih =>
      rw [parseSet, (flag_iff _ _ _).2 hw]
      simp only [hl, hp, if_true, ih]

/-! ## C100: the command -/

theorem lookup_last {sets : List (Str × Str)} {n v : Str} : sets.reverse.lookup n = some v ↔ LastPair sets n v := by
  induction sets with
  | nil => simp [LastPair]
  | cons p l ih =>
    rw [Cli.lastPair_cons, List.reverse_cons, List.lookup_append, Option.or_eq_some_iff, ih]
    constructor
    · rintro (h | ⟨h, h2⟩)
      · exact .inl h
      · refine .inr ⟨?_, fun w hw => ?_⟩
        · obtain ⟨k, w⟩ := p
          rw [List.lookup_cons] at h2
          by_cases e : n = k
          · subst e; simp at h2; rw [h2]
          · rw [show (n == k) = false from by simpa using e] at h2; cases h2
        · have := List.lookup_eq_none_iff.1 h (n, w) (by simpa using hw)
          simp at this
    · rintro (h | ⟨rfl, h⟩)
      · exact .inl h
      · refine .inr ⟨List.lookup_eq_none_iff.2 fun q hq => ?_, by simp⟩
        obtain ⟨k, w⟩ := q
        by_cases e : n = k
        · subst e; exact absurd (List.mem_reverse.1 hq) (h w)
        · simpa using e

theorem value_of {sets : List (Str × Str)} {n d v : Str} : (sets.reverse.lookup n).getD d = v ↔ Value sets n d v := by
  constructor
  · rintro rfl
    cases h : sets.reverse.lookup n with
    | some w => exact .inl (lookup_last.1 h)
    | none =>
      refine .inr ⟨fun w hw => ?_, rfl⟩
      have := List.lookup_eq_none_iff.1 h (n, w) (by simpa using hw)
      simp at this
  · rintro (h | ⟨h, rfl⟩)
    · rw [lookup_last.2 h]; rfl
    · have : sets.reverse.lookup n = none := by
        cases e : sets.reverse.lookup n with
        | none => rfl
        | some w => exact absurd (Cli.lastPair_mem (lookup_last.1 e)) (h w)
      rw [this]; rfl

/-- The part of `main` for a mode. -/
def modeRun (w : World) (m : Mode) (rest : List Str) : Ended :=
  match m with
  | .version => ⟨0, S "webrpc-test " ++ w.version ++ ['\n'], .nothing⟩
  | .ridl => ⟨0, w.ridl ++ ['\n'], .nothing⟩
  | .json => ⟨0, w.json ++ ['\n'], .nothing⟩
  | .client =>
    orExit (parseSet clientFlags [] rest) fun sets =>
      let url := (sets.lookup (S "url")).getD (S "http://localhost:9988")
      ⟨if runTests (w.call url) = [] then 0 else 1, [], .tested url⟩
  | .server =>
    orExit (parseSet (serverFlags w) [] rest) fun sets =>
      let port := (sets.lookup (S "port")).getD (S "9988")
      let timeout := (sets.lookup (S "timeout")).getD (S "1m")
      ⟨if w.serve port timeout = .done then 0 else 1, [], .served port timeout⟩
  | .wait =>
    orExit (parseSet (waitFlags w) [] rest) fun sets =>
      let url := (sets.lookup (S "url")).getD (S "http://localhost:9988")
      let timeout := (sets.lookup (S "timeout")).getD (S "1m")
      if w.ready url timeout then ⟨0, S "wait: test server ready in ", .waited url timeout⟩
      else ⟨1, [], .waited url timeout⟩

theorem isOn_single (n v k : Str) : isOn [(n, v)] k = (decide (k = n) && (parseBool v).getD false) := by
  unfold isOn
  by_cases e : k = n
  · subst e; simp
  · rw [List.lookup_cons, show (k == n) = false from by simpa using e]
    simp [e]

/-- The flags of the modes. -/
theorem main_switch {n : Str} {k : Kind} (h : mainFlags.lookup n = some k) :
    k = .switch ∧ ∃ m : Mode, n ∈ m.flags := by
  have hm := Verif.Schema.lookup_mem h
  simp only [mainFlags, List.mem_cons, Prod.mk.injEq, List.not_mem_nil, or_false] at hm
  rcases hm with ⟨rfl, rfl⟩ | ⟨rfl, rfl⟩ | ⟨rfl, rfl⟩ | ⟨rfl, rfl⟩ | ⟨rfl, rfl⟩ | ⟨rfl, rfl⟩ | ⟨rfl, rfl⟩
  · exact ⟨rfl, .client, by decide⟩
  · exact ⟨rfl, .server, by decide⟩
  · exact ⟨rfl, .wait, by decide⟩
  · exact ⟨rfl, .version, by decide⟩
  · exact ⟨rfl, .ridl, by decide⟩
  · exact ⟨rfl, .ridl, by decide⟩
  · exact ⟨rfl, .json, by decide⟩

theorem mode_lookup {n : Str} {m : Mode} (h : n ∈ m.flags) : mainFlags.lookup n = some .switch := by
  cases m <;> simp only [Mode.flags, List.mem_cons, List.not_mem_nil, or_false] at h <;>
    (try rcases h with rfl | rfl) <;> (try subst h) <;> rfl

theorem isOn_nil (k : Str) : isOn [] k = false := rfl

/-- A mode that is asked for is run. -/
theorem run_picks (w : World) (args : List Str) (m : Mode) (h : Picks args m) : run w args = modeRun w m (args.drop 1) := by
  obtain ⟨a, r, n, rfl, hn, hw⟩ := h
  have hl := mode_lookup hn
  have key : ∃ v, parseSet mainFlags [] [a] = .ok [(n, v)] ∧ parseBool v = some true := by
    rcases hw with hw | ⟨v, hw, hb⟩
    · exact ⟨S "true", (parse_ok _ _ _ _).2 ⟨[(n, S "true")], .on hw hl .nil, rfl⟩, rfl⟩
    · exact ⟨v, (parse_ok _ _ _ _).2 ⟨[(n, v)], .switch hw hl hb .nil, rfl⟩, (Cli.parseBool_iff v true).2 hb⟩
  obtain ⟨v, hp, hv⟩ := key
  unfold run
  rw [List.take_succ_cons, List.take_zero, hp]
  simp only [isOn_single, hv, Option.getD_some, Bool.and_true]
  cases m <;> simp only [Mode.flags, List.mem_cons, List.not_mem_nil, or_false] at hn <;>
    (try rcases hn with rfl | rfl) <;> (try subst hn) <;> rfl

/-- Without a mode: usage and status 1. -/
theorem run_none (w : World) (args : List Str) (h : ∀ m, ¬ Picks args m) : run w args = ⟨1, [], .nothing⟩ := by
  unfold run
  cases hp : parseSet mainFlags [] (args.take 1) with
  | help => rfl
  | bad => rfl
  | ok sets =>
    obtain ⟨l, hl, rfl⟩ := (parse_ok _ _ _ _).1 hp
    have hnone : ∀ sets : List (Str × Str), (∀ k, isOn sets k = false) → (if isOn sets (S "version") then
        (⟨0, S "webrpc-test " ++ w.version ++ ['\n'], .nothing⟩ : Ended)
      else if isOn sets (S "printRIDL") || isOn sets (S "print-schema") then ⟨0, w.ridl ++ ['\n'], .nothing⟩
      else if isOn sets (S "printJSON") then ⟨0, w.json ++ ['\n'], .nothing⟩
      else if isOn sets (S "client") then modeRun w .client (args.drop 1)
      else if isOn sets (S "server") then modeRun w .server (args.drop 1)
      else if isOn sets (S "waitForServer") then modeRun w .wait (args.drop 1)
      else ⟨1, [], .nothing⟩) = ⟨1, [], .nothing⟩ := by
      intro sets hs
      simp only [hs, Bool.or_false, Bool.false_eq_true, if_false]
    refine hnone _ ?_
    rw [List.append_nil]
    match args, hl with
    | [], hl => cases hl; exact fun k => rfl
    | a :: r, hl =>
      rw [List.take_succ_cons, List.take_zero] at hl
      cases hl with
      | stop _ => exact fun k => rfl
      | on hw hk hr =>
        obtain ⟨-, m, hm⟩ := main_switch hk
        exact absurd ⟨a, r, _, rfl, hm, .inl hw⟩ (h m)
      | switch hw hk hb hr =>
        rename_i n v b s
        obtain ⟨-, m, hm⟩ := main_switch hk
        cases hr
        have hbf : b = false := by
          cases b with
          | false => rfl
          | true => exact absurd ⟨a, r, _, rfl, hm, .inr ⟨_, hw, hb⟩⟩ (h m)
        subst hbf
        intro k
        rw [List.reverse_cons, List.reverse_nil, List.nil_append, isOn_single, (Cli.parseBool_iff v false).2 hb]
        simp
      | value hw hk hp hr => exact absurd (main_switch hk).1 (by nofun)

theorem mode_unique {n : Str} {m k : Mode} (h1 : n ∈ m.flags) (h2 : n ∈ k.flags) : m = k := by
  cases m <;> simp only [Mode.flags, List.mem_cons, List.not_mem_nil, or_false] at h1 <;>
    (try rcases h1 with rfl | rfl) <;> (try subst h1) <;> cases k <;> first | rfl | exact absurd h2 (by decide)

/-- The first argument picks at most one mode. -/
theorem C100_one_mode (args : List Str) (m k : Mode) (h1 : Picks args m) (h2 : Picks args k) : m = k := by
  obtain ⟨a, r, n, rfl, hn, hw⟩ := h1
  obtain ⟨a', r', n', e, hn', hw'⟩ := h2
  cases e
  have : n = n' := by
    rcases hw with hw | ⟨_, hw, _⟩ <;> rcases hw' with hw' | ⟨_, hw', _⟩ <;> exact (written_unique hw hw').1
  subst this
  exact mode_unique hn hn'

/-- Nothing picked: the program only prints its usage, and ends with status 1. -/
theorem C100_usage (w : World) (args : List Str) (h : ∀ m, ¬ Picks args m) : run w args = ⟨1, [], .nothing⟩ := run_none w args h

/-- The printing modes print one text and a line break, and do nothing else, whatever follows. -/
theorem C100_prints (w : World) (args : List Str) :
    (Picks args .version → run w args = ⟨0, S "webrpc-test " ++ w.version ++ ['\n'], .nothing⟩) ∧
    (Picks args .ridl → run w args = ⟨0, w.ridl ++ ['\n'], .nothing⟩) ∧
    (Picks args .json → run w args = ⟨0, w.json ++ ['\n'], .nothing⟩) :=
  ⟨fun h => run_picks w args _ h, fun h => run_picks w args _ h, fun h => run_picks w args _ h⟩

/-- The client tests: they are run against exactly the URL given last (or the default), and the status is 0 exactly when
the server passes. -/
theorem C100_client (w : World) (args : List Str) (sets : List (Str × Str)) (url : Str) (h : Picks args .client)
    (ho : Options clientFlags (args.drop 1) sets) (hu : Value sets (S "url") (S "http://localhost:9988") url) :
    (run w args).action = .tested url ∧ (run w args).out = [] ∧
    ((run w args).status = 0 ↔ Passes (w.call url)) ∧ ((run w args).status = 1 ↔ ¬ Passes (w.call url)) := by
  rw [run_picks w args _ h]
  unfold modeRun
  rw [(parse_ok _ _ _ _).2 ⟨sets, ho, rfl⟩, List.append_nil]
  unfold orExit
  dsimp only
  rw [value_of.2 hu, ← Verif.Values.C81_verdict_partial]
  by_cases hp : runTests (w.call url) = [] <;> simp [hp]

/-- The server: it is run at the port and for the time given last (or the defaults), and the status is 0 exactly when it
could be bound and shut down. -/
theorem C100_server (w : World) (args : List Str) (sets : List (Str × Str)) (port timeout : Str) (h : Picks args .server)
    (ho : Options (serverFlags w) (args.drop 1) sets) (hp : Value sets (S "port") (S "9988") port)
    (ht : Value sets (S "timeout") (S "1m") timeout) :
    run w args = ⟨if w.serve port timeout = .done then 0 else 1, [], .served port timeout⟩ := by
  rw [run_picks w args _ h]
  unfold modeRun
  rw [(parse_ok _ _ _ _).2 ⟨sets, ho, rfl⟩, List.append_nil]
  unfold orExit
  dsimp only
  rw [value_of.2 hp, value_of.2 ht]

/-- Waiting: for the URL and the time given last (or the defaults); the status is 0 exactly when the server got ready. -/
theorem C100_wait (w : World) (args : List Str) (sets : List (Str × Str)) (url timeout : Str) (h : Picks args .wait)
    (ho : Options (waitFlags w) (args.drop 1) sets) (hu : Value sets (S "url") (S "http://localhost:9988") url)
    (ht : Value sets (S "timeout") (S "1m") timeout) :
    (run w args).action = .waited url timeout ∧ ((run w args).status = 0 ↔ w.ready url timeout = true) ∧
      (run w args).status ≤ 1 := by
  rw [run_picks w args _ h]
  unfold modeRun
  rw [(parse_ok _ _ _ _).2 ⟨sets, ho, rfl⟩, List.append_nil]
  unfold orExit
  dsimp only
  rw [value_of.2 hu, value_of.2 ht]
  by_cases hp : w.ready url timeout = true <;> simp [hp]

/-- The flags of a mode. -/
def modeFlags (w : World) : Mode → List (Str × Kind)
  | .client => clientFlags
  | .server => serverFlags w
  | .wait => waitFlags w
  | _ => []

/-- Asking for help after a mode that has flags: status 0, nothing is done. -/
theorem C100_help (w : World) (args : List Str) (m : Mode) (h : Picks args m) (hm : m = .client ∨ m = .server ∨ m = .wait)
    (hh : Helps (modeFlags w m) (args.drop 1)) : run w args = ⟨0, [], .nothing⟩ := by
  rw [run_picks w args _ h]
  rcases hm with rfl | rfl | rfl <;> (unfold modeRun; unfold modeFlags at hh; dsimp only at hh ⊢; rw [(parse_help _ _ _).2 hh]; rfl)

/-- Arguments after the mode that are neither: status 2, nothing is done. -/
theorem C100_wrong_flags (w : World) (args : List Str) (m : Mode) (h : Picks args m) (hm : m = .client ∨ m = .server ∨ m = .wait)
    (hh : ¬ Helps (modeFlags w m) (args.drop 1)) (ho : ∀ sets, ¬ Options (modeFlags w m) (args.drop 1) sets) :
    run w args = ⟨2, [], .nothing⟩ := by
  have key : parseSet (modeFlags w m) [] (args.drop 1) = .bad := by
    cases hp : parseSet (modeFlags w m) [] (args.drop 1) with
    | bad => rfl
    | help => exact absurd ((parse_help _ _ _).1 hp) hh
    | ok sets =>
      obtain ⟨l, h1, -⟩ := (parse_ok _ _ _ _).1 hp
      exact absurd h1 (ho l)
  rw [run_picks w args _ h]
  rcases hm with rfl | rfl | rfl <;> (unfold modeRun; unfold modeFlags at key; dsimp only at key ⊢; rw [key]; rfl)

/-- Tests are run only when asked for, and only against the URL asked for. -/
theorem C100_only_client (w : World) (args : List Str) (url : Str) (h : (run w args).action = .tested url) :
    Picks args .client ∧ ∃ sets, Options clientFlags (args.drop 1) sets ∧
      Value sets (S "url") (S "http://localhost:9988") url := by
  by_cases hm : ∃ m, Picks args m
  · obtain ⟨m, hm⟩ := hm
    rw [run_picks w args m hm] at h
    have hno : ∀ {fs : List (Str × Kind)} {k : List (Str × Str) → Ended},
        (orExit (parseSet fs [] (args.drop 1)) k).action = .tested url →
        ∃ sets, Options fs (args.drop 1) sets ∧ (k sets.reverse).action = .tested url := by
      intro fs k hk
      cases hp : parseSet fs [] (args.drop 1) with
      | help => rw [hp] at hk; cases hk
      | bad => rw [hp] at hk; cases hk
      | ok s =>
        rw [hp] at hk
        obtain ⟨sets, h1, rfl⟩ := (parse_ok _ _ _ _).1 hp
        rw [List.append_nil] at hk
        exact ⟨sets, h1, hk⟩
    cases m with
    | version => cases h
    | ridl => cases h
    | json => cases h
    | client =>
      obtain ⟨sets, h1, h2⟩ := hno h
      refine ⟨hm, sets, h1, value_of.1 ?_⟩
      dsimp only at h2
      injection h2
    | server =>
      obtain ⟨sets, h1, h2⟩ := hno h
      dsimp only at h2
      cases h2
    | wait =>
      obtain ⟨sets, h1, h2⟩ := hno h
      dsimp only at h2
      by_cases hr : w.ready ((sets.reverse.lookup (S "url")).getD (S "http://localhost:9988")) ((sets.reverse.lookup (S "timeout")).getD (S "1m")) = true
      · simp only [hr, if_true] at h2; cases h2
      · rw [if_neg hr] at h2; cases h2
  · rw [run_none w args fun m hp => hm ⟨m, hp⟩] at h
    cases h

/-- Against the reference server of the repository the tests pass, at every URL. -/
theorem C100_reference [GoUnicode] [Verif.Rpc.GoFloat] (hf : Verif.Rpc.GoFloat.norm 64 (S "24") = some (S "24"))
    (diff : GoVal → GoVal → Str) (w : World) (url : Str)
    (hw : w.call url = Verif.Rpc.testCall (Verif.Rpc.typedApi (Verif.Rpc.testServer diff) none none)) :
    (run w [S "-client", S "-url=" ++ url]).status = 0 ∧ (run w [S "-client", S "-url=" ++ url]).action = .tested url := by
  have hp : Picks [S "-client", S "-url=" ++ url] .client :=
    ⟨_, _, S "client", rfl, by decide, .inl ⟨by decide, by decide, by decide, S "-", .inl rfl, by decide⟩⟩
  have hwr : Written (S "url") (some url) (S "-url=" ++ url) := by
    refine ⟨by decide, by decide, by decide, S "-", .inl rfl, ?_⟩
    show S "-url=" ++ url = S "-" ++ S "url" ++ S "=" ++ url
    rw [show S "-" ++ S "url" ++ S "=" = S "-url=" by decide]
  have ho : Options clientFlags [S "-url=" ++ url] [(S "url", url)] := .value hwr rfl rfl .nil
  have hv : Value [(S "url", url)] (S "url") (S "http://localhost:9988") url := .inl ⟨[], [], rfl, by simp⟩
  obtain ⟨h1, h2, h3, -⟩ := C100_client w _ _ url hp ho hv
  refine ⟨h3.2 ?_, h1⟩
  rw [hw]
  exact (Verif.Values.C81_verdict_partial _).1 (Verif.Values.C81_reference hf diff)

/-- An example world, in which no server answers. -/
def deadWorld : World :=
  ⟨S "v1", S "webrpc = v1", S "{}", fun v => v.all Char.isDigit, fun v => v.getLast? = some 's', fun _ _ _ => .error .zero,
    fun _ _ => .done, fun _ _ => false⟩

/-- A URL without `-url=` is not looked at: the tests go to the default URL.  `-help` alone ends with status 1, after a
mode with 0. -/
theorem C100_surprises :
    (run deadWorld [S "-client", S "http://10.0.0.1:80"]).action = .tested (S "http://localhost:9988") ∧
    (run deadWorld [S "-help"]).status = 1 ∧ (run deadWorld [S "-client", S "-help"]).status = 0 ∧
    (run deadWorld [S "-url=http://10.0.0.1:80", S "-client"]) = ⟨1, [], .nothing⟩ := by decide +kernel

/-- Non-vacuity. -/
example : (run deadWorld [S "-client", S "-url", S "http://a"]) = ⟨1, [], .tested (S "http://a")⟩ ∧
    (run deadWorld [S "--server=t", S "-port=80", S "-timeout=5s"]) = ⟨0, [], .served (S "80") (S "5s")⟩ ∧
    (run deadWorld [S "-server", S "-port=x"]) = ⟨2, [], .nothing⟩ := by decide +kernel

/-! ## C101: waiting for a server -/

theorem Failing.length {limit : Nat} {srv : Answers} {l : List Nat} {t : Nat} (h : Failing limit srv l t) :
    100 * l.length ≤ t := by
  induction h with
  | first => simp
  | next _ _ _ _ ih => simp; omega

/-- Waiting from some point on. -/
theorem waits_from {limit : Nat} {srv : Answers} {l : List Nat} {t e : Nat} {ok : Bool} (hf : Failing limit srv l t)
    (h : Waits limit srv t ok e) : ∃ l' t', Failing limit srv l' t' ∧
      ((ok = true ∧ t' < limit ∧ (srv t').2 = true ∧ e = t' + (srv t').1 ∧ e ≤ limit) ∨
       (ok = false ∧ e = limit ∧ (limit ≤ t' ∨ limit ≤ t' + (srv t').1)) ∨
       (ok = false ∧ limit < e ∧ limit < t' ∧ l' = l ∧ t' = t)) := by
  induction h generalizing l with
  | ready h1 h2 h3 => exact ⟨_, _, hf, .inl ⟨rfl, h1, h3, rfl, h2⟩⟩
  | @over t e he hfail hlim =>
    by_cases ht : t < limit
    · rw [if_pos ht] at he
      by_cases hd : t + (srv t).1 < limit
      · refine ⟨_, _, .next hf ht hd (hfail ht hd), .inr (.inl ⟨rfl, by omega, .inl ?_⟩)⟩
        omega
      · exact ⟨_, _, hf, .inr (.inl ⟨rfl, by omega, .inr (by omega)⟩)⟩
    · rw [if_neg ht] at he
      by_cases hl : limit < t
      · exact ⟨_, _, hf, .inr (.inr ⟨rfl, by omega, hl, rfl, rfl⟩)⟩
      · exact ⟨_, _, hf, .inr (.inl ⟨rfl, by omega, .inl (by omega)⟩)⟩
  | @again t e z ok he hfail hlim hw ih =>
    have ht : t < limit := by
      by_cases ht : t < limit
      · exact ht
      · rw [if_neg ht] at he; omega
    rw [if_pos ht] at he
    have hd : t + (srv t).1 < limit := by omega
    have he' : e = t + (srv t).1 := by omega
    subst he'
    obtain ⟨l', t', h1, h2⟩ := ih (.next hf ht hd (hfail ht hd))
    refine ⟨l', t', h1, ?_⟩
    rcases h2 with h2 | h2 | ⟨_, _, h2, -, h3⟩
    · exact .inl h2
    · exact .inr (.inl h2)
    · omega

/-- `Wait` succeeds only when a call succeeded in time, and right then; all calls before it failed. -/
theorem C101_success {limit : Nat} {srv : Answers} {e : Nat} (h : Waits limit srv 0 true e) :
    ∃ l t, Failing limit srv l t ∧ t < limit ∧ (srv t).2 = true ∧ e = t + (srv t).1 ∧ e ≤ limit := by
  obtain ⟨l, t, h1, h2⟩ := waits_from .first h
  rcases h2 with ⟨-, h2⟩ | ⟨h2, -⟩ | ⟨h2, -⟩
  · exact ⟨l, t, h1, h2⟩
  · cases h2
  · cases h2

/-- `Wait` fails only at the deadline, after calls that all failed, when there is no time for another one, or when the last
one is not answered in time. -/
theorem C101_failure {limit : Nat} {srv : Answers} {e : Nat} (h : Waits limit srv 0 false e) :
    e = limit ∧ ∃ l t, Failing limit srv l t ∧ (limit ≤ t ∨ limit ≤ t + (srv t).1) := by
  obtain ⟨l, t, h1, h2⟩ := waits_from .first h
  rcases h2 with ⟨h2, -⟩ | ⟨-, h2, h3⟩ | ⟨-, -, h2, -, h3⟩
  · cases h2
  · exact ⟨h2, l, t, h1, h3⟩
  · subst h3; simp at h2

/-- `Wait` always ends, not after the deadline. -/
theorem C101_ends (limit : Nat) (srv : Answers) :
    (∃ ok e, Waits limit srv 0 ok e) ∧ ∀ ok e, Waits limit srv 0 ok e → e ≤ limit := by
  constructor
  · have key : ∀ n t, limit ≤ t + n → ∃ ok e, Waits limit srv t ok e := by
      intro n
      induction n with
      | zero =>
        intro t ht
        exact ⟨false, _, .over (e := t) (by rw [if_neg (by omega)]) (fun h => by omega) (by omega)⟩
      | succ n ih =>
        intro t ht
        by_cases h1 : t < limit
        · by_cases h2 : (srv t).2 = true ∧ t + (srv t).1 ≤ limit
          · exact ⟨true, _, .ready h1 h2.2 h2.1⟩
          · have hfail : t < limit → t + (srv t).1 < limit → (srv t).2 = false := by
              intro _ hlt
              cases hb : (srv t).2 with
              | false => rfl
              | true => exact absurd ⟨hb, by omega⟩ h2
            by_cases h3 : min (t + (srv t).1) limit + 100 ≤ limit
            · obtain ⟨ok, e, hw⟩ := ih (min (t + (srv t).1) limit + 100) (by omega)
              exact ⟨ok, e, .again (by rw [if_pos h1]) hfail h3 hw⟩
            · exact ⟨false, _, .over (by rw [if_pos h1]) hfail (by omega)⟩
        · exact ⟨false, _, .over (e := t) (by rw [if_neg h1]) (fun h => by omega) (by omega)⟩
    exact key limit 0 (by omega)
  · intro ok e h
    cases ok with
    | true => obtain ⟨_, _, -, -, -, -, h⟩ := C101_success h; exact h
    | false => rw [(C101_failure h).1]; exact Nat.le_refl _

/-- Between two calls there is a pause: there are at most so many failing calls. -/
theorem C101_calls {limit : Nat} {srv : Answers} {l : List Nat} {t : Nat} (h : Failing limit srv l t) :
    100 * l.length ≤ limit + 99 := by
  cases h with
  | first => simp
  | next h h1 h2 h3 =>
    have := h.length
    simp
    omega

/-- A server that answers every call from some time on, within `d`, and does not keep calls from before hanging for longer
than `hang` after that time, is found ready if there is time for it. -/
theorem C101_found {limit : Nat} {srv : Answers} {up hang d : Nat} (hup : ∀ t, up ≤ t → (srv t).2 = true ∧ (srv t).1 ≤ d)
    (hbefore : ∀ t, t < up → t + (srv t).1 ≤ up + hang) (htime : up + hang + 100 + d < limit) {ok : Bool} {e : Nat}
    (h : Waits limit srv 0 ok e) : ok = true ∧ e ≤ up + hang + 100 + d := by
  have hstart : ∀ {l t}, Failing limit srv l t → t ≤ up + hang + 100 := by
    intro l t hf
    cases hf with
    | first => omega
    | next hf h1 h2 h3 =>
      rename_i l t
      by_cases hu : up ≤ t
      · have := (hup t hu).1; rw [h3] at this; cases this
      · have := hbefore t (by omega); omega
  cases ok with
  | true =>
    refine ⟨rfl, ?_⟩
    obtain ⟨l, t, h1, h2, h3, h4, h5⟩ := C101_success h
    have := hstart h1
    by_cases hu : up ≤ t
    · have := (hup t hu).2; omega
    · have := hbefore t (by omega); omega
  | false =>
    obtain ⟨h1, l, t, h2, h3⟩ := C101_failure h
    have := hstart h2
    rcases h3 with h3 | h3
    · omega
    · by_cases hu : up ≤ t
      · have := (hup t hu).2; omega
      · have := hbefore t (by omega); omega

/-- A single call has no deadline of its own: if the first one is never answered, `Wait` fails, although the server would
answer every later call at once. -/
theorem C101_one_hanging_call (limit : Nat) (srv : Answers) (h0 : limit < (srv 0).1) {ok : Bool} {e : Nat}
    (h : Waits limit srv 0 ok e) : ok = false ∧ e = limit := by
  cases h with
  | ready h1 h2 => omega
  | over he hf hl =>
    refine ⟨rfl, ?_⟩
    by_cases hz : 0 < limit
    · rw [if_pos hz] at he; omega
    · rw [if_neg hz] at he; omega
  | again he hf hl hw =>
    by_cases hz : 0 < limit
    · rw [if_pos hz] at he; omega
    · rw [if_neg hz] at he; omega

/-- Non-vacuity: a server that comes up after a second is found in time. -/
example : let srv : Answers := fun t => if t < 1000 then (1, false) else (3, true)
    (∀ t, 1000 ≤ t → (srv t).2 = true ∧ (srv t).1 ≤ 3) ∧ (∀ t, t < 1000 → t + (srv t).1 ≤ 1000 + 0) ∧
      1000 + 0 + 100 + 3 < 60000 := by
  refine ⟨fun t ht => ?_, fun t ht => ?_, by decide⟩
  · simp only [if_neg (show ¬ t < 1000 by omega)]; exact ⟨by decide, by decide⟩
  · simp only [if_pos ht]; exact ht

/-! ## C102: the test server -/

/-- The invariant of the test server. -/
structure Inv (l : List SrvEvent) (s : SrvState) : Prop where
  calm : s.panicked = false
  open_ : s.closed = true ↔ s.phase = .ended
  timeout : s.phase ≠ .select → .timeout ∈ l
  expired : s.expired = true → .timeout ∈ l
  shut : s.phase = .closing ∨ s.phase = .ended → .shutdown s.err ∈ l ∧ s.down = true
  none : s.phase = .select ∨ s.phase = .shutdown → ∀ r, .shutdown r ∉ l
  same : ∀ r, .shutdown r ∈ l → r = s.err
  closed : ∀ r, .close r ∈ l → s.down = true

theorem inv_run {l : List SrvEvent} {s : SrvState} (h : SrvRun .start l s) : Inv l s := by
  induction h with
  | nil =>
    exact ⟨rfl, by simp [SrvState.start], by simp [SrvState.start], by simp [SrvState.start], by simp [SrvState.start], by simp,
      by simp, by simp⟩
  | @snoc t u l e hr hst ih =>
    obtain ⟨i1, i2, i3, i4, i5, i6, i7, i8⟩ := ih
    cases hst with
    | timeout h =>
      exact ⟨i1, i2, fun h => by simp, fun _ => by simp, fun h => ⟨by simp [(i5 h).1], (i5 h).2⟩, fun h r => by simpa using i6 h r,
        fun r hr => i7 r (by simpa using hr), fun r hr => i8 r (by simpa using hr)⟩
    | seen h1 h2 => rw [h1] at i2; simp [h2] at i2
    | expire h1 h2 =>
      have hc : t.closed = false := by
        cases hc : t.closed with
        | false => rfl
        | true => rw [i2, h1] at hc; cases hc
      refine ⟨i1, by simp [hc], fun _ => by simp [i4 h2], fun h => by simp [i4 h], by simp, fun _ r => by simpa using i6 (.inl h1) r,
        fun r hr => i7 r (by simpa using hr), fun r hr => i8 r (by simpa using hr)⟩
    | shut r h1 =>
      have hc : t.closed = false := by
        cases hc : t.closed with
        | false => rfl
        | true => rw [i2, h1] at hc; cases hc
      have hn := i6 (.inr h1)
      refine ⟨i1, by simp [hc], fun _ => by simp [i3 (by rw [h1]; nofun)], fun h => by simp [i4 h], fun _ => by simp, by simp,
        fun r' hr => ?_, fun _ _ => rfl⟩
      simp only [List.mem_append, List.mem_singleton, SrvEvent.shutdown.injEq] at hr
      rcases hr with hr | hr
      · exact absurd hr (hn r')
      · exact hr
    | close h1 =>
      have hc : t.closed = false := by
        cases hc : t.closed with
        | false => rfl
        | true => rw [i2, h1] at hc; cases hc
      refine ⟨by simp [i1, hc], by simp, fun _ => by simp [i3 (by rw [h1]; nofun)], fun h => by simp [i4 h],
        fun _ => ⟨by simp [(i5 (.inl h1)).1], (i5 (.inl h1)).2⟩, by simp, fun r hr => i7 r (by simpa using hr),
        fun r hr => i8 r (by simpa using hr)⟩
    | userClose r =>
      refine ⟨i1, i2, fun h => by simp [i3 h], fun h => by simp [i4 h], fun h => ⟨by simp [(i5 h).1], rfl⟩,
        fun h r => by simpa using i6 h r, fun r hr => i7 r (by simpa using hr), fun _ _ => rfl⟩
    | wait h =>
      refine ⟨i1, i2, fun h => by simp [i3 h], fun h => by simp [i4 h], fun h => ⟨by simp [(i5 h).1], (i5 h).2⟩,
        fun h r => by simpa using i6 h r, fun r hr => i7 r (by simpa using hr), fun r hr => i8 r (by simpa using hr)⟩

/-- The channel is never closed twice, in any run. -/
theorem C102_no_panic {l : List SrvEvent} {s : SrvState} (h : SrvRun .start l s) : s.panicked = false := (inv_run h).calm

/-- The run up to an event. -/
theorem run_prefix {l : List SrvEvent} {a s : SrvState} (h : SrvRun a l s) {l1 l2 : List SrvEvent} {e : SrvEvent}
    (hl : l = l1 ++ e :: l2) : ∃ t u, SrvRun a l1 t ∧ SrvStep t e u := by
  induction h generalizing l2 with
  | nil => simp at hl
  | @snoc t u l x hr hst ih =>
    rcases List.eq_nil_or_concat l2 with rfl | ⟨l3, y, rfl⟩
    · obtain ⟨h1, h2⟩ := List.append_inj' hl (by simp)
      subst h1
      cases h2
      exact ⟨t, u, hr, hst⟩
    · have hl' : l ++ [x] = (l1 ++ e :: l3) ++ [y] := by simpa using hl
      obtain ⟨h1, -⟩ := List.append_inj' hl' (by simp)
      exact ih h1

/-- `Wait` returns only after the timeout and after the graceful shutdown, and returns the error of that shutdown; also
when `Close` has been called before. -/
theorem C102_wait {l l1 l2 : List SrvEvent} {s : SrvState} {r : Option Str} (h : SrvRun .start l s)
    (hl : l = l1 ++ .wait r :: l2) :
    .timeout ∈ l1 ∧ .shutdown r ∈ l1 ∧ ∀ r', .shutdown r' ∈ l1 → r' = r := by
  obtain ⟨t, u, h1, h2⟩ := run_prefix h hl
  have hi := inv_run h1
  generalize hx : SrvEvent.wait r = x at h2
  cases h2 with
  | wait hc =>
    cases hx
    have hp := hi.open_.1 hc
    exact ⟨hi.timeout (by rw [hp]; nofun), (hi.shut (.inr hp)).1, hi.same⟩
  | _ => cases hx

/-- All callers of `Wait` get the same. -/
theorem C102_wait_same {l : List SrvEvent} {s : SrvState} {r r' : Option Str} (h : SrvRun .start l s)
    (h1 : .wait r ∈ l) (h2 : .wait r' ∈ l) : r = r' := by
  have hi := inv_run h
  have key : ∀ {r}, SrvEvent.wait r ∈ l → r = s.err := by
    intro r hr
    obtain ⟨l1, l2, e⟩ := List.append_of_mem hr
    exact hi.same r (by rw [e]; simp [(C102_wait h e).2.1])
  rw [key h1, key h2]

/-- After the timeout the goroutine always comes to close the channel, so that `Wait` returns: from every reachable state
it can go on, with its own steps only, whatever the shutdown returns. -/
theorem C102_wait_returns {l : List SrvEvent} {s : SrvState} (h : SrvRun .start l s) (ht : .timeout ∈ l) (r : Option Str) :
    ∃ l' s', SrvRun s l' s' ∧ s'.closed = true ∧ (∀ e ∈ l', e = .step ∨ e = .shutdown r) ∧ l'.length ≤ 3 := by
  have hexp : s.expired = true := by
    clear r
    induction h with
    | nil => simp at ht
    | @snoc t u l x hr hst ih =>
      have keep : t.expired = true → u.expired = true := by
        intro hx
        cases hst <;> first | exact hx | rfl
      rcases List.mem_append.1 ht with ht | ht
      · exact keep (ih ht)
      · simp only [List.mem_singleton] at ht
        subst ht
        cases hst
        rfl
  have hi := inv_run h
  cases hp : s.phase with
  | ended => exact ⟨[], s, .nil, hi.open_.2 hp, by simp, by simp⟩
  | closing => exact ⟨[.step], _, .snoc .nil (.close hp), rfl, by simp, by simp⟩
  | shutdown =>
    exact ⟨[.shutdown r, .step], _, .snoc (l := [.shutdown r]) (.snoc (l := []) .nil (.shut r hp)) (.close rfl), rfl, by simp, by simp⟩
  | select =>
    exact ⟨[.step, .shutdown r, .step], _, .snoc (l := [.step, .shutdown r]) (.snoc (l := [.step]) (.snoc (l := []) .nil (.expire hp hexp)) (.shut r rfl))
      (.close rfl), rfl, by simp, by simp⟩

/-- `Close` shuts the server down, but does not make `Wait` return: before the timeout `Wait` does not return, whatever
else happens. -/
theorem C102_close_does_not_release {l : List SrvEvent} {s : SrvState} (h : SrvRun .start l s) (ht : .timeout ∉ l) :
    (∀ r, .wait r ∉ l) ∧ ∀ r, .close r ∈ l → s.down = true := by
  refine ⟨fun r hr => ?_, (inv_run h).closed⟩
  obtain ⟨l1, l2, e⟩ := List.append_of_mem hr
  exact ht (by rw [e]; simp [(C102_wait h e).1])

/-- Non-vacuity: a run with `Close`, the timeout and `Wait`. -/
example : ∃ s, SrvRun .start [.close none, .timeout, .step, .shutdown none, .step, .wait none] s :=
  ⟨_, .snoc (l := [.close none, .timeout, .step, .shutdown none, .step]) (.snoc (l := [.close none, .timeout, .step, .shutdown none])
    (.snoc (l := [.close none, .timeout, .step]) (.snoc (l := [.close none, .timeout]) (.snoc (l := [.close none])
      (.snoc (l := []) .nil (.userClose none)) (.timeout rfl)) (.expire rfl rfl)) (.shut none rfl)) (.close rfl)) (.wait rfl)⟩

end Verif.TestCmd
