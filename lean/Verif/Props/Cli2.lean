import Verif.Props.Cli
import Verif.Compile.PathLemmas
/-!
# Proofs about the command webrpc-gen: schema files and help (C70, C71)
-/

namespace Verif.Cli
open Verif.Schema hiding Json
open Verif.Gen Verif.Spec Verif.Props
open Verif.Json (GoPrint toJSON schemaHash parseSchemaJSON Loaded)
open Verif.Compile (Files compile clean cleanStep splitSlash joinSlash splitSlash_ne splitSlash_plain splitSlash_append splitSlash_join
  splitSlash_noSlash joinSlash_split)

/-! ## C70: which file is read -/

theorem cleanStep_walk {d es : List Str} (hd : ∀ e ∈ d, Proper e) (hes : ∀ e ∈ es, '/' ∉ e) :
    es.foldl (cleanStep true) d = walkRoot d es ∧ ∀ e ∈ walkRoot d es, Proper e := by
  induction es generalizing d with
  | nil => exact ⟨rfl, hd⟩
  | cons x es ih =>
    have hes' : ∀ e ∈ es, '/' ∉ e := fun e he => hes e (by simp [he])
    rw [List.foldl_cons, walkRoot]
    unfold cleanStep
    by_cases h1 : x = [] ∨ x = S "."
    · rw [if_pos h1, if_pos h1]; exact ih hd hes'
    · rw [if_neg h1, if_neg h1]
      by_cases h2 : x = S ".."
      · rw [if_pos h2, if_pos h2]
        cases d with
        | nil => exact ih hd hes'
        | cons y r =>
          have hy : y ≠ S ".." := (hd y (by simp)).2.2.1
          dsimp only
          rw [if_neg hy]
          exact ih (fun e he => hd e (by simp [he])) hes'
      · rw [if_neg h2, if_neg h2]
        refine ih ?_ hes'
        intro e he
        rcases List.mem_cons.1 he with rfl | he
        · exact ⟨fun h => h1 (.inl h), fun h => h1 (.inr h), h2, hes e (by simp)⟩
        · exact hd e he

theorem walkRoot_append (d a b : List Str) : walkRoot d (a ++ b) = walkRoot (walkRoot d a) b := by
  induction a generalizing d with
  | nil => rfl
  | cons x a ih =>
    rw [List.cons_append, walkRoot, walkRoot]
    split
    · exact ih d
    · split
      · exact ih _
      · exact ih _

theorem walkRoot_down (d : List Str) {l : List Str} (h : ∀ e ∈ l, Proper e) : walkRoot d l = l.reverse ++ d := by
  induction l generalizing d with
  | nil => rfl
  | cons x l ih =>
    obtain ⟨h1, h2, h3, h4⟩ := h x (by simp)
    rw [walkRoot, if_neg (by simp [h1, h2]), if_neg h3, ih _ fun e he => h e (by simp [he])]
    simp

theorem walkRoot_empty (d : List Str) (l : List Str) : walkRoot d ([] :: l) = walkRoot d l := by
  rw [walkRoot, if_pos (.inl rfl)]

theorem clean_abs {p : Str} (h : p.head? = some '/') : clean p = absText (walkRoot [] (splitSlash p)) := by
  unfold clean absText
  simp only [h, decide_true, if_true]
  rw [(cleanStep_walk (d := []) (by simp) (splitSlash_noSlash p)).1]

theorem split_abs {d : List Str} (h : ∀ e ∈ d, Proper e) : walkRoot [] (splitSlash (absText d)) = d := by
  unfold absText
  rw [show ('/' :: joinSlash d.reverse : Str) = [] ++ '/' :: joinSlash d.reverse from rfl, splitSlash_append]
  rw [show splitSlash [] ++ splitSlash (joinSlash d.reverse) = [] :: splitSlash (joinSlash d.reverse) from rfl, walkRoot_empty]
  cases hd : d with
  | nil => decide
  | cons x r =>
    rw [← hd, splitSlash_join (by simp [hd]) fun e he => (h e (by simpa using he)).2.2.2,
      walkRoot_down [] fun e he => h e (by simpa using he)]
    simp

theorem absPath_eq {d : List Str} (hd : ∀ e ∈ d, Proper e) (path : Str) :
    absPath (absText d) path = absText (reached d path) ∧ ∀ e ∈ reached d path, Proper e := by
  unfold absPath reached
  by_cases h : path.head? = some '/'
  · simp only [h, if_true]
    exact ⟨clean_abs h, (cleanStep_walk (by simp) (splitSlash_noSlash path)).2⟩
  · simp only [h, if_false]
    refine ⟨?_, (cleanStep_walk hd (splitSlash_noSlash path)).2⟩
    rw [clean_abs (by rfl), splitSlash_append, walkRoot_append, split_abs hd]

theorem ext_abs {d : List Str} (hd : ∀ e ∈ d, Proper e) :
    ext (absText d) = if '.' ∈ d.headD [] then '.' :: ((d.headD []).reverse.takeWhile (· != '.')).reverse else [] := by
  have : (splitSlash (absText d)).getLastD [] = d.headD [] := by
    unfold absText
    rw [show ('/' :: joinSlash d.reverse : Str) = [] ++ '/' :: joinSlash d.reverse from rfl, splitSlash_append]
    cases hc : d with
    | nil => decide
    | cons x r =>
      rw [← hc, splitSlash_join (by simp [hc]) fun e he => (hd e (by simpa using he)).2.2.2, hc]
      rw [List.reverse_cons, ← List.append_assoc, List.getLastD_eq_getLast?]
      simp
  unfold ext
  dsimp only
  rw [this]
  simp only [List.contains_iff_mem]

theorem takeWhile_rev {s e : Str} (he : '.' ∉ e) : (((s ++ '.' :: e).reverse.takeWhile (· != '.')).reverse) = e := by
  rw [List.reverse_append, List.reverse_cons, List.append_assoc]
  have : ((e.reverse ++ (['.'] ++ s.reverse)).takeWhile (· != '.')) = e.reverse := by
    have hx : ∀ c ∈ e.reverse, (c != '.') = true := by
      intro c hc
      simp only [bne_iff_ne]
      rintro rfl
      exact he (by simpa using hc)
    rw [List.takeWhile_append_of_pos hx]
    simp
  rw [this, List.reverse_reverse]

theorem last_dot {s : Str} (h : '.' ∈ s) : ∃ a e, s = a ++ '.' :: e ∧ '.' ∉ e := by
  induction s with
  | nil => cases h
  | cons c s ih =>
    by_cases hs : '.' ∈ s
    · obtain ⟨a, e, h1, h2⟩ := ih hs
      exact ⟨c :: a, e, by rw [h1]; rfl, h2⟩
    · rcases List.mem_cons.1 h with rfl | h
      · exact ⟨[], s, rfl, hs⟩
      · exact absurd h hs

theorem ext_iff {d : List Str} (hd : ∀ e ∈ d, Proper e) {x : Str} (hx : '.' ∉ x) :
    ext (absText d) = '.' :: x ↔ ∃ stem r, d = (stem ++ '.' :: x) :: r := by
  rw [ext_abs hd]
  constructor
  · intro h
    split at h
    · rename_i hm
      obtain ⟨a, e, h1, h2⟩ := last_dot hm
      rw [h1, takeWhile_rev h2] at h
      cases h
      cases d with
      | nil => simp at hm
      | cons y r => exact ⟨a, r, by simpa using h1⟩
    · cases h
  · rintro ⟨stem, r, rfl⟩
    rw [List.headD_cons, if_pos (by simp), takeWhile_rev hx]

/-- C70. A schema is loaded from the file its path leads to from the working directory (or from the root, if the path
starts with a slash): as JSON if the name of the file ends in `.json`, as RIDL if it ends in `.ridl`, and otherwise not. -/
theorem C70_reads [GoUnicode] (w : World) (d : List Str) (hd : ∀ e ∈ d, Proper e) (hw : w.cwd = absText d) (path : Str) (s : Schema) :
    parseSchemaFile w path = .ok s ↔
      (Ends (reached d path) ".json" ∧ ∃ text, w.files.lookup (joinSlash (reached d path).reverse) = some text ∧ parseSchemaJSON text = .ok s) ∨
      (Ends (reached d path) ".ridl" ∧ compile w.files (joinSlash (reached d path).reverse) = .ok s) := by
  obtain ⟨ha, hp⟩ := absPath_eq hd path
  have hj : ext (absText (reached d path)) = S ".json" ↔ Ends (reached d path) ".json" := ext_iff hp (x := S "json") (by decide)
  have hr : ext (absText (reached d path)) = S ".ridl" ↔ Ends (reached d path) ".ridl" := ext_iff hp (x := S "ridl") (by decide)
  unfold parseSchemaFile
  dsimp only
  rw [hw, ha]
  have hdrop : (absText (reached d path)).drop 1 = joinSlash (reached d path).reverse := rfl
  rw [hdrop]
  by_cases h1 : ext (absText (reached d path)) = S ".json"
  · have h2 : ¬ ext (absText (reached d path)) = S ".ridl" := by rw [h1]; decide
    rw [if_pos h1]
    constructor
    · intro h
      refine .inl ⟨hj.1 h1, ?_⟩
      cases hl : w.files.lookup (joinSlash (reached d path).reverse) with
      | none => rw [hl] at h; cases h
      | some text =>
        rw [hl] at h
        dsimp only at h
        refine ⟨text, rfl, ?_⟩
        cases hq : parseSchemaJSON text with
        | ok s' => rw [hq] at h; cases h; rfl
        | _ => rw [hq] at h; cases h
    · rintro (⟨-, text, h3, h4⟩ | ⟨h3, -⟩)
      · rw [h3]; dsimp only; rw [h4]
      · exact absurd (hr.2 h3) h2
  · rw [if_neg h1]
    by_cases h2 : ext (absText (reached d path)) = S ".ridl"
    · rw [if_pos h2]
      constructor
      · intro h
        refine .inr ⟨hr.1 h2, ?_⟩
        cases hq : compile w.files (joinSlash (reached d path).reverse) with
        | ok s' => rw [hq] at h; cases h; rfl
        | _ => rw [hq] at h; cases h
      · rintro (⟨h3, -⟩ | ⟨-, h4⟩)
        · exact absurd (hj.2 h3) h1
        · rw [h4]
    · rw [if_neg h2]
      constructor
      · intro h; cases h
      · rintro (⟨h3, -⟩ | ⟨h3, -⟩)
        · exact absurd (hj.2 h3) h1
        · exact absurd (hr.2 h3) h2

/-- C70. The same path gives the file that is written. -/
theorem C70_writes (d : List Str) (hd : ∀ e ∈ d, Proper e) (w : World) (hw : w.cwd = absText d) (f : Flags) (code : Str) (e : Bool)
    (p c : Str) (h : (output w f code e).wrote = some (p, c)) : p = absText (reached d f.out) ∧ c = code := by
  unfold output at h
  split at h
  · cases h
  · split at h
    · cases h
    · unfold outPath at h
      rw [hw, (absPath_eq hd f.out).1] at h
      cases h
      exact ⟨rfl, rfl⟩

/-- C70. A relative path and the absolute path it stands for give the same schema. -/
theorem C70_absolute [GoUnicode] (w : World) (d : List Str) (hd : ∀ e ∈ d, Proper e) (hw : w.cwd = absText d) (path : Str) :
    parseSchemaFile w (absText (reached d path)) = parseSchemaFile w path := by
  obtain ⟨ha, hp⟩ := absPath_eq hd path
  have h2 := (absPath_eq hd (absText (reached d path))).1
  have h3 : reached d (absText (reached d path)) = reached d path := by
    show walkRoot (if (absText (reached d path)).head? = some '/' then [] else d) (splitSlash (absText (reached d path))) = _
    rw [if_pos (by rfl), split_abs hp]
  unfold parseSchemaFile
  rw [hw, ha, h2, h3]

/-- C70: from `/home/u/api`, the path `../x//./b.json` leads to `/home/u/x/b.json`. -/
theorem C70_example : let d := [S "api", S "u", S "home"]
    (∀ e ∈ d, Proper e) ∧ absText d = S "/home/u/api" ∧ absText (reached d (S "../x//./b.json")) = S "/home/u/x/b.json" ∧
    Ends (reached d (S "../x//./b.json")) ".json" := by
  refine ⟨by unfold Proper; decide +kernel, by decide +kernel, by decide +kernel, S "b", [S "x", S "u", S "home"], by decide +kernel⟩

/-! ## C71: help -/

theorem settings_parse {pre : List Str} {sets : List (Str × Str)} (h : Settings pre sets) (rest : List Str) (f0 f : Flags)
    (hs : setAll f0 sets = some f) : parseFlags f0 (pre ++ rest) = parseFlags f rest := by
  induction h generalizing f0 with
  | nil => cases hs; rfl
  | @text d n v r s hd ht _ ih =>
    obtain ⟨t1, t2, t3, t4⟩ := own_text ((own_iff n).2 (.inl ht))
    have he : (n ++ S "=" ++ v) ≠ [] := by cases n <;> simp_all
    have hh : (n ++ S "=" ++ v).head? ≠ some '-' := by cases n <;> simp_all
    have hb : isBoolFlag n = false := by
      cases hb : isBoolFlag n with
      | false => rfl
      | true => exact absurd ((isBoolFlag_iff n).1 hb) (text_not_switch ht)
    rw [List.cons_append, parseFlags, show d ++ n ++ S "=" ++ v = d ++ (n ++ S "=" ++ v) from by simp, flagText_dashes hd he hh, nameValue_value t1 t2 t4]
    simp only [(ownFlag_iff n).2 ((own_iff n).2 (.inl ht)), hb, Bool.not_true, Bool.false_eq_true, if_false]
    obtain ⟨f1, e⟩ := setFlag_text ht f0 v
    rw [setAll] at hs
    simp only [e] at hs ⊢
    exact ih f1 hs
  | @next d n v r s hd ht _ ih =>
    obtain ⟨t1, t2, t3, t4⟩ := own_text ((own_iff n).2 (.inl ht))
    have hb : isBoolFlag n = false := by
      cases hb : isBoolFlag n with
      | false => rfl
      | true => exact absurd ((isBoolFlag_iff n).1 hb) (text_not_switch ht)
    rw [List.cons_append, List.cons_append, parseFlags, flagText_dashes hd t1 t2, nameValue_plain t1 t2 t4]
    simp only [(ownFlag_iff n).2 ((own_iff n).2 (.inl ht)), hb, Bool.not_true, Bool.false_eq_true, if_false]
    obtain ⟨f1, e⟩ := setFlag_text ht f0 v
    rw [setAll] at hs
    simp only [e] at hs ⊢
    exact ih f1 hs
  | @switchTo d n v b r s hd hw hbt _ ih =>
    obtain ⟨t1, t2, t3, t4⟩ := own_text ((own_iff n).2 (.inr hw))
    have he : (n ++ S "=" ++ v) ≠ [] := by cases n <;> simp_all
    have hh : (n ++ S "=" ++ v).head? ≠ some '-' := by cases n <;> simp_all
    rw [List.cons_append, parseFlags, show d ++ n ++ S "=" ++ v = d ++ (n ++ S "=" ++ v) from by simp, flagText_dashes hd he hh, nameValue_value t1 t2 t4]
    simp only [(ownFlag_iff n).2 ((own_iff n).2 (.inr hw)), (isBoolFlag_iff n).2 hw, Bool.not_true, Bool.false_eq_true, if_false, if_true, Option.getD_some]
    obtain ⟨f1, e⟩ := (setFlag_switch hw f0 v).2 ⟨b, hbt⟩
    rw [setAll] at hs
    simp only [e] at hs ⊢
    exact ih f1 hs
  | @switchOn d n r s hd hw _ ih =>
    obtain ⟨t1, t2, t3, t4⟩ := own_text ((own_iff n).2 (.inr hw))
    rw [List.cons_append, parseFlags, flagText_dashes hd t1 t2, nameValue_plain t1 t2 t4]
    simp only [(ownFlag_iff n).2 ((own_iff n).2 (.inr hw)), (isBoolFlag_iff n).2 hw, Bool.not_true, Bool.false_eq_true, if_false, if_true, Option.getD_none]
    obtain ⟨f1, e⟩ := (setFlag_switch hw f0 (S "true")).2 ⟨true, .on _ (by decide)⟩
    rw [setAll] at hs
    simp only [e] at hs ⊢
    exact ih f1 hs

theorem parseFlags_asks {d n a : Str} (hd : Dashes d) (hn : HelpFlag n) (ha : a = d ++ n ∨ ∃ v, a = d ++ n ++ S "=" ++ v) (f : Flags) (post : List Str) :
    parseFlags f (a :: post) = .help f := by
  have hno : flagNames.contains n = false := by rcases hn with rfl | rfl <;> decide
  have h1 : n ≠ [] := by rcases hn with rfl | rfl <;> decide
  have h2 : n.head? ≠ some '-' := by rcases hn with rfl | rfl <;> decide
  have h4 : '=' ∉ n := by rcases hn with rfl | rfl <;> decide
  have hh : n = S "h" ∨ n = S "help" := hn
  rcases ha with rfl | ⟨v, rfl⟩
  · rw [parseFlags, flagText_dashes hd h1 h2, nameValue_plain h1 h2 h4]
    simp only [hno, Bool.not_false, if_true, hh]
  · have he : (n ++ S "=" ++ v) ≠ [] := by cases n <;> simp_all
    have hx : (n ++ S "=" ++ v).head? ≠ some '-' := by cases n <;> simp_all
    rw [parseFlags, show d ++ n ++ S "=" ++ v = d ++ (n ++ S "=" ++ v) from by simp, flagText_dashes hd he hx, nameValue_value h1 h2 h4]
    simp only [hno, Bool.not_false, if_true, hh]

/-- C71. Asked for help, the program needs no schema, generates nothing and prints nothing on stdout; its exit status is
zero, unless the templates of the target end it with another one. -/
theorem C71_help_partial [GoUnicode] [GoPrint] (n : Nat) (w : World) (x : Ext) (args : List Str) (f : Flags) (opts : List (Str × Str))
    (h : AsksHelp args f opts) :
    ∃ o, run n w x args = .ends o ∧ o.wrote = none ∧ o.stdout = none ∧ opts.lookup (S "help") = some [] ∧
      (f.target = [] → o = { status := 0 }) ∧
      (o.status = 0 ∨ generate x {} f.target opts false false = .exits o.status) := by
  obtain ⟨own, sets, pre, a, post, d, k, hc, ho, hs, hf, hd, hk, ha⟩ := h
  obtain ⟨f', e⟩ := settings_set hs {}
  have hff : f = f' := flagsAre_unique hf (setAll_are e)
  subst hff
  have hp : parseFlags {} own = .help f := by
    rw [ho, settings_parse hs _ _ _ e, parseFlags_asks hd hk ha]
  refine ⟨usage x f opts 0, ?_, (usage_idle x f opts 0).1, (usage_idle x f opts 0).2.1, ?_, fun ht => ?_, (usage_idle x f opts 0).2.2⟩
  · unfold run
    rw [hc]
    dsimp only
    rw [hp]
  · refine (C49_help args own opts hc []).2 ⟨rfl, a, ?_, ?_⟩
    · have : a ∈ own := by rw [ho]; simp
      rw [C49_flags args own opts hc] at this
      exact (List.mem_filter.1 this).1
    · have h1 : k ≠ [] := by rcases hk with rfl | rfl <;> decide
      have h2 : k.head? ≠ some '-' := by rcases hk with rfl | rfl <;> decide
      have h4 : '=' ∉ k := by rcases hk with rfl | rfl <;> decide
      have d1 : d ≠ [] := by rcases hd with rfl | rfl <;> decide
      have d2 : ∀ c ∈ d, c = '-' := by rcases hd with rfl | rfl <;> decide
      rcases ha with rfl | ⟨v, rfl⟩
      · exact ⟨k, [], .plain d k d1 d2 h1 h2 h4, hk⟩
      · exact ⟨k, v, .value d k v d1 d2 h1 h2 h4, hk⟩
  · unfold usage
    rw [if_pos ht]

/-- C71 is false of the help a target has to offer: whatever text its templates make, it is not printed, a message about
a failure is. -/
theorem C71_target_help_lost [GoUnicode] [GoPrint] (x : Ext) (f : Flags) (opts : List (Str × Str)) (status : Nat) (text : Str) (e : Bool)
    (ht : f.target ≠ []) (h : generate x {} f.target opts false false = .code text e) :
    (usage x f opts status).help = some (S "failed to render -help: <nil>") := by
  unfold usage
  rw [if_neg ht, h]

theorem C71_example : let _ := asciiOnly; let _ := asciiPrint
    AsksHelp [S "-target=typescript", S "-client", S "-help", S "-fmt=maybe"] { target := S "typescript" } [(S "client", []), (S "help", [])] ∧
    run 0 exWorld exExt [S "-target=typescript", S "-client", S "-help", S "-fmt=maybe"] =
      .ends { status := 0, help := some (S "failed to render -help: <nil>") } ∧
    run 0 exWorld { exExt with load := fun _ _ => some { version := S "gen-x@v2", render := fun v =>
        (if (v.opts.lookup (S "help")).isSome then .exits 3 else .text []) } } [S "-target=typescript", S "-client", S "-help", S "-fmt=maybe"] =
      .ends { status := 3 } := by
  intro _ _
  refine ⟨⟨[S "-target=typescript", S "-help", S "-fmt=maybe"], [(S "target", S "typescript")], [S "-target=typescript"], S "-help", [S "-fmt=maybe"],
    S "-", S "help", by decide +kernel, by decide +kernel, ?_, ?_, .inl rfl, .inr rfl, .inl (by decide +kernel)⟩, by decide +kernel, by decide +kernel⟩
  · exact .text (d := S "-") (n := S "target") (v := S "typescript") (.inl rfl) (by unfold TextFlag; decide) .nil
  · exact setAll_are (by decide +kernel)

end Verif.Cli
