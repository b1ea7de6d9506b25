import Verif.Spec.Cache
import Verif.Compile.Declared
import Verif.Props.GenFuncs
import Verif.Props.Validation
/-!
# Properties of the template cache (C48)
-/

namespace Verif.Props
open Verif.Schema Verif.Gen Verif.Spec
open Verif.Compile (mapSet mapSet_lookup)

theorem template_iff {n : Str} : isTemplate n = true ↔ TemplateName n := by
  unfold isTemplate hasSuffix TemplateName
  rw [List.isSuffixOf_iff_suffix]
  constructor
  · rintro ⟨b, h⟩; exact ⟨b, h.symm⟩
  · rintro ⟨b, h⟩; exact ⟨b, h.symm⟩

theorem runAll_append (a b : List Micro) (d : Dir) : runAll (a ++ b) d = runAll b (runAll a d) := by
  unfold runAll; rw [List.foldl_append]

theorem appends_lookup (n data : Str) (d : Dir) (m : Str) :
    (runAll (data.map (.append n)) d).lookup m =
      if m = n ∧ data ≠ [] then some ((d.lookup n).getD [] ++ data) else d.lookup m := by
  induction data generalizing d with
  | nil => simp [runAll]
  | cons c data ih =>
    have : runAll ((c :: data).map (.append n)) d =
        runAll (data.map (.append n)) (mapSet n ((d.lookup n).getD [] ++ [c]) d) := rfl
    rw [this, ih, mapSet_lookup, mapSet_lookup]
    by_cases hm : m = n
    · subst hm
      by_cases hd : data = [] <;> simp [hd]
    · simp [hm]

theorem writeFile_lookup (n data : Str) (d : Dir) (m : Str) :
    (runAll (writeFile n data) d).lookup m = if m = n then some data else d.lookup m := by
  have : runAll (writeFile n data) d = runAll (data.map (.append n)) (mapSet n [] d) := rfl
  rw [this, appends_lookup, mapSet_lookup, mapSet_lookup]
  by_cases hm : m = n
  · subst hm
    by_cases hd : data = [] <;> simp [hd]
  · simp [hm]

/-- A part of writing one file does not change the others. -/
theorem writeFile_part (n data : Str) (k : Nat) (d : Dir) (m : Str) (hm : m ≠ n) :
    (runAll ((writeFile n data).take k) d).lookup m = d.lookup m := by
  cases k with
  | zero => rfl
  | succ k =>
    have : runAll ((writeFile n data).take (k + 1)) d =
        runAll ((data.map (.append n)).take k) (mapSet n [] d) := rfl
    rw [this, ← List.map_take, appends_lookup, if_neg (fun h => hm h.1), mapSet_lookup, if_neg hm]

theorem writeFiles_cons (f : Str × Str) (fs : List (Str × Str)) :
    writeFiles (f :: fs) = writeFile f.1 f.2 ++ writeFiles fs := rfl

theorem writeFiles_append (fs gs : List (Str × Str)) : writeFiles (fs ++ gs) = writeFiles fs ++ writeFiles gs := by
  unfold writeFiles; rw [List.map_append, List.flatten_append]

theorem writeFiles_lookup (fs : List (Str × Str)) (hd : DistinctFiles fs) (d : Dir) (m : Str) :
    (runAll (writeFiles fs) d).lookup m = (fs.lookup m).or (d.lookup m) := by
  induction fs generalizing d with
  | nil => simp [writeFiles, runAll]
  | cons f fs ih =>
    unfold DistinctFiles at hd
    rw [List.map_cons, List.pairwise_cons] at hd
    rw [writeFiles_cons, runAll_append, ih hd.2, writeFile_lookup, List.lookup_cons]
    by_cases hm : m = f.1
    · rw [if_pos hm]
      have : fs.lookup m = none := by
        rw [List.lookup_eq_none_iff]
        intro p hp
        have := hd.1 p.1 (List.mem_map.2 ⟨p, hp, rfl⟩)
        simp; rintro rfl; exact this hm.symm
      rw [this]
      simp [hm]
    · rw [if_neg hm]
      simp [beq_false_of_ne hm]

/-- A part of writing files does not change the others. -/
theorem writeFiles_part (fs : List (Str × Str)) (k : Nat) (d : Dir) (m : Str) (hm : ∀ f ∈ fs, m ≠ f.1) :
    (runAll ((writeFiles fs).take k) d).lookup m = d.lookup m := by
  induction fs generalizing d k with
  | nil => simp [writeFiles, runAll]
  | cons f fs ih =>
    rw [writeFiles_cons, List.take_append, runAll_append, ih _ _ fun g hg => hm g (by simp [hg])]
    exact writeFile_part _ _ _ _ _ (hm f (by simp))

theorem lookup_filter (r : Dir) (n : Str) :
    (r.filter fun f => isTemplate f.1).lookup n = if isTemplate n then r.lookup n else none := by
  induction r with
  | nil => simp
  | cons f r ih =>
    rw [List.filter_cons]
    by_cases hf : isTemplate f.1 = true
    · rw [if_pos hf, List.lookup_cons, List.lookup_cons, ih]
      by_cases hn : n = f.1
      · subst hn; simp [hf]
      · simp [beq_false_of_ne hn]
    · rw [if_neg hf, ih, List.lookup_cons]
      by_cases hn : n = f.1
      · subst hn; simp [hf]
      · simp [beq_false_of_ne hn]

theorem stamp_not : ¬ TemplateName stampFile ∧ ¬ TemplateName infoFile ∧ stampFile ≠ infoFile := by
  rw [← template_iff, ← template_iff]
  decide +kernel

theorem distinct_filter {r : Dir} (h : DistinctFiles r) : DistinctFiles (r.filter fun f => isTemplate f.1) := by
  unfold DistinctFiles at *
  exact h.sublist (List.filter_sublist.map _)

/-- Writing a cache to the end. -/
theorem caching_complete {target : Str} {now : Nat} {r d : Dir} {ms : List Micro} (hd : DistinctFiles r)
    (h : cacheTemplates target now r = some ms) (n : Str) (hn : TemplateName n) :
    (runAll ms d).lookup n = (r.lookup n).or (d.lookup n) := by
  unfold cacheTemplates at h
  dsimp only at h
  split at h
  · cases h
  · cases h
    rw [writeFiles_append, runAll_append]
    have h1 : n ≠ infoFile := by rintro rfl; exact stamp_not.2.1 hn
    have h2 : n ≠ stampFile := by rintro rfl; exact stamp_not.1 hn
    have := writeFiles_part [(infoFile, trimSpace target), (stampFile, stampText now)]
      (writeFiles [(infoFile, trimSpace target), (stampFile, stampText now)]).length
      (runAll (writeFiles (r.filter fun f => isTemplate f.1)) d) n (by
        intro f hf; simp at hf; rcases hf with rfl | rfl
        · exact h1
        · exact h2)
    rw [List.take_length] at this
    rw [this, writeFiles_lookup _ (distinct_filter hd), lookup_filter, if_pos (template_iff.2 hn)]

/-- Writing a cache up to some point: either the time stamp has not been touched, or all templates are written. -/
theorem caching_part {target : Str} {now : Nat} {r d : Dir} {ms : List Micro} (hd : DistinctFiles r)
    (h : cacheTemplates target now r = some ms) (k : Nat) :
    (runAll (ms.take k) d).lookup stampFile = d.lookup stampFile ∨
    ∀ n, TemplateName n → (runAll (ms.take k) d).lookup n = (r.lookup n).or (d.lookup n) := by
  unfold cacheTemplates at h
  dsimp only at h
  split at h
  · cases h
  · cases h
    rw [show (r.filter fun f => isTemplate f.1) ++ [(infoFile, trimSpace target), (stampFile, stampText now)] =
      ((r.filter fun f => isTemplate f.1) ++ [(infoFile, trimSpace target)]) ++ [(stampFile, stampText now)] from by simp]
    rw [writeFiles_append _ [(stampFile, stampText now)]]
    generalize hA : writeFiles ((r.filter fun f => isTemplate f.1) ++ [(infoFile, trimSpace target)]) = A
    rw [List.take_append, runAll_append]
    by_cases hk : k ≤ A.length
    · left
      rw [show k - A.length = 0 from by omega, List.take_zero]
      rw [show ∀ d, runAll [] d = d from fun _ => rfl, ← hA]
      refine writeFiles_part _ _ _ _ ?_
      intro f hf
      rcases List.mem_append.1 hf with hf | hf
      · have := (List.mem_filter.1 hf).2
        rintro he
        exact stamp_not.1 (template_iff.1 (by rw [he]; exact this))
      · simp at hf; subst hf; exact stamp_not.2.2
    · right
      intro n hn
      have h1 : n ≠ infoFile := by rintro rfl; exact stamp_not.2.1 hn
      have h2 : n ≠ stampFile := by rintro rfl; exact stamp_not.1 hn
      rw [writeFiles_part _ _ _ _ (by intro f hf; simp at hf; subst hf; exact h2)]
      rw [List.take_of_length_le (by omega), ← hA, writeFiles_append, runAll_append]
      have := writeFiles_part [(infoFile, trimSpace target)] (writeFiles [(infoFile, trimSpace target)]).length
        (runAll (writeFiles (r.filter fun f => isTemplate f.1)) d) n (by
          intro f hf; simp at hf; subst hf; exact h1)
      rw [List.take_length] at this
      rw [this, writeFiles_lookup _ (distinct_filter hd), lookup_filter, if_pos (template_iff.2 hn)]

/-- What any part of writing a cache can touch. -/
theorem caching_touch {target : Str} {now : Nat} {r d : Dir} {ms : List Micro}
    (h : cacheTemplates target now r = some ms) (k : Nat) (n : Str) (hn : TemplateName n) (hr : r.lookup n = none) :
    (runAll (ms.take k) d).lookup n = d.lookup n := by
  unfold cacheTemplates at h
  dsimp only at h
  split at h
  · cases h
  · cases h
    refine writeFiles_part _ _ _ _ ?_
    intro f hf he
    rcases List.mem_append.1 hf with hf | hf
    · have hm := (List.mem_filter.1 hf).1
      rw [List.lookup_eq_none_iff] at hr
      have := hr f hm
      rw [he] at this
      simp at this
    · simp at hf
      rcases hf with rfl | rfl
      · exact stamp_not.2.1 ((show n = infoFile from he) ▸ hn)
      · exact stamp_not.1 ((show n = stampFile from he) ▸ hn)

/-- C48. Filling a fresh cache directory: whatever the point at which the process is killed or the disk fails, the
cache is afterwards either not used, or it has exactly the fetched templates with exactly their contents. -/
theorem C48_fresh_crash (target : Str) (now : Nat) (r : Dir) (hd : DistinctFiles r) (ms : List Micro)
    (h : cacheTemplates target now r = some ms) (k : Nat) :
    cacheTime (runAll (ms.take k) []) = none ∨ SameTemplates (runAll (ms.take k) []) r := by
  rcases caching_part (d := []) hd h k with hs | hs
  · left
    unfold cacheTime
    rw [hs]
    rfl
  · right
    intro n hn
    rw [hs n hn]
    simp

/-- C48. The decision: the cache is used, and git is not asked, exactly when it is available, no refresh is asked for
and it is at most one hour old; otherwise what git delivers is used; if git fails, the cache is used when there is
one, and else loading fails. -/
theorem C48_decision (target : Str) (l : Load) (d : Dir) :
    (∀ ts, cacheTime d = some ts → l.refresh = false → (l.now : Int) ≤ (ts + 3600) * 1000000000 →
      loadRemote target l d = (parseGlob d, d)) ∧
    ((cacheTime d = none ∨ l.refresh = true ∨ ∃ ts, cacheTime d = some ts ∧ (l.now : Int) > (ts + 3600) * 1000000000) →
      (∀ r, l.fetch = some r → (loadRemote target l d).1 = parseGlob r) ∧
      (l.fetch = none → loadRemote target l d = (if (cacheTime d).isSome then parseGlob d else none, d))) := by
  constructor
  · intro ts h1 h2 h3
    unfold loadRemote mustFetch tooOld
    rw [h1]
    dsimp only
    rw [h2, if_neg]
    simp; omega
  · intro h
    have hm : mustFetch l d = true := by
      unfold mustFetch tooOld
      rcases h with h | h | ⟨ts, h1, h2⟩
      · rw [h]
      · split
        · rfl
        · rw [h]; rfl
      · rw [h1]
        simp; right; omega
    unfold loadRemote
    rw [if_pos hm]
    constructor
    · intro r hr; rw [hr]
    · intro hr; rw [hr]
      dsimp only
      split <;> rfl

/-- The templates used are those of the directory they come from. -/
theorem parseGlob_same {d e : Dir} (h : parseGlob d = some e) : SameTemplates e d := by
  unfold parseGlob at h
  dsimp only at h
  split at h
  · cases h
  · cases h
    intro n hn
    rw [lookup_filter, if_pos (template_iff.2 hn)]

theorem nonempty_templates {r : Dir} (h : ∃ n, TemplateName n ∧ (r.lookup n).isSome) (target : Str) (now : Nat) :
    ∃ ms, cacheTemplates target now r = some ms := by
  obtain ⟨n, h1, h2⟩ := h
  unfold cacheTemplates
  dsimp only
  rw [if_neg]
  · exact ⟨_, rfl⟩
  · intro he
    have := lookup_filter r n
    rw [he, if_pos (template_iff.2 h1)] at this
    rw [← this] at h2
    cases h2

/-- The invariant of histories. -/
def Inv (d : Dir) : Option Dir → Prop
  | none => d = []
  | some r => NamesWithin d r ∧ (cacheTime d ≠ none → SameTemplates d r)

theorem history_inv {target : Str} {d : Dir} {last : Option Dir} (h : History target d last) : Inv d last := by
  induction h with
  | start => rfl
  | @cached d last l _ hm ih =>
    have : (loadRemote target l d).2 = d := by
      unfold loadRemote; rw [if_neg (by rw [hm]; simp)]
    rw [this]; exact ih
  | @failed d last l _ hm hf ih =>
    have : (loadRemote target l d).2 = d := by
      unfold loadRemote; rw [if_pos hm, hf]; dsimp only; split <;> rfl
    rw [this]; exact ih
  | @fetched d last r l _ hm hf hd hg hne hs ih =>
    have hw : NamesWithin d r := by
      cases last with
      | none => unfold Inv at ih; subst ih; intro n _ hn; simp at hn
      | some e => intro n hn h1; exact hg e rfl n hn (ih.1 n hn h1)
    obtain ⟨ms, hms⟩ := nonempty_templates hne target l.now
    have he : (loadRemote target l d).2 = (match l.stop with
      | none => runAll ms d
      | some k => runAll (ms.take k) d) := by
      unfold loadRemote afterCaching
      rw [if_pos hm, hf]
      dsimp only
      rw [hms]
      rfl
    rw [he]
    have hor : ∀ n, TemplateName n → (r.lookup n).or (d.lookup n) = r.lookup n := by
      intro n hn
      cases hr : r.lookup n with
      | some x => rfl
      | none =>
        have := hw n hn
        rw [hr] at this
        cases hdn : d.lookup n with
        | none => rfl
        | some x => rw [hdn] at this; simp at this
    unfold Inv
    cases hst : l.stop with
    | none =>
      dsimp only
      have hc : ∀ n, TemplateName n → (runAll ms d).lookup n = r.lookup n := by
        intro n hn
        rw [caching_complete hd hms n hn, hor n hn]
      exact ⟨fun n hn h1 => by rw [← hc n hn]; exact h1, fun _ => hc⟩
    | some k =>
      dsimp only
      refine ⟨?_, ?_⟩
      · intro n hn h1
        cases hr : r.lookup n with
        | some x => rfl
        | none =>
          rw [caching_touch hms k n hn hr] at h1
          have := hw n hn h1
          rw [hr] at this; exact this
      · intro ha
        rcases caching_part (d := d) hd hms k with h1 | h1
        · exfalso
          apply ha
          have h0 := hs (by rw [hst]; simp)
          unfold cacheTime at h0 ⊢
          rw [h1]
          exact h0
        · intro n hn
          rw [h1 n hn, hor n hn]

/-- C48. After every history in which git never drops a template and no load is stopped while it overwrites a usable
cache (loads that fill an unusable one may be stopped anywhere, fetches may fail, contents may change): a load that
succeeds uses exactly the templates git delivers now or, if it used the cache, exactly the templates git delivered
last.  Missing for the full property: the two exclusions, without which it is false (`C48_refresh_crash`,
`C48_stale_file`). -/
theorem C48_history_partial (target : Str) (d : Dir) (last : Option Dir) (h : History target d last) (l : Load)
    (used : Dir) (hu : (loadRemote target l d).1 = some used) :
    (mustFetch l d = true ∧ ∃ r, l.fetch = some r ∧ SameTemplates used r) ∨
    ((mustFetch l d = false ∨ l.fetch = none) ∧ ∃ r, last = some r ∧ SameTemplates used r) := by
  have hinv := history_inv h
  have cached : (mustFetch l d = false ∨ l.fetch = none) → cacheTime d ≠ none → parseGlob d = some used →
      ∃ r, last = some r ∧ SameTemplates used r := by
    intro _ ha hp
    cases last with
    | none => unfold Inv at hinv; subst hinv; exact absurd rfl ha
    | some r =>
      refine ⟨r, rfl, fun n hn => ?_⟩
      rw [parseGlob_same hp n hn, hinv.2 ha n hn]
  unfold loadRemote at hu
  cases hm : mustFetch l d with
  | false =>
    right
    rw [hm, if_neg (by simp)] at hu
    have ha : cacheTime d ≠ none := by
      intro h0; unfold mustFetch at hm; rw [h0] at hm; cases hm
    exact ⟨Or.inl rfl, cached (Or.inl hm) ha hu⟩
  | true =>
    rw [hm, if_pos rfl] at hu
    cases hf : l.fetch with
    | some r =>
      rw [hf] at hu
      exact Or.inl ⟨rfl, r, rfl, parseGlob_same hu⟩
    | none =>
      rw [hf] at hu
      dsimp only at hu
      split at hu
      · rename_i ha
        have ha : cacheTime d ≠ none := by intro h0; rw [h0] at ha; cases ha
        exact Or.inr ⟨Or.inr rfl, cached (Or.inr hf) ha hu⟩
      · cases hu

theorem digit_not_space {c : Char} (h : c ∈ "0123456789".toList) : isSpace c = false := by
  have h2 : c ∈ ['0', '1', '2', '3', '4', '5', '6', '7', '8', '9'] := h
  simp only [List.mem_cons, List.not_mem_nil, or_false] at h2
  rcases h2 with rfl | rfl | rfl | rfl | rfl | rfl | rfl | rfl | rfl | rfl <;> decide

theorem trimSpace_free {s : Str} (h : ∀ c ∈ s, isSpace c = false) : trimSpace s = s := by
  have drop : ∀ s : Str, (∀ c ∈ s, isSpace c = false) → s.dropWhile isSpace = s := by
    intro s h
    cases s with
    | nil => rfl
    | cons c s => exact List.dropWhile_cons_of_neg (by rw [h c (by simp)]; simp)
  unfold trimSpace
  rw [drop s h, drop s.reverse (fun c hc => h c (by simpa using hc)), List.reverse_reverse]

theorem parseStamp_text (now : Nat) (h : now / 1000000000 < 2 ^ 63) :
    parseStamp (trimSpace (stampText now)) = (now / 1000000000 : Nat) := by
  have e : stampText now = numeral (now / 1000000000) := rfl
  obtain ⟨hne, hd⟩ := numeral_digits (now / 1000000000)
  rw [e, trimSpace_free fun c hc => digit_not_space (hd c hc)]
  have ha := atoi_numeral (n := now / 1000000000) h
  unfold atoi at ha
  unfold parseStamp
  split at ha
  · cases ha
  · rename_i hu
    rw [if_neg hu]
    split at ha
    · cases ha
    · rename_i n hn
      rw [hn]
      dsimp only
      split at ha
      · rename_i hs
        rw [if_pos hs]
        split at ha
        · rename_i hle; rw [if_pos hle]; exact Option.some.inj ha
        · cases ha
      · rename_i hs
        rw [if_neg hs]
        split at ha
        · rename_i hle; rw [if_pos hle]; exact Option.some.inj ha
        · cases ha

/-- C48. A load that fetches and is not stopped leaves a usable cache carrying the time of the load (if the clock is
after 1970 and before the year 292 billion). -/
theorem C48_complete_available (target : Str) (l : Load) (d r : Dir) (hm : mustFetch l d = true) (hf : l.fetch = some r)
    (hd : DistinctFiles r) (hne : ∃ n, TemplateName n ∧ (r.lookup n).isSome) (hs : l.stop = none)
    (h1 : 1000000000 ≤ l.now) (h2 : l.now / 1000000000 < 2 ^ 63) :
    cacheTime (loadRemote target l d).2 = some ((l.now / 1000000000 : Nat) : Int) := by
  obtain ⟨ms, hms⟩ := nonempty_templates hne target l.now
  have he : (loadRemote target l d).2 = runAll ms d := by
    unfold loadRemote afterCaching
    rw [if_pos hm, hf]
    dsimp only
    rw [hms, hs]
  rw [he]
  have hl : (runAll ms d).lookup stampFile = some (stampText l.now) := by
    unfold cacheTemplates at hms
    dsimp only at hms
    split at hms
    · cases hms
    · cases hms
      rw [show (r.filter fun f => isTemplate f.1) ++ [(infoFile, trimSpace target), (stampFile, stampText l.now)] =
        ((r.filter fun f => isTemplate f.1) ++ [(infoFile, trimSpace target)]) ++ [(stampFile, stampText l.now)] from by simp]
      rw [writeFiles_append _ [(stampFile, stampText l.now)], runAll_append]
      have : writeFiles [(stampFile, stampText l.now)] = writeFile stampFile (stampText l.now) := by
        simp [writeFiles]
      rw [this, writeFile_lookup, if_pos rfl]
  unfold cacheTime
  rw [hl]
  have hp := parseStamp_text l.now h2
  have hne' : stampText l.now ≠ [] := (numeral_digits (l.now / 1000000000)).1
  cases hst : stampText l.now with
  | nil => exact absurd hst hne'
  | cons c t =>
    rw [hst] at hp
    have hpos : parseStamp (trimSpace (c :: t)) > 0 := by
      rw [hp]
      have : 1 ≤ l.now / 1000000000 := by omega
      exact Int.natCast_pos.2 this
    dsimp only
    rw [if_pos hpos, hp]

/-- A usable cache carries its target. -/
theorem history_info {target : Str} {d : Dir} {last : Option Dir} (h : History target d last) :
    cacheTime d ≠ none → d.lookup infoFile = some (trimSpace target) := by
  induction h with
  | start => intro h; exact absurd rfl h
  | @cached d last l _ hm ih =>
    have : (loadRemote target l d).2 = d := by
      unfold loadRemote; rw [if_neg (by rw [hm]; simp)]
    rw [this]; exact ih
  | @failed d last l _ hm hf ih =>
    have : (loadRemote target l d).2 = d := by
      unfold loadRemote; rw [if_pos hm, hf]; dsimp only; split <;> rfl
    rw [this]; exact ih
  | @fetched d last r l _ hm hf hd hg hne hs ih =>
    obtain ⟨ms, hms⟩ := nonempty_templates hne target l.now
    have he : (loadRemote target l d).2 = (match l.stop with
      | none => runAll ms d
      | some k => runAll (ms.take k) d) := by
      unfold loadRemote afterCaching
      rw [if_pos hm, hf]
      dsimp only
      rw [hms]
      rfl
    have hk : ∀ k, (runAll (ms.take k) d).lookup stampFile = d.lookup stampFile ∨
        (runAll (ms.take k) d).lookup infoFile = some (trimSpace target) := by
      intro k
      unfold cacheTemplates at hms
      dsimp only at hms
      split at hms
      · cases hms
      · cases hms
        rw [show (r.filter fun f => isTemplate f.1) ++ [(infoFile, trimSpace target), (stampFile, stampText l.now)] =
          ((r.filter fun f => isTemplate f.1) ++ [(infoFile, trimSpace target)]) ++ [(stampFile, stampText l.now)] from by simp]
        rw [writeFiles_append _ [(stampFile, stampText l.now)]]
        generalize hA : writeFiles ((r.filter fun f => isTemplate f.1) ++ [(infoFile, trimSpace target)]) = A
        rw [List.take_append, runAll_append]
        by_cases hk : k ≤ A.length
        · left
          rw [show k - A.length = 0 from by omega, List.take_zero]
          rw [show ∀ d, runAll [] d = d from fun _ => rfl, ← hA]
          refine writeFiles_part _ _ _ _ ?_
          intro f hf
          rcases List.mem_append.1 hf with hf | hf
          · have := (List.mem_filter.1 hf).2
            rintro he
            exact stamp_not.1 (template_iff.1 (by rw [he]; exact this))
          · simp at hf; subst hf; exact stamp_not.2.2
        · right
          rw [writeFiles_part _ _ _ _ (by intro f hf; simp at hf; subst hf; exact fun hh => stamp_not.2.2 hh.symm)]
          rw [List.take_of_length_le (by omega), ← hA, writeFiles_append, runAll_append]
          have : writeFiles [(infoFile, trimSpace target)] = writeFile infoFile (trimSpace target) := by
            simp [writeFiles]
          rw [this, writeFile_lookup, if_pos rfl]
    rw [he]
    cases hst : l.stop with
    | none =>
      dsimp only
      intro ha
      have hkk := hk ms.length
      rw [List.take_length] at hkk
      rcases hkk with h1 | h1
      · -- the complete cache has a new stamp or the old one was usable
        unfold cacheTemplates at hms
        dsimp only at hms
        split at hms
        · cases hms
        · cases hms
          rw [show (r.filter fun f => isTemplate f.1) ++ [(infoFile, trimSpace target), (stampFile, stampText l.now)] =
            ((r.filter fun f => isTemplate f.1) ++ [(infoFile, trimSpace target)]) ++ [(stampFile, stampText l.now)] from by simp]
          rw [writeFiles_append _ [(stampFile, stampText l.now)], runAll_append]
          have h3 : writeFiles [(stampFile, stampText l.now)] = writeFile stampFile (stampText l.now) := by
            simp [writeFiles]
          have h4 : writeFiles [(infoFile, trimSpace target)] = writeFile infoFile (trimSpace target) := by
            simp [writeFiles]
          rw [h3, writeFile_lookup, if_neg (fun hh => stamp_not.2.2 hh.symm), writeFiles_append, runAll_append, h4,
            writeFile_lookup, if_pos rfl]
      · exact h1
    | some k =>
      dsimp only
      intro ha
      rcases hk k with h1 | h1
      · exfalso
        apply ha
        have h0 := hs (by rw [hst]; simp)
        unfold cacheTime at h0 ⊢
        rw [h1]
        exact h0
      · exact h1

/-- C48. The template version reported is the target, also when the templates come from the cache (for a target
without surrounding blanks). -/
theorem C48_version_partial (target : Str) (ht : trimSpace target = target) (d : Dir) (last : Option Dir)
    (h : History target d last) (l : Load) : tmplVersion target l d = target := by
  unfold tmplVersion
  cases hm : mustFetch l d with
  | true => rw [if_pos rfl]
  | false =>
    have ha : cacheTime d ≠ none := by
      intro h0; unfold mustFetch at hm; rw [h0] at hm; cases hm
    rw [if_neg (by simp), history_info h ha]
    dsimp only [Option.getD]
    rw [trimSpace_idem, ht]

/-- A history: a first load that dies in the middle, one that fills the cache, one that uses it. -/
def exFiles : Dir := [(S "main.go.tmpl", S "abc"), (S "README.md", S "x"), (S "types.go.tmpl", S "de")]

/-- The loads of the example. -/
def exLoad (stop : Option Nat) : Load := ⟨false, 1700000000000000000, some exFiles, stop⟩

example : ∃ d, History (S "t") d (some exFiles) ∧ (loadRemote (S "t") (exLoad none) d).1 =
    some [(S "main.go.tmpl", S "abc"), (S "types.go.tmpl", S "de")] ∧ mustFetch (exLoad none) d = false := by
  have h1 : History (S "t") _ (some exFiles) :=
    .fetched (exLoad (some 6)) .start (by decide +kernel) rfl (by unfold DistinctFiles; decide +kernel) (by simp)
      ⟨S "main.go.tmpl", ⟨S "main", rfl⟩, by decide +kernel⟩ (fun _ => rfl)
  have h2 : History (S "t") _ (some exFiles) :=
    .fetched (exLoad none) h1 (by decide +kernel) rfl (by unfold DistinctFiles; decide +kernel)
      (by intro e he; cases he; exact fun n _ h => h)
      ⟨S "main.go.tmpl", ⟨S "main", rfl⟩, by decide +kernel⟩ (by intro h; exact absurd rfl h)
  exact ⟨_, h2, by decide +kernel, by decide +kernel⟩

/-- C48 is false of the code for a usable cache: a refresh that dies after the first file leaves a directory that the
next load takes for a complete cache, although it is a mixture of old and new templates — here with a template cut
short. -/
theorem C48_refresh_crash :
    let old : Dir := [(S "a.go.tmpl", S "old-a"), (S "b.go.tmpl", S "old-b")]
    let new : Dir := [(S "a.go.tmpl", S "new-a"), (S "b.go.tmpl", S "new-b")]
    let t : Nat := 1700000000000000000
    let d := (loadRemote (S "t") ⟨false, t, some old, none⟩ []).2
    let d := (loadRemote (S "t") ⟨true, t, some new, some 10⟩ d).2
    (loadRemote (S "t") ⟨false, t, some new, none⟩ d).1 = some [(S "a.go.tmpl", S "new-a"), (S "b.go.tmpl", S "new")] ∧
    ((loadRemote (S "t") ⟨false, t, some new, none⟩ d).1 ≠ parseGlob old) ∧
    ((loadRemote (S "t") ⟨false, t, some new, none⟩ d).1 ≠ parseGlob new) := by
  decide +kernel

/-- C48 is false of the code when git drops a template: the directory is not emptied before a refresh, so the dropped
template is still used from the cache. -/
theorem C48_stale_file :
    let old : Dir := [(S "a.go.tmpl", S "a"), (S "b.go.tmpl", S "b")]
    let new : Dir := [(S "a.go.tmpl", S "a")]
    let t : Nat := 1700000000000000000
    let d := (loadRemote (S "t") ⟨false, t, some old, none⟩ []).2
    let d := (loadRemote (S "t") ⟨true, t, some new, none⟩ d).2
    (loadRemote (S "t") ⟨false, t, some new, none⟩ d).1 = some [(S "a.go.tmpl", S "a"), (S "b.go.tmpl", S "b")] := by
  decide +kernel

end Verif.Props
