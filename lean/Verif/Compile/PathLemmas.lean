import Verif.Compile.Compile
import Verif.Spec.Paths
/-! Lemmas about slash-separated paths. -/

namespace Verif.Compile
open Verif.Schema (Str S)
open Verif.Spec

theorem splitSlash_ne (s : Str) : splitSlash s ≠ [] := by
  cases s with
  | nil => simp [splitSlash]
  | cons c s =>
    unfold splitSlash
    split
    · simp
    · split <;> simp

theorem splitSlash_plain {e : Str} (h : '/' ∉ e) : splitSlash e = [e] := by
  induction e with
  | nil => rfl
  | cons c e ih =>
    simp only [List.mem_cons, not_or] at h
    unfold splitSlash
    rw [if_neg (fun hc => h.1 hc.symm), ih h.2]

theorem splitSlash_append (a b : Str) : splitSlash (a ++ '/' :: b) = splitSlash a ++ splitSlash b := by
  induction a with
  | nil => simp [splitSlash]
  | cons c a ih =>
    simp only [List.cons_append]
    rw [splitSlash, splitSlash]
    split
    · rw [ih]; rfl
    · rw [ih]
      cases hs : splitSlash a with
      | nil => exact absurd hs (splitSlash_ne a)
      | cons x xs => rfl

theorem splitSlash_join {l : List Str} (hl : l ≠ []) (h : ∀ e ∈ l, '/' ∉ e) : splitSlash (joinSlash l) = l := by
  induction l with
  | nil => exact absurd rfl hl
  | cons x l ih =>
    cases l with
    | nil => exact splitSlash_plain (h x (by simp))
    | cons y r =>
      simp only [joinSlash]
      rw [splitSlash_append, splitSlash_plain (h x (by simp)), ih (by simp) fun e he => h e (by simp [he])]
      rfl

theorem joinSlash_split (s : Str) : joinSlash (splitSlash s) = s := by
  induction s with
  | nil => rfl
  | cons c s ih =>
    unfold splitSlash
    split
    · next hc =>
      subst hc
      cases hs : splitSlash s with
      | nil => exact absurd hs (splitSlash_ne s)
      | cons x xs => simp only [joinSlash, List.nil_append]; rw [← hs, ih]
    · cases hs : splitSlash s with
      | nil => exact absurd hs (splitSlash_ne s)
      | cons x xs =>
        simp only
        rw [hs] at ih
        cases xs with
        | nil => simp only [joinSlash] at ih ⊢; rw [ih]
        | cons y r => simp only [joinSlash] at ih ⊢; rw [List.cons_append, ih]

theorem splitSlash_noSlash (s : Str) : ∀ e ∈ splitSlash s, '/' ∉ e := by
  induction s with
  | nil => simp [splitSlash]
  | cons c s ih =>
    unfold splitSlash
    split
    · intro e he
      rcases List.mem_cons.1 he with rfl | he
      · simp
      · exact ih e he
    · next hc =>
      cases hs : splitSlash s with
      | nil => exact absurd hs (splitSlash_ne s)
      | cons x xs =>
        intro e he
        rw [hs] at ih
        rcases List.mem_cons.1 he with rfl | he
        · simp only [List.mem_cons, not_or]
          exact ⟨fun h => hc h.symm, ih x (by simp)⟩
        · exact ih e (by simp [he])

theorem walk_skip {d es : List Str} {e : Str} (h : e = [] ∨ e = S ".") : walk d (e :: es) = walk d es := by
  rw [walk.eq_def]; simp only [h, if_true]
theorem walk_out {es : List Str} {e : Str} (h1 : ¬ (e = [] ∨ e = S ".")) (h : e = S "..") : walk [] (e :: es) = none := by
  rw [walk.eq_def]; simp only []; rw [if_neg h1, if_pos h]
theorem walk_up {d es : List Str} {x e : Str} (h1 : ¬ (e = [] ∨ e = S ".")) (h : e = S "..") :
    walk (x :: d) (e :: es) = walk d es := by
  rw [walk.eq_def]; simp only []; rw [if_neg h1, if_pos h]
theorem walk_down {d es : List Str} {e : Str} (h1 : ¬ (e = [] ∨ e = S ".")) (h : e ≠ S "..") :
    walk d (e :: es) = walk (e :: d) es := by
  rw [walk.eq_def]; simp only [h1, if_false, h]

theorem walk_proper {d es d' : List Str} (hd : ∀ e ∈ d, Proper e) (hes : ∀ e ∈ es, '/' ∉ e)
    (h : walk d es = some d') : ∀ e ∈ d', Proper e := by
  induction es generalizing d with
  | nil => simp [walk] at h; subst h; exact hd
  | cons x es ih =>
    have hes' : ∀ e ∈ es, '/' ∉ e := fun e he => hes e (by simp [he])
    unfold walk at h
    split at h
    · exact ih hd hes' h
    · next h1 =>
      simp only [not_or] at h1
      split at h
      · cases d with
        | nil => simp at h
        | cons y d => exact ih (fun e he => hd e (by simp [he])) hes' h
      · next h2 =>
        refine ih ?_ hes' h
        intro e he
        rcases List.mem_cons.1 he with rfl | he
        · exact ⟨h1.1, h1.2, h2, hes e (by simp)⟩
        · exact hd e he

theorem dotdot_ne : S ".." ≠ [] ∧ S ".." ≠ S "." := by decide

/-- Once the scan of `clean` has left the root it stays outside. -/
theorem clean_outside {es x : List Str} :
    ∃ x', es.foldl (cleanStep false) (x ++ [S ".."]) = x' ++ [S ".."] := by
  induction es generalizing x with
  | nil => exact ⟨x, rfl⟩
  | cons e es ih =>
    simp only [List.foldl_cons]
    have : ∃ y, cleanStep false (x ++ [S ".."]) e = y ++ [S ".."] := by
      unfold cleanStep
      split
      · exact ⟨x, rfl⟩
      · split
        · cases x with
          | nil => simp only [List.nil_append]; exact ⟨[e], by simp⟩
          | cons y x =>
            simp only [List.cons_append]
            split
            · exact ⟨e :: y :: x, rfl⟩
            · exact ⟨x, rfl⟩
        · exact ⟨e :: x, rfl⟩
    obtain ⟨y, hy⟩ := this
    rw [hy]
    exact ih

/-- The scan of `clean` is a walk. -/
theorem clean_walk {d es : List Str} (hd : ∀ e ∈ d, Proper e) (hes : ∀ e ∈ es, '/' ∉ e) :
    match walk d es with
    | some d' => es.foldl (cleanStep false) d = d'
    | none => ∃ x, es.foldl (cleanStep false) d = x ++ [S ".."] := by
  induction es generalizing d with
  | nil => simp [walk]
  | cons e es ih =>
    have hes' : ∀ e ∈ es, '/' ∉ e := fun e he => hes e (by simp [he])
    simp only [List.foldl_cons]
    by_cases h1 : e = [] ∨ e = S "."
    · rw [walk_skip h1, show cleanStep false d e = d by simp [cleanStep, h1]]
      exact ih hd hes'
    · have k1 := h1
      simp only [not_or] at h1
      by_cases h2 : e = S ".."
      · cases d with
        | nil =>
          rw [show cleanStep false [] e = [S ".."] by simp [cleanStep, k1, h2, dotdot_ne]]
          rw [walk_out k1 h2]
          exact clean_outside (x := [])
        | cons y d =>
          have hy := (hd y (by simp)).2.2.1
          rw [show cleanStep false (y :: d) e = d by simp [cleanStep, h2, dotdot_ne, hy]]
          rw [walk_up k1 h2]
          exact ih (fun e he => hd e (by simp [he])) hes'
      · rw [show cleanStep false d e = e :: d by simp [cleanStep, h1, h2]]
        rw [walk_down k1 h2]
        refine ih ?_ hes'
        intro x hx
        rcases List.mem_cons.1 hx with rfl | hx
        · exact ⟨h1.1, h1.2, h2, hes x (by simp)⟩
        · exact hd x hx

theorem joinSlash_ne {l : List Str} (h : ∀ e ∈ l, e ≠ []) (hl : l ≠ []) : joinSlash l ≠ [] := by
  cases l with
  | nil => exact absurd rfl hl
  | cons x l =>
    cases l with
    | nil => exact h x (by simp)
    | cons y r => simp [joinSlash]

theorem joinSlash_head {l : List Str} (h : ∀ e ∈ l, Proper e) : (joinSlash l).head? ≠ some '/' := by
  cases l with
  | nil => simp [joinSlash]
  | cons x l =>
    have hx := h x (by simp)
    have : ∃ c cs, x = c :: cs ∧ c ≠ '/' := by
      cases x with
      | nil => exact absurd rfl hx.1
      | cons c cs => exact ⟨c, cs, rfl, fun hc => hx.2.2.2 (by simp [hc])⟩
    obtain ⟨c, cs, rfl, hc⟩ := this
    cases l with
    | nil => simpa [joinSlash] using hc
    | cons y r => simpa [joinSlash] using hc

theorem pathText_split {d : List Str} (h : ∀ e ∈ d, Proper e) :
    splitSlash (pathText d) = if d = [] then [S "."] else d.reverse := by
  unfold pathText
  split
  · decide
  · next hd => exact splitSlash_join (by simpa using hd) fun e he => (h e (by simpa using he)).2.2.2

theorem pathText_head {d : List Str} (h : ∀ e ∈ d, Proper e) : (pathText d).head? ≠ some '/' := by
  unfold pathText
  split
  · decide
  · exact joinSlash_head fun e he => h e (by simpa using he)

theorem pathText_ne {d : List Str} (h : ∀ e ∈ d, Proper e) : pathText d ≠ [] := by
  unfold pathText
  split
  · decide
  · next hd => exact joinSlash_ne (fun e he => (h e (by simpa using he)).1) (by simpa using hd)

theorem clean_of_fold {p : Str} {d : List Str} (h : p.head? ≠ some '/')
    (hf : (splitSlash p).foldl (cleanStep false) [] = d) (hd : ∀ e ∈ d, e ≠ []) : clean p = pathText d := by
  unfold clean pathText
  simp only [h, decide_false]
  rw [hf]
  simp only [Bool.false_eq_true, if_false]
  by_cases hz : d = []
  · subst hz; simp [joinSlash]
  · rw [if_neg (joinSlash_ne (by simpa using hd) (by simpa using hz)), if_neg hz]

theorem walk_path (d : List Str) (h : ∀ e ∈ d, Proper e) : walk [] (splitSlash (pathText d)) = some d := by
  rw [pathText_split h]
  split
  · next hz => subst hz; decide
  · have key : ∀ (l a : List Str), (∀ e ∈ l, Proper e) → walk a l = some (l.reverse ++ a) := by
      intro l
      induction l with
      | nil => simp [walk]
      | cons x l ih =>
        intro a hl
        have hx := hl x (by simp)
        unfold walk
        rw [if_neg (by simp [hx.1, hx.2.1]), if_neg hx.2.2.1, ih (x :: a) fun e he => hl e (by simp [he])]
        simp
    have := key d.reverse [] (by simpa using h)
    simpa using this

theorem walk_append (a b d : List Str) : walk d (a ++ b) = (walk d a).bind fun d' => walk d' b := by
  induction a generalizing d with
  | nil => rfl
  | cons e a ih =>
    simp only [List.cons_append]
    by_cases h1 : e = [] ∨ e = S "."
    · rw [walk_skip h1, walk_skip h1]; exact ih d
    · by_cases h2 : e = S ".."
      · cases d with
        | nil => rw [walk_out h1 h2, walk_out h1 h2]; rfl
        | cons x d => rw [walk_up h1 h2, walk_up h1 h2]; exact ih d
      · rw [walk_down h1 h2, walk_down h1 h2]; exact ih _

theorem upToSlash_plain {f : Str} (hf : '/' ∉ f) : upToSlash f = [] := by
  induction f with
  | nil => rfl
  | cons c f ih =>
    simp only [List.mem_cons, not_or] at hf
    simp only [upToSlash, ih hf.2]
    rw [if_neg fun h => hf.1 h.symm]

theorem upToSlash_slash {a f : Str} (hf : '/' ∉ f) : upToSlash (a ++ '/' :: f) = a ++ ['/'] := by
  induction a with
  | nil => simp [upToSlash, upToSlash_plain hf]
  | cons c a ih =>
    simp only [List.cons_append, upToSlash, ih]
    split
    · next h => simp at h
    · rfl

theorem joinSlash_snoc (l : List Str) (f : Str) (hl : l ≠ []) : joinSlash (l ++ [f]) = joinSlash l ++ '/' :: f := by
  induction l with
  | nil => exact absurd rfl hl
  | cons x l ih =>
    cases l with
    | nil => rfl
    | cons y r =>
      have := ih (by simp)
      simp only [List.cons_append, joinSlash] at this ⊢
      rw [this]
      simp

/-- The directory of a file. -/
theorem dir_path {f : Str} {d : List Str} (h : ∀ e ∈ d, Proper e) (hf : Proper f) :
    dir (pathText (f :: d)) = pathText d := by
  unfold dir
  have e1 : pathText (f :: d) = joinSlash (d.reverse ++ [f]) := by simp [pathText]
  rw [e1]
  cases hd : d with
  | nil =>
    simp only [List.reverse_nil, List.nil_append, joinSlash, upToSlash_plain hf.2.2.2]
    decide
  | cons x r =>
    rw [← hd, joinSlash_snoc _ _ (by simp [hd]), upToSlash_slash hf.2.2.2]
    have e2 : joinSlash d.reverse = pathText d := by simp [pathText, hd]
    rw [e2]
    apply clean_of_fold
    · have := pathText_head h
      have hne := pathText_ne h
      cases hp : pathText d with
      | nil => exact absurd hp hne
      | cons c cs => rw [hp] at this; simpa using this
    · have hw := clean_walk (d := []) (es := splitSlash (pathText d ++ ['/'])) (by simp) (splitSlash_noSlash _)
      rw [show pathText d ++ ['/'] = pathText d ++ '/' :: [] from rfl, splitSlash_append] at hw ⊢
      rw [walk_append, walk_path d h] at hw
      simpa [splitSlash, walk] using hw
    · exact fun e he => (h e he).1

/-- Where an import leads: a walk from the directory of the importing file. -/
theorem join_walk {d : List Str} (h : ∀ e ∈ d, Proper e) (imp : Str) :
    match walk d (splitSlash imp) with
    | some d' => joinPath (pathText d) imp = pathText d' ∧ ∀ e ∈ d', Proper e
    | none => validPath (joinPath (pathText d) imp) = false := by
  have hne := pathText_ne h
  have hhead := pathText_head h
  have e1 : joinPath (pathText d) imp = clean (pathText d ++ '/' :: imp) := by
    unfold joinPath
    rw [if_neg (by simp [hne]), if_neg hne]
    split
    · next hz =>
      subst hz
      -- a trailing slash changes nothing
      have k1 : clean (pathText d) = pathText d := by
        apply clean_of_fold hhead ?_ fun e he => (h e he).1
        have hw := clean_walk (d := []) (es := splitSlash (pathText d)) (by simp) (splitSlash_noSlash _)
        rw [walk_path d h] at hw
        simpa using hw
      have k2 : clean (pathText d ++ ['/']) = pathText d := by
        apply clean_of_fold ?_ ?_ fun e he => (h e he).1
        · cases hp : pathText d with
          | nil => exact absurd hp hne
          | cons c cs => rw [hp] at hhead; simpa using hhead
        · have hw := clean_walk (d := []) (es := splitSlash (pathText d ++ ['/'])) (by simp) (splitSlash_noSlash _)
          rw [show pathText d ++ ['/'] = pathText d ++ '/' :: [] from rfl, splitSlash_append] at hw ⊢
          rw [walk_append, walk_path d h] at hw
          simpa [splitSlash, walk] using hw
      rw [k1, k2]
    · rfl
  have hh : (pathText d ++ '/' :: imp).head? ≠ some '/' := by
    cases hp : pathText d with
    | nil => exact absurd hp hne
    | cons c cs => rw [hp] at hhead; simpa using hhead
  have hw := clean_walk (d := []) (es := splitSlash (pathText d ++ '/' :: imp)) (by simp) (splitSlash_noSlash _)
  rw [splitSlash_append, walk_append, walk_path d h] at hw
  simp only [Option.bind_some] at hw
  rw [e1]
  cases hr : walk d (splitSlash imp) with
  | some d' =>
    rw [hr] at hw
    have hp := walk_proper h (splitSlash_noSlash imp) hr
    exact ⟨clean_of_fold hh (by rw [splitSlash_append]; exact hw) fun e he => (hp e he).1, hp⟩
  | none =>
    rw [hr] at hw
    obtain ⟨x, hx⟩ := hw
    simp only
    -- all elements are free of slashes
    have key : ∀ (es a : List Str), (∀ e ∈ a, '/' ∉ e) → (∀ e ∈ es, '/' ∉ e) →
        ∀ e ∈ es.foldl (cleanStep false) a, '/' ∉ e := by
      intro es
      induction es with
      | nil => intro a ha _; exact ha
      | cons y es ih =>
        intro a ha hes
        simp only [List.foldl_cons]
        refine ih _ ?_ fun e he => hes e (by simp [he])
        have hy := hes y (by simp)
        intro e he
        unfold cleanStep at he
        split at he
        · exact ha e he
        · split at he
          · cases a with
            | nil => simp at he; subst he; exact hy
            | cons z a =>
              simp only at he
              split at he
              · rcases List.mem_cons.1 he with rfl | he
                · exact hy
                · exact ha e he
              · exact ha e (by simp [he])
          · rcases List.mem_cons.1 he with rfl | he
            · exact hy
            · exact ha e he
    have hns := key _ [] (by simp) (splitSlash_noSlash (pathText d ++ '/' :: imp))
    rw [splitSlash_append, hx] at hns
    have hclean : clean (pathText d ++ '/' :: imp) = joinSlash (S ".." :: x.reverse) := by
      unfold clean
      simp only [hh, decide_false]
      rw [splitSlash_append, hx]
      simp only [Bool.false_eq_true, if_false, List.reverse_append, List.reverse_cons, List.reverse_nil,
        List.nil_append, List.cons_append]
      rw [if_neg]
      cases x.reverse with
      | nil => simp only [joinSlash]; decide
      | cons y r => simp [joinSlash]
    rw [hclean]
    unfold validPath
    rw [splitSlash_join (by simp) (by
      intro e he
      exact hns e (by simpa [or_comm] using he))]
    have : joinSlash (S ".." :: x.reverse) ≠ S "." := by
      cases x.reverse with
      | nil => decide
      | cons y r =>
        intro hc
        have := congrArg List.length hc
        simp [joinSlash, S] at this
    simp [this]

/-- Valid paths are those made of proper names. -/
theorem validPath_iff (p : Str) : validPath p = true ↔ ∃ d, (∀ e ∈ d, Proper e) ∧ p = pathText d := by
  unfold validPath
  simp only [Bool.or_eq_true, beq_iff_eq, List.all_eq_true, Bool.and_eq_true, bne_iff_ne, ne_eq]
  constructor
  · rintro (rfl | h)
    · exact ⟨[], by simp, rfl⟩
    · refine ⟨(splitSlash p).reverse, ?_, ?_⟩
      · intro e he
        have he' : e ∈ splitSlash p := by simpa using he
        have := h e he'
        exact ⟨this.1.1, this.1.2, this.2, splitSlash_noSlash p e he'⟩
      · unfold pathText
        rw [if_neg (by simpa using splitSlash_ne p), List.reverse_reverse, joinSlash_split]
  · rintro ⟨d, hd, rfl⟩
    by_cases hz : d = []
    · subst hz; exact .inl rfl
    · right
      intro e he
      rw [pathText_split hd, if_neg hz] at he
      have := hd e (by simpa using he)
      exact ⟨⟨this.1, this.2.1⟩, this.2.2.1⟩

end Verif.Compile
