import Verif.Ridl.ExecMethods
/-! # Running the parser over annotations -/

namespace Verif.Ridl
open Verif.Spec

/-- Tokens of an annotation. -/
inductive AnnToks : Ann → List (TT × Str) → Prop
  | none (name : Str) : AnnToks ⟨name, none⟩ [(.at_, ['@']), (.word, name)]
  | bare (name w : Str) : AnnToks ⟨name, some (.bare w)⟩ [(.at_, ['@']), (.word, name), (.colon, [':']), (.word, w)]
  | quoted (name : Str) {s : Str} {bt : List (TT × Str)} (hb : InnerToks bt) (hu : unescapeString (bt.flatMap (·.2)) = .ok s) :
    AnnToks ⟨name, some (.quoted s)⟩ ((.at_, ['@']) :: (.word, name) :: (.colon, [':']) :: (.quote, ['"']) :: (bt ++ [(.quote, ['"'])]))

/-- Tokens of an annotation line. -/
inductive AnnsToks : List Ann → List (TT × Str) → Prop
  | one {a : Ann} {t : List (TT × Str)} (h : AnnToks a t) : AnnsToks [a] t
  | cons {a b : Ann} {r : List Ann} {t u : List (TT × Str)} (h : AnnToks a t) (hr : AnnsToks (b :: r) u) : AnnsToks (a :: b :: r) (t ++ (.whitespace, [' ']) :: u)

theorem annToks_at {a : Ann} {t : List (TT × Str)} (h : AnnToks a t) : ∃ u, t = (.at_, ['@']) :: u := by
  cases h <;> exact ⟨_, rfl⟩

theorem annsToks_at {a : List Ann} {t : List (TT × Str)} (h : AnnsToks a t) : ∃ u, t = (.at_, ['@']) :: u := by
  cases h with
  | one h => exact annToks_at h
  | cons h _ =>
    obtain ⟨u, rfl⟩ := annToks_at h
    exact ⟨_, rfl⟩

theorem piece_ann {a : Ann} (h : a.Ok) {post : Str} (hp : Ends post) : ∃ t, AnnToks a t ∧ Piece a.text t post := by
  obtain ⟨name, value⟩ := a
  obtain ⟨h1, h2⟩ := h
  cases value with
  | none =>
    refine ⟨_, .none name, ?_⟩
    show Piece ('@' :: name) _ _
    exact piece_s rfl (by decide) (by decide) (piece_word h1 hp)
  | some v =>
    have h2 := h2 v rfl
    cases v with
    | bare w =>
      refine ⟨_, .bare name w, ?_⟩
      have e : (Ann.mk name (some (.bare w))).text = '@' :: (name ++ (':' :: w)) := by simp [Ann.text, Lit.text]
      rw [e]
      exact piece_s rfl (by decide) (by decide) (piece_w h1 (ends_cons (wordEnd_of (by decide))) (piece_s rfl (by decide) (by decide) (piece_word h2 hp)))
    | quoted s =>
      obtain ⟨bt, g1, g2, g3⟩ := piece_quoted h2 post
      refine ⟨_, .quoted name g1 g2, ?_⟩
      have e : (Ann.mk name (some (.quoted s))).text = '@' :: (name ++ (':' :: (['"'] ++ escape s ++ ['"']))) := by simp [Ann.text, Lit.text]
      rw [e]
      exact piece_s rfl (by decide) (by decide) (piece_w h1 (ends_cons (wordEnd_of (by decide))) (piece_s rfl (by decide) (by decide) g3))

theorem anns_solid {as : List Ann} (hne : as ≠ []) (post : Str) : Solid (join [' '] (as.map Ann.text) ++ post) := by
  have key : ∀ (a : Ann) (post : Str), Solid (a.text ++ post) := by
    intro a post
    obtain ⟨n, v⟩ := a
    cases v <;> exact solid_cons (c := '@') (by unfold Blank; decide)
  cases as with
  | nil => exact absurd rfl hne
  | cons a r =>
    cases r with
    | nil => exact key a _
    | cons b r =>
      show Solid (a.text ++ [' '] ++ join [' '] ((b :: r).map Ann.text) ++ post)
      simp only [List.append_assoc]
      exact key a _

theorem piece_anns {as : List Ann} (hne : as ≠ []) (h : ∀ a ∈ as, a.Ok) {post : Str} (hp : Ends post) : ∃ t, AnnsToks as t ∧ Piece (join [' '] (as.map Ann.text)) t post := by
  induction as with
  | nil => exact absurd rfl hne
  | cons a r ih =>
    cases r with
    | nil =>
      obtain ⟨t, h1, h2⟩ := piece_ann (h a (by simp)) hp
      exact ⟨t, .one h1, h2⟩
    | cons b r =>
      obtain ⟨u, g1, g2⟩ := ih (by simp) fun x hx => h x (List.mem_cons_of_mem a hx)
      have hs := anns_solid (as := b :: r) (by simp) post
      obtain ⟨t, h1, h2⟩ := piece_ann (h a (by simp)) (post := ' ' :: join [' '] ((b :: r).map Ann.text) ++ post) (ends_cons (wordEnd_of (by decide)))
      refine ⟨_, .cons h1 g1, ?_⟩
      have e : join [' '] ((a :: b :: r).map Ann.text) = a.text ++ (' ' :: join [' '] ((b :: r).map Ann.text)) := by
        show a.text ++ [' '] ++ join [' '] ((b :: r).map Ann.text) = _
        simp
      rw [e]
      exact piece_append h2 (piece_1 hs g2)

def annRow (as : List Ann) : Str := "  ".toList ++ join [' '] (as.map Ann.text)

theorem ann_row {as : List Ann} (hne : as ≠ []) (h : ∀ a ∈ as, a.Ok) : ∃ t, AnnsToks as t ∧ Piece (annRow as) ((.whitespace, [' ', ' ']) :: t) ['\n'] := by
  obtain ⟨t, h1, h2⟩ := piece_anns hne h ends_nl
  exact ⟨t, h1, piece_b (v := [' ', ' ']) (by decide) (by decide) (anns_solid hne _) h2⟩

/-- One round of `parseAnnotations`. -/
def annBody (anns : List AnnNode) : P (List AnnNode ⊕ List AnnNode) := do
  let r ← attempt (match_ [.at_, .word])
  match r with
  | .error _ => pure (.inr anns)
  | .ok ms =>
    let m1 ← nth ms 1
    if anns.any (fun a => a.annType.val = m1.val) then
      fail (.msg ("duplicate annotation type: ".toList ++ m1.val))
    else
      let c ← cursor
      if c.tt ≠ .colon then pure (.inl (anns ++ [{ annType := m1 }]))
      else
        let _ ← advance
        let c ← cursor
        let value := if c.tt = .word then some c else none
        let c ← cursor
        if c.tt = .quote then
          let v ← expectStringValue
          let _ ← advance
          pure (.inl (anns ++ [{ annType := m1, value := some v }]))
        else
          let _ ← advance
          pure (.inl (anns ++ [{ annType := m1, value := value }]))

theorem parseAnnotations_eq : parseAnnotations = loop annBody [] := rfl

def annEntry (a : Ann) : Str × Option Str := (a.name, a.value.map Lit.value)
def annSaid (a : AnnNode) : Str × Option Str := (a.annType.val, a.value.map Token.val)

/-- The row goes on, or the next one starts. -/
def notAt (es : List Shape) : Prop := ∀ e, es.head? = some e → e.1 ≠ .at_

theorem ann_stop {acc : List AnnNode} {es : List Shape} {cm : Comments} (h : notAt es) :
    Ex (loop annBody acc) es cm fun r es' cm' => r = acc ∧ es' = es ∧ cm' = cm := by
  refine ex_loop ?_
  rw [annBody]
  refine ex_try_fail ?_ (by decide) (by decide) fun _ => ex_pure ⟨rfl, rfl, rfl⟩
  cases es with
  | nil => rfl
  | cons e es =>
    have := h e rfl
    simp [matchShape, this]

/-- One annotation; a quoted value takes the token behind it along. -/
theorem ex_ann {a : Ann} {t : List (TT × Str)} (h : AnnToks a t) {acc : List AnnNode} (hn : a.name ∉ acc.map (·.annType.val)) {l : Nat} {e : Shape} {es : List Shape} {cm : Comments}
    (he : e.1 ≠ .colon) :
    Ex (annBody acc) (lift l t ++ e :: es) cm fun r es' cm' => ∃ x : AnnNode, r = .inl (acc ++ [x]) ∧ annSaid x = annEntry a ∧ x.annType.line = l ∧ (es' = e :: es ∨ es' = es) ∧ cm' = cm := by
  have hany : ∀ v, v = a.name → acc.any (fun x => x.annType.val = v) = false := by
    rintro _ rfl
    rw [List.any_eq_false]
    intro x hx hv
    exact hn (List.mem_map.2 ⟨x, hx, by simpa using hv⟩)
  rw [annBody]
  cases h with
  | none name =>
    refine ex_try (vs := [(.at_, ['@'], l), (.word, name, l)]) (es' := e :: es) rfl (by decide) ?_
    intro vs hvs
    refine ex_nth hvs rfl fun p c => ?_
    rw [if_neg (by rw [hany _ rfl]; simp)]
    obtain ⟨et, ev, ek⟩ := e
    refine ex_cursor fun p1 c1 => ?_
    rw [if_pos he]
    exact ex_pure ⟨_, rfl, rfl, rfl, .inl rfl, rfl⟩
  | bare name w =>
    refine ex_try (vs := [(.at_, ['@'], l), (.word, name, l)]) (es' := (.colon, [':'], l) :: (.word, w, l) :: e :: es) rfl (by decide) ?_
    intro vs hvs
    refine ex_nth hvs rfl fun p c => ?_
    rw [if_neg (by rw [hany _ rfl]; simp)]
    refine ex_cursor fun p1 c1 => ?_
    rw [if_neg (by simp)]
    refine ex_advance ?_
    refine ex_cursor fun p2 c2 => ?_
    refine ex_cursor fun p3 c3 => ?_
    dsimp only
    rw [if_neg (by simp), if_pos rfl]
    exact ex_advance (ex_pure ⟨_, rfl, rfl, rfl, .inl rfl, rfl⟩)
  | @quoted name s bt hb hu =>
    refine ex_try (vs := [(.at_, ['@'], l), (.word, name, l)]) (es' := (.colon, [':'], l) :: (.quote, ['"'], l) :: (lift l bt ++ (.quote, ['"'], l) :: e :: es)) (by simp [matchShape]) (by decide) ?_
    intro vs hvs
    refine ex_nth hvs rfl fun p c => ?_
    rw [if_neg (by rw [hany _ rfl]; simp)]
    refine ex_cursor fun p1 c1 => ?_
    rw [if_neg (by simp)]
    refine ex_advance ?_
    refine ex_cursor fun p2 c2 => ?_
    refine ex_cursor fun p3 c3 => ?_
    dsimp only
    rw [if_pos rfl]
    refine ex_then (ex_string hb hu) ?_
    rintro v _ _ ⟨v1, v2, rfl, rfl⟩
    exact ex_advance (ex_pure ⟨_, rfl, by simp [annSaid, annEntry, v1, Lit.value], rfl, .inr rfl, rfl⟩)

theorem run_anns {as : List Ann} {t : List (TT × Str)} (h : AnnsToks as t) {l : Nat} {es : List Shape} {cm : Comments} (hes : notAt es) {acc : List AnnNode} {n : ServiceNode}
    (hd : (acc.map (·.annType.val) ++ as.map Ann.name).Nodup) :
    Ex (loop annBody acc) (lift l t ++ (.newLine, ['\n'], l) :: es) cm fun xs es' cm' =>
      Runs (.serviceMethod { n with methodAnnotations := n.methodAnnotations ++ xs }) es' cm' fun st' es' cm' em =>
        em = [] ∧ (∃ ys : List AnnNode, st' = .serviceMethod { n with methodAnnotations := n.methodAnnotations ++ acc ++ ys } ∧ ys.map annSaid = as.map annEntry ∧ ∀ y ∈ ys, y.annType.line = l) ∧
        es' = es ∧ cm' = cm := by
  induction h generalizing acc n with
  | @one a t h =>
    refine ex_loop ?_
    have hn : a.name ∉ acc.map (·.annType.val) := by
      intro hm
      have := List.nodup_append.1 hd
      exact this.2.2 _ hm a.name (by simp) rfl
    refine (ex_ann h hn (by simp)).mono ?_
    rintro r es' cm' ⟨x, rfl, h1, h2, h3, rfl⟩
    obtain ⟨u, hu⟩ := annToks_at h
    have hna : notAt es' := by
      rcases h3 with rfl | rfl
      · intro e he; simp at he; subst he; simp
      · exact hes
    refine ⟨?_, ?_⟩
    · rcases h3 with rfl | rfl <;> (subst hu; simp [lift]; try omega)
    refine (ann_stop hna).mono ?_
    rintro _ _ _ ⟨rfl, rfl, rfl⟩
    rcases h3 with rfl | rfl
    · exact runs_nl (.serviceMethod _) (by simp) ⟨rfl, ⟨[x], by simp, by simp [h1], by simp [h2]⟩, rfl, rfl⟩
    · exact runs_refl ⟨rfl, ⟨[x], by simp, by simp [h1], by simp [h2]⟩, rfl, rfl⟩
  | @cons a b r t u h hr ih =>
    refine ex_loop ?_
    have hd' := List.nodup_append.1 hd
    have hn : a.name ∉ acc.map (·.annType.val) := by
      intro hm
      exact hd'.2.2 _ hm a.name (by simp) rfl
    rw [lift_append, lift_cons, List.append_assoc, List.cons_append]
    refine (ex_ann h hn (by simp)).mono ?_
    rintro s es' cm' ⟨x, rfl, h1, h2, h3, rfl⟩
    obtain ⟨t', rfl⟩ := annToks_at h
    obtain ⟨u', hu'⟩ := annsToks_at hr
    have hx : x.annType.val = a.name := congrArg Prod.fst h1
    rcases h3 with rfl | rfl
    · refine ⟨by simp [lift]; omega, ?_⟩
      refine (ann_stop (by intro e he; simp at he; subst he; simp)).mono ?_
      rintro _ _ _ ⟨rfl, rfl, rfl⟩
      refine runs_ws (.serviceMethod _) (by simp) ?_
      have ih := ih (acc := []) (n := { n with methodAnnotations := n.methodAnnotations ++ (acc ++ [x]) }) (by
        have : (a.name :: (b :: r).map Ann.name).Nodup := hd'.2.1
        simpa using (List.nodup_cons.1 this).2)
      rw [hu', lift_cons, List.cons_append] at ih ⊢
      refine runs_goto ?_
      show Ex (stServiceMethod _) _ _ _
      unfold stServiceMethod
      refine ex_cursor fun p c => ?_
      dsimp only
      rw [parseAnnotations_eq]
      refine ex_then ih ?_
      intro xs es' cm' hruns
      refine ex_pure ⟨_, rfl, ?_⟩
      refine hruns.mono ?_
      rintro st' es' cm' em ⟨rfl, ⟨ys, rfl, g1, g2⟩, rfl, rfl⟩
      exact ⟨rfl, ⟨x :: ys, by simp, by simp [h1, g1], by simpa [h2] using g2⟩, rfl, rfl⟩
    · refine ⟨by simp [lift]; omega, ?_⟩
      have ih := ih (acc := acc ++ [x]) (n := n) (by
        rw [List.map_append, List.map_singleton, hx, List.append_assoc]
        exact hd)
      refine ih.mono ?_
      intro xs es' cm' hruns
      refine hruns.mono ?_
      rintro st' es' cm' em ⟨rfl, ⟨ys, rfl, g1, g2⟩, rfl, rfl⟩
      exact ⟨rfl, ⟨x :: ys, by simp, by simp [h1, g1], by simpa [h2] using g2⟩, rfl, rfl⟩

/-- The next token is a blank. -/
def Indented (es : List Shape) : Prop := ∃ v k es', es = (.whitespace, v, k) :: es'

theorem Indented.notAt {es : List Shape} (h : Indented es) : notAt es := by
  obtain ⟨v, k, es', rfl⟩ := h
  intro e he; simp at he; subst he; simp

theorem annRows_indented {anns : List (List Ann)} (h : ∀ l ∈ anns, l ≠ [] ∧ ∀ a ∈ l, a.Ok) {rest : List Str} (hr : ∀ l, Indented (layout l rest)) (l : Nat) :
    Indented (layout l (anns.map annRow ++ rest)) := by
  cases anns with
  | nil => exact hr l
  | cons a anns =>
    have := h a (by simp)
    obtain ⟨t, _, h2⟩ := ann_row this.1 this.2
    rw [List.map_cons, List.cons_append, layout_cons, (piece_row h2).1]
    exact ⟨_, _, _, rfl⟩

theorem run_annRows {anns : List (List Ann)} (h : ∀ l ∈ anns, l ≠ [] ∧ ∀ a ∈ l, a.Ok) (hd : (anns.flatten.map Ann.name).Nodup) {rest : List Str} (hr : ∀ l, Indented (layout l rest))
    {l : Nat} {cm : Comments} {n : ServiceNode} :
    Runs (.serviceMethod n) (layout l (anns.map annRow ++ rest)) cm fun st' es' cm' em =>
      em = [] ∧ (∃ ys : List AnnNode, st' = .serviceMethod { n with methodAnnotations := n.methodAnnotations ++ ys } ∧ ys.map annSaid = anns.flatten.map annEntry ∧
        (anns ≠ [] → ∃ y, ys.getLast? = some y ∧ y.annType.line + 1 = l + anns.length)) ∧
      es' = layout (l + anns.length) rest ∧ cm' = cm := by
  induction anns generalizing l n with
  | nil => exact runs_refl ⟨rfl, ⟨[], by simp, rfl, by simp⟩, rfl, rfl⟩
  | cons a anns ih =>
    have ha := h a (by simp)
    have h' := fun x hx => h x (List.mem_cons_of_mem a hx)
    obtain ⟨t, g1, g2⟩ := ann_row ha.1 ha.2
    rw [List.flatten_cons, List.map_append] at hd
    have hd' := List.nodup_append.1 hd
    rw [List.map_cons, List.cons_append, layout_cons, (piece_row g2).1]
    simp only [lift_cons, List.cons_append]
    refine runs_ws (.serviceMethod _) (by simp) ?_
    have hra := run_anns g1 (l := l) (es := layout (l + 1) (anns.map annRow ++ rest)) (cm := cm) (annRows_indented h' hr _).notAt (acc := []) (n := n) (by simpa using hd'.1)
    obtain ⟨u', hu'⟩ := annsToks_at g1
    subst hu'
    rw [lift_cons, List.cons_append] at hra ⊢
    refine runs_goto ?_
    show Ex (stServiceMethod _) _ _ _
    unfold stServiceMethod
    refine ex_cursor fun p c => ?_
    dsimp only
    rw [parseAnnotations_eq]
    refine ex_then hra ?_
    intro xs es' cm' hruns
    refine ex_pure ⟨_, rfl, ?_⟩
    refine runs_then hruns ?_
    rintro st' es' cm' em ⟨rfl, ⟨ys, rfl, k1, k2⟩, rfl, rfl⟩
    refine (ih h' hd'.2.1).mono ?_
    rintro st' es' cm' em ⟨rfl, ⟨zs, rfl, m1, m2⟩, rfl, rfl⟩
    have hlen : l + (a :: anns).length = l + 1 + anns.length := by simp; omega
    rw [hlen]
    refine ⟨rfl, ⟨ys ++ zs, by simp, by simp [k1, m1], fun _ => ?_⟩, rfl, rfl⟩
    cases anns with
    | nil =>
      have hzs : zs = [] := by simpa using m1
      subst hzs
      have hne : ys ≠ [] := by
        rintro rfl
        simp at k1
        exact ha.1 k1
      obtain ⟨zs, y, rfl⟩ : ∃ zs y, ys = zs ++ [y] := ⟨ys.dropLast, ys.getLast hne, (List.dropLast_concat_getLast hne).symm⟩
      exact ⟨y, by simp, by rw [k2 y (by simp)]; simp⟩
    | cons b anns =>
      obtain ⟨y, p1, p2⟩ := m2 (by simp)
      refine ⟨y, ?_, p2⟩
      obtain ⟨zs', rfl⟩ := List.getLast?_eq_some_iff.1 p1
      rw [← List.append_assoc]; simp

end Verif.Ridl
