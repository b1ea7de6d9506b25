import Verif.Spec.Versions
import Verif.Props.Rpc
/-!
# C99: the `Webrpc` header
-/

namespace Verif.Rpc
open Verif.Schema (Str S)
open Verif.Gen Verif.Spec Verif.Props

theorem semi : S ";" = [';'] := rfl
theorem at_sign : S "@" = ['@'] := rfl

theorem split_parts (h : Str) (ps : List Str) : split (S ";") h = ps ↔ Parts h ps := by
  rw [semi]
  constructor
  · rintro rfl
    refine split_induction (sep := [';']) (by simp) (P := fun h => Parts h (split [';'] h)) ?_ ?_ h
    · intro s hs
      rw [split_none (by simp) hs]
      exact .last (cut_char_none.1 hs)
    · intro s a b hs ih
      rw [split_some (by simp) hs]
      obtain ⟨h1, h2⟩ := cut_char.1 hs
      rw [h2]
      exact .more h1 ih
  · intro hp
    induction hp with
    | last hp => exact split_none (by simp) (cut_char_none.2 hp)
    | more hp _ ih => rw [split_some (by simp) (cut_char.2 ⟨hp, rfl⟩), ih]

theorem cut_named {part a b : Str} : cut (S "@") part = some (a, b) ↔ Named part a b := by
  rw [at_sign, cut_char]; rfl

theorem parts_length {h : Str} {ps : List Str} (hp : Parts h ps) : ps.length = h.count ';' + 1 := by
  induction hp with
  | last hp => simp [List.count_eq_zero.2 hp]
  | more hp _ ih => simp [List.count_append, List.count_eq_zero.2 hp, ih]

theorem parts_exist (h : Str) : ∃ ps, Parts h ps := ⟨_, (split_parts h _).1 rfl⟩

theorem parts_unique {h : Str} {ps qs : List Str} (hp : Parts h ps) (hq : Parts h qs) : ps = qs :=
  ((split_parts h ps).2 hp).symm.trans ((split_parts h qs).2 hq)

theorem named_unique {p a b c d : Str} (h1 : Named p a b) (h2 : Named p c d) : a = c ∧ b = d := by
  have e := (cut_named.2 h1).symm.trans (cut_named.2 h2)
  cases e; exact ⟨rfl, rfl⟩

/-- The Go function on the parts. -/
theorem goParse_of {h a b c : Str} {rest : List Str} (hp : Parts h (a :: b :: c :: rest)) (v : GenVersions) :
    goParseVersions h = .ok v ↔
      (∃ tool, Named a tool v.webrpcGen) ∧ Named b v.codeGenName v.codeGen ∧ Named c v.schemaName v.schema := by
  unfold goParseVersions
  rw [(split_parts _ _).2 hp]
  dsimp only
  constructor
  · intro e
    cases ha : cut (S "@") a with
    | none => simp [ha] at e
    | some x =>
      cases hb : cut (S "@") b with
      | none => simp [ha, hb] at e
      | some y =>
        cases hc : cut (S "@") c with
        | none => simp [ha, hb, hc] at e
        | some z =>
          simp only [ha, hb, hc, Except.ok.injEq] at e
          subst e
          exact ⟨⟨x.1, cut_named.1 ha⟩, cut_named.1 hb, cut_named.1 hc⟩
  · rintro ⟨⟨tool, h1⟩, h2, h3⟩
    rw [cut_named.2 h1, cut_named.2 h2, cut_named.2 h3]

theorem says_ne {h : Str} {v : GenVersions} (hs : Says h v) : h ≠ [] := by
  obtain ⟨a, b, c, rest, tool, hp, -⟩ := hs
  rintro rfl
  have := parts_length hp
  simp at this

/-- Go reads the header exactly when it says versions, and then these. -/
theorem C99_go_iff (h : Option Str) (v : GenVersions) :
    goVersionFromHeader h = .ok v ↔ ∃ text, h = some text ∧ Says text v := by
  constructor
  · intro e
    cases h with
    | none => simp [goVersionFromHeader] at e
    | some text =>
      refine ⟨text, rfl, ?_⟩
      unfold goVersionFromHeader at e
      dsimp only [Option.getD_some] at e
      by_cases ht : text = []
      · rw [if_pos ht] at e; cases e
      · rw [if_neg ht] at e
        cases hg : goParseVersions text with
        | error x => simp [hg] at e
        | ok w =>
          simp only [hg, Except.ok.injEq] at e
          subst e
          obtain ⟨ps, hp⟩ := parts_exist text
          match ps, hp with
          | [], hp => cases hp
          | [_], hp => unfold goParseVersions at hg; rw [(split_parts _ _).2 hp] at hg; cases hg
          | [_, _], hp => unfold goParseVersions at hg; rw [(split_parts _ _).2 hp] at hg; cases hg
          | a :: b :: c :: rest, hp =>
            obtain ⟨⟨tool, h1⟩, h2, h3⟩ := (goParse_of hp _).1 hg
            exact ⟨a, b, c, rest, tool, hp, h1, h2, h3⟩
  · rintro ⟨text, rfl, hs⟩
    have hne := says_ne hs
    obtain ⟨a, b, c, rest, tool, hp, h1, h2, h3⟩ := hs
    unfold goVersionFromHeader
    dsimp only [Option.getD_some]
    rw [if_neg hne, (goParse_of hp v).2 ⟨⟨tool, h1⟩, h2, h3⟩]

/-- A header says at most one thing. -/
theorem C99_one_meaning (h : Str) (v w : GenVersions) (hv : Says h v) (hw : Says h w) : v = w := by
  have e1 := (C99_go_iff (some h) v).2 ⟨h, rfl, hv⟩
  have e2 := (C99_go_iff (some h) w).2 ⟨h, rfl, hw⟩
  rw [e1] at e2
  cases e2; rfl

/-- What is wrong with a header that Go refuses: it is empty, has fewer than two semicolons, or one of the first three
parts has no `@`; the message names the first part that is wrong. -/
theorem C99_go_refuses (h : Option Str) (e : Str) :
    goVersionFromHeader h = .error e ↔
      ((h = none ∨ h = some []) ∧ e = S "header is empty or missing") ∨
      ∃ text, h = some text ∧ text ≠ [] ∧
        ((text.count ';' < 2 ∧ e = S "webrpc header is invalid: " ++ (S "expected at least 3 parts while parsing webrpc header: " ++ text)) ∨
         ∃ a b c rest, Parts text (a :: b :: c :: rest) ∧
          (('@' ∉ a ∧ e = S "webrpc header is invalid: " ++ (S "webrpc gen version could not be parsed from: " ++ a)) ∨
           ('@' ∈ a ∧ '@' ∉ b ∧ e = S "webrpc header is invalid: " ++ (S "tmplTarget and tmplVersion could not be parsed from: " ++ b)) ∨
           ('@' ∈ a ∧ '@' ∈ b ∧ '@' ∉ c ∧
             e = S "webrpc header is invalid: " ++ (S "schema name and schema version could not be parsed from: " ++ c)))) := by
  have key : ∀ text, text ≠ [] → (goVersionFromHeader (some text) = .error e ↔
      ((text.count ';' < 2 ∧ e = S "webrpc header is invalid: " ++ (S "expected at least 3 parts while parsing webrpc header: " ++ text)) ∨
         ∃ a b c rest, Parts text (a :: b :: c :: rest) ∧
          (('@' ∉ a ∧ e = S "webrpc header is invalid: " ++ (S "webrpc gen version could not be parsed from: " ++ a)) ∨
           ('@' ∈ a ∧ '@' ∉ b ∧ e = S "webrpc header is invalid: " ++ (S "tmplTarget and tmplVersion could not be parsed from: " ++ b)) ∨
           ('@' ∈ a ∧ '@' ∈ b ∧ '@' ∉ c ∧
             e = S "webrpc header is invalid: " ++ (S "schema name and schema version could not be parsed from: " ++ c))))) := by
    intro text ht
    obtain ⟨ps, hp⟩ := parts_exist text
    have hlen := parts_length hp
    unfold goVersionFromHeader
    dsimp only [Option.getD_some]
    rw [if_neg ht]
    have short : ∀ {ps}, Parts text ps → ps.length < 3 → (goParseVersions text =
        .error (S "expected at least 3 parts while parsing webrpc header: " ++ text)) := by
      intro ps hp hl
      unfold goParseVersions
      rw [(split_parts _ _).2 hp]
      match ps, hl with
      | [], _ => rfl
      | [_], _ => rfl
      | [_, _], _ => rfl
    by_cases hl : ps.length < 3
    · rw [short hp hl]
      dsimp only
      constructor
      · intro h
        cases h
        exact .inl ⟨by omega, rfl⟩
      · rintro (⟨-, rfl⟩ | ⟨a, b, c, rest, hq, -⟩)
        · rfl
        · rw [parts_unique hp hq] at hl; simp at hl; omega
    · match ps, hl with
      | [], hl => simp at hl
      | [_], hl => simp at hl
      | [_, _], hl => simp at hl
      | a :: b :: c :: rest, _ =>
        have hcount : ¬ text.count ';' < 2 := by simp at hlen; omega
        have hin : ∀ {p : Str}, '@' ∈ p → ∃ x, cut (S "@") p = some x := by
          intro p hp
          cases hc : cut (S "@") p with
          | none => rw [at_sign] at hc; exact absurd hp (cut_char_none.1 hc)
          | some x => exact ⟨x, rfl⟩
        have hout : ∀ {p : Str}, '@' ∉ p → cut (S "@") p = none := by
          intro p hp; rw [at_sign]; exact cut_char_none.2 hp
        unfold goParseVersions
        rw [(split_parts _ _).2 hp]
        dsimp only
        constructor
        · intro h
          refine .inr ⟨a, b, c, rest, hp, ?_⟩
          by_cases ha : '@' ∈ a
          · obtain ⟨x, hx⟩ := hin ha
            by_cases hb : '@' ∈ b
            · obtain ⟨y, hy⟩ := hin hb
              by_cases hc : '@' ∈ c
              · obtain ⟨z, hz⟩ := hin hc
                simp only [hx, hy, hz] at h
                cases h
              · simp only [hx, hy, hout hc] at h
                cases h
                exact .inr (.inr ⟨ha, hb, hc, rfl⟩)
            · simp only [hx, hout hb] at h
              cases h
              exact .inr (.inl ⟨ha, hb, rfl⟩)
          · simp only [hout ha] at h
            cases h
            exact .inl ⟨ha, rfl⟩
        · rintro (⟨h, -⟩ | ⟨a', b', c', rest', hq, h⟩)
          · exact absurd h hcount
          · have e := parts_unique hp hq
            simp only [List.cons.injEq] at e
            obtain ⟨rfl, rfl, rfl, rfl⟩ := e
            rcases h with ⟨ha, rfl⟩ | ⟨ha, hb, rfl⟩ | ⟨ha, hb, hc, rfl⟩
            · simp only [hout ha]
            · obtain ⟨x, hx⟩ := hin ha
              simp only [hx, hout hb]
            · obtain ⟨x, hx⟩ := hin ha
              obtain ⟨y, hy⟩ := hin hb
              simp only [hx, hy, hout hc]
  cases h with
  | none =>
    simp [goVersionFromHeader]
    exact eq_comm
  | some text =>
    by_cases ht : text = []
    · subst ht
      simp [goVersionFromHeader]
      exact eq_comm
    · rw [key text ht]
      simp [ht]

/-! ### TypeScript -/

theorem upTo_same {c : Char} {s : Str} : upTo c s = s ↔ c ∉ s := by
  unfold upTo
  induction s with
  | nil => simp
  | cons x s ih =>
    by_cases hx : x = c
    · subst hx; simp
    · rw [List.takeWhile_cons_of_pos (by simpa using hx)]
      simp only [List.cons.injEq, true_and, List.mem_cons, not_or, ih]
      exact ⟨fun h => ⟨fun e => hx e.symm, h⟩, fun h => h.2⟩

theorem firstTwo_named {part a b : Str} (h : Named part a b) : firstTwo part = (a, upTo '@' b) := by
  unfold firstTwo
  have hc : cut ['@'] part = some (a, b) := cut_named.2 h
  rw [at_sign, split_some (by simp) hc]
  cases hb : cut ['@'] b with
  | none =>
    rw [split_none (by simp) hb]
    have := cut_char_none.1 hb
    simp only [List.getElem?_cons_zero, List.getElem?_cons_succ, Option.getD_some, Prod.mk.injEq, true_and]
    exact (upTo_same.2 this).symm
  | some y =>
    rw [split_some (by simp) hb]
    obtain ⟨h1, h2⟩ := cut_char.1 hb
    simp only [List.getElem?_cons_zero, List.getElem?_cons_succ, Option.getD_some, upTo, Prod.mk.injEq, true_and]
    rw [h2, List.takeWhile_append_of_pos (by intro x hx; simp; rintro rfl; exact h1 hx)]
    simp

theorem firstTwo_bare {part : Str} (h : '@' ∉ part) : firstTwo part = (part, []) := by
  unfold firstTwo
  rw [at_sign, split_none (by simp) (cut_char_none.2 h)]
  rfl

/-- TypeScript never fails: it reads what the first three parts say, a version only up to a second `@`, and nothing for
a version that is missing; without three parts it reads nothing at all. -/
theorem C99_ts_reads (text a b c : Str) (rest : List Str) (hp : Parts text (a :: b :: c :: rest)) :
    (∀ tool w, Named a tool w → (tsVersionFromHeader (some text)).webrpcGen = upTo '@' w) ∧
    ('@' ∉ a → (tsVersionFromHeader (some text)).webrpcGen = []) ∧
    (∀ n w, Named b n w → (tsVersionFromHeader (some text)).codeGenName = n ∧
      (tsVersionFromHeader (some text)).codeGen = upTo '@' w) ∧
    ('@' ∉ b → (tsVersionFromHeader (some text)).codeGenName = b ∧ (tsVersionFromHeader (some text)).codeGen = []) ∧
    (∀ n w, Named c n w → (tsVersionFromHeader (some text)).schemaName = n ∧
      (tsVersionFromHeader (some text)).schema = upTo '@' w) ∧
    ('@' ∉ c → (tsVersionFromHeader (some text)).schemaName = c ∧ (tsVersionFromHeader (some text)).schema = []) := by
  have e : tsVersionFromHeader (some text) =
      ⟨(firstTwo a).2, (firstTwo b).1, (firstTwo b).2, (firstTwo c).1, (firstTwo c).2⟩ := by
    cases text with
    | nil => have := parts_length hp; simp at this
    | cons x t => simp only [tsVersionFromHeader, tsParseVersions, (split_parts _ _).2 hp]
  rw [e]
  refine ⟨fun t w h => ?_, fun h => ?_, fun n w h => ?_, fun h => ?_, fun n w h => ?_, fun h => ?_⟩
  · rw [firstTwo_named h]
  · rw [firstTwo_bare h]
  · rw [firstTwo_named h]; exact ⟨rfl, rfl⟩
  · rw [firstTwo_bare h]; exact ⟨rfl, rfl⟩
  · rw [firstTwo_named h]; exact ⟨rfl, rfl⟩
  · rw [firstTwo_bare h]; exact ⟨rfl, rfl⟩

/-- Without three parts TypeScript reads nothing. -/
theorem C99_ts_nothing (h : Option Str) (hh : ∀ text, h = some text → text.count ';' < 2) :
    tsVersionFromHeader h = noVersions := by
  cases h with
  | none => rfl
  | some text =>
    cases text with
    | nil => rfl
    | cons x t =>
      have hc := hh _ rfl
      obtain ⟨ps, hp⟩ := parts_exist (x :: t)
      have hl := parts_length hp
      simp only [tsVersionFromHeader, tsParseVersions, (split_parts _ _).2 hp]
      match ps, hl with
      | [], _ => rfl
      | [_], _ => rfl
      | [_, _], _ => rfl
      | _ :: _ :: _ :: _, hl => simp at hl; omega

/-- Whatever Go reads, TypeScript reads too, except that it drops the rest of a version after an `@`. -/
theorem C99_ts_of_go (h : Option Str) (v : GenVersions) (hg : goVersionFromHeader h = .ok v) :
    tsVersionFromHeader h =
      ⟨upTo '@' v.webrpcGen, v.codeGenName, upTo '@' v.codeGen, v.schemaName, upTo '@' v.schema⟩ := by
  obtain ⟨text, rfl, hs⟩ := (C99_go_iff _ _).1 hg
  have hne := says_ne hs
  obtain ⟨a, b, c, rest, tool, hp, h1, h2, h3⟩ := hs
  cases text with
  | nil => exact absurd rfl hne
  | cons x t =>
    simp only [tsVersionFromHeader, tsParseVersions, (split_parts _ _).2 hp, firstTwo_named h1, firstTwo_named h2,
      firstTwo_named h3]

/-- Both agree on a header exactly when no version contains an `@`. -/
theorem C99_agree (h : Option Str) (v : GenVersions) (hg : goVersionFromHeader h = .ok v) :
    tsVersionFromHeader h = v ↔ '@' ∉ v.webrpcGen ∧ '@' ∉ v.codeGen ∧ '@' ∉ v.schema := by
  rw [C99_ts_of_go h v hg, ← upTo_same, ← upTo_same, ← upTo_same]
  cases v
  simp

/-! ### Round trip -/

/-- The header that is made of these versions says them. -/
theorem says_header (v : GenVersions)
    (hs : ∀ t ∈ [v.webrpcGen, v.codeGenName, v.codeGen, v.schemaName, v.schema], ';' ∉ t)
    (hn : '@' ∉ v.codeGenName ∧ '@' ∉ v.schemaName) (more : List Str) (hm : ∀ t ∈ more, ';' ∉ t) :
    Says (Spec.header v ++ more.flatMap (';' :: ·)) v := by
  have hmore : ∀ (p : Str), ';' ∉ p → ∀ more : List Str, (∀ t ∈ more, ';' ∉ t) →
      Parts (p ++ more.flatMap (';' :: ·)) (p :: more) := by
    intro p hp more
    induction more generalizing p with
    | nil => intro _; simpa using Parts.last hp
    | cons m ms ih =>
      intro h
      have := Parts.more hp (ih m (h m (by simp)) (fun t ht => h t (by simp [ht])))
      simpa using this
  simp only [List.mem_cons, List.not_mem_nil, or_false, forall_eq_or_imp, forall_eq] at hs
  obtain ⟨s1, s2, s3, s4, s5⟩ := hs
  refine ⟨S "webrpc" ++ '@' :: v.webrpcGen, v.codeGenName ++ '@' :: v.codeGen, v.schemaName ++ '@' :: v.schema, more,
    S "webrpc", ?_, ⟨by decide, rfl⟩, ⟨hn.1, rfl⟩, ⟨hn.2, rfl⟩⟩
  have n1 : ';' ∉ S "webrpc" ++ '@' :: v.webrpcGen := by
    intro h
    rcases List.mem_append.1 h with h | h
    · exact absurd h (by decide)
    · rcases List.mem_cons.1 h with h | h
      · exact absurd h (by decide)
      · exact s1 h
  have n2 : ';' ∉ v.codeGenName ++ '@' :: v.codeGen := by simp [s2, s3]
  have n3 : ';' ∉ v.schemaName ++ '@' :: v.schema := by simp [s4, s5]
  have hp := Parts.more n1 (Parts.more n2 (hmore _ n3 more hm))
  have e1 : S "webrpc@" = S "webrpc" ++ ['@'] := rfl
  unfold Spec.header
  rw [e1, semi, at_sign]
  simpa [List.append_assoc] using hp

/-- A header that names the three versions is read back by Go, also with further parts. -/
theorem C99_round_trip_go_partial (v : GenVersions)
    (hs : ∀ t ∈ [v.webrpcGen, v.codeGenName, v.codeGen, v.schemaName, v.schema], ';' ∉ t)
    (hn : '@' ∉ v.codeGenName ∧ '@' ∉ v.schemaName) (more : List Str) (hm : ∀ t ∈ more, ';' ∉ t) :
    goVersionFromHeader (some (Spec.header v ++ more.flatMap (';' :: ·))) = .ok v :=
  (C99_go_iff _ _).2 ⟨_, rfl, says_header v hs hn more hm⟩

/-- ... and by TypeScript, if there is no `@` in the versions. -/
theorem C99_round_trip_ts_partial (v : GenVersions)
    (hs : ∀ t ∈ [v.webrpcGen, v.codeGenName, v.codeGen, v.schemaName, v.schema], ';' ∉ t ∧ '@' ∉ t)
    (more : List Str) (hm : ∀ t ∈ more, ';' ∉ t) :
    tsVersionFromHeader (some (Spec.header v ++ more.flatMap (';' :: ·))) = v := by
  have hg := C99_round_trip_go_partial v (fun t ht => (hs t ht).1) ⟨(hs _ (by simp)).2, (hs _ (by simp)).2⟩ more hm
  exact (C99_agree _ _ hg).2 ⟨(hs _ (by simp)).2, (hs _ (by simp)).2, (hs _ (by simp)).2⟩

/-! ### The header of a response -/

theorem untouched_sendError (s : Server) (e : RpcError) : Untouched (S "Webrpc") (sendErrorJSON s e).1 := by
  intro x hx
  unfold sendErrorJSON at hx
  cases ho : s.onError with
  | none =>
    simp only [ho] at hx
    split at hx <;> simp at hx <;> rcases hx with h | h <;> (try rcases h with h | h) <;> subst_vars <;> first | trivial | (show ¬ _; decide)
  | some f =>
    simp only [ho] at hx
    split at hx <;> simp at hx <;> rcases hx with h | h <;> (try rcases h with h | h) <;> (try rcases h with h | h) <;> subst_vars <;> first | trivial | (show ¬ _; decide)

theorem untouched_append {k : Str} {a b : List Eff} (h1 : Untouched k a) (h2 : Untouched k b) : Untouched k (a ++ b) := by
  intro x hx
  rcases List.mem_append.1 hx with h | h
  · exact h1 x h
  · exact h2 x h

theorem untouched_then {k : Str} {a b : Run} (h1 : Untouched k a.1) (h2 : Untouched k b.1) :
    Untouched k (Run.andThen a b).1 := by
  unfold Run.andThen
  split
  · exact untouched_append h1 h2
  · exact h1

theorem untouched_call (s : Server) (m : Method) (args : Json.Json) : Untouched (S "Webrpc") (callImpl s m args).1 := by
  unfold callImpl
  refine untouched_then (by simp [Untouched]) ?_
  split
  · simp [Untouched]
  · exact untouched_sendError _ _
  · split
    · split
      · exact untouched_sendError _ _
      · simp only [Untouched, List.mem_cons, List.not_mem_nil, or_false, forall_eq_or_imp, forall_eq]; decide
    · simp only [Untouched, List.mem_cons, List.not_mem_nil, or_false, forall_eq_or_imp, forall_eq]; decide

theorem untouched_method (s : Server) (m : Method) (r : Request) : Untouched (S "Webrpc") (serveMethod s m r).1 := by
  unfold serveMethod
  split
  · split
    · exact untouched_sendError _ _
    · split
      · exact untouched_sendError _ _
      · exact untouched_call _ _ _
  · exact untouched_call _ _ _

theorem untouched_dispatch [Schema.GoUnicode] (s : Server) (r : Request) : Untouched (S "Webrpc") (dispatch s r).1 := by
  unfold dispatch
  split
  · exact untouched_sendError _ _
  · split
    · refine untouched_then ?_ (untouched_sendError _ _)
      simp only [Untouched, List.mem_cons, List.not_mem_nil, or_false, forall_eq]; decide
    · split
      · split
        · exact untouched_method _ _ _
        · refine untouched_then (by simp [Untouched]) ?_
          split
          · simp [Untouched]
          · exact untouched_sendError _ _
          · exact untouched_method _ _ _
      · exact untouched_sendError _ _

/-- Setting a header first and never again: it is in the headers that are sent. -/
theorem sent_header {k v : Str} {effs : List Eff} (hu : Untouched k effs) (p : Response)
    (hp : p.headers.lookup k = some [v]) (hs : p.status ≠ none → p.sent.lookup k = some [v])
    (hst : (effs.foldl Response.apply p).status ≠ none) :
    (effs.foldl Response.apply p).sent.lookup k = some [v] := by
  induction effs generalizing p with
  | nil => exact hs hst
  | cons x l ih =>
    have hl : Untouched k l := fun y hy => hu y (by simp [hy])
    have h1 : (Response.apply p x).headers.lookup k = some [v] := by
      have hx : Untouched k [x] := fun y hy => hu y (by simp at hy; simp [hy])
      have := untouched_of hx p
      rw [hp] at this
      exact this
    refine ih hl (Response.apply p x) h1 (fun hh => ?_) hst
    cases x with
    | setHeader a b => exact hs hh
    | addHeader a b => exact hs hh
    | writeHeader c =>
      simp only [Response.apply] at hh h1 ⊢
      by_cases hc : p.status.isSome ∨ (100 ≤ c ∧ c ≤ 199 ∧ c ≠ 101)
      · rw [if_pos hc] at hh ⊢; exact hs hh
      · rw [if_neg hc]; exact hp
    | write b =>
      simp only [Response.apply] at hh ⊢
      cases hq : p.status with
      | none => exact hp
      | some c =>
        have := hs (by rw [hq]; nofun)
        dsimp only
        split <;> exact this
    | call a b => exact hs hh
    | onRequest => exact hs hh
    | onError e => exact hs hh

/-- Whatever the request, and whatever the hooks and the implementation do, the response carries the header of the server,
once; so a caller reads from it exactly what the header of the server says. -/
theorem C99_response [Schema.GoUnicode] (s : Server) (r : Request)
    (h : (Response.of (serveHTTP s r).1).status ≠ none) :
    (Response.of (serveHTTP s r).1).sent.lookup (S "Webrpc") = some [s.header] := by
  have hshape : ∃ l, (serveHTTP s r).1 = .setHeader (S "Webrpc") s.header :: l ∧ Untouched (S "Webrpc") l := by
    rw [serve_shape]
    cases (dispatch s r).2 with
    | ok u => exact ⟨_, rfl, untouched_dispatch s r⟩
    | panic v => exact ⟨_, rfl, untouched_append (untouched_dispatch s r) (untouched_sendError _ _)⟩
  obtain ⟨l, e, hu⟩ := hshape
  rw [e] at h ⊢
  refine sent_header hu _ ?_ ?_ h
  · simp [Response.apply, Response.empty, Compile.mapSet]
  · intro hn; exact absurd rfl hn

/-! ### The headers in the repository -/

/-- Of the header values generated in the repository Go reads only one, and refuses the others: also those that Go
servers and clients send to one another. -/
theorem C99_refused_in_repo :
    (headerValues.filter fun h => (goVersionFromHeader (some h)).toOption.isSome) =
      [S "webrpc@v0.30.0;gen-golang@unknown;node-ts@v1.0.0"] := by decide +kernel

/-- The client of the test suite cannot read the header of the server of the test suite. -/
theorem C99_test_header :
    goVersionFromHeader (some (S "webrpc;gen-golang;Test@v1.0.0")) =
      .error (S "webrpc header is invalid: webrpc gen version could not be parsed from: webrpc") := by decide +kernel

/-- TypeScript reads all of them, without the versions of the generator. -/
theorem C99_ts_in_repo :
    (headerValues.map fun h => (tsVersionFromHeader (some h)).schema) = List.replicate 9 (S "v1.0.0") ∧
    tsVersionFromHeader (some (S "webrpc;gen-typescript;node-ts@v1.0.0")) =
      ⟨[], S "gen-typescript", [], S "node-ts", S "v1.0.0"⟩ := by decide +kernel

/-- A version with an `@` is read differently. -/
theorem C99_at_differs :
    goVersionFromHeader (some (S "webrpc@v1;gen-golang@git@abc;Api@v1")) =
      .ok ⟨S "v1", S "gen-golang", S "git@abc", S "Api", S "v1"⟩ ∧
    tsVersionFromHeader (some (S "webrpc@v1;gen-golang@git@abc;Api@v1")) =
      ⟨S "v1", S "gen-golang", S "git", S "Api", S "v1"⟩ := by decide +kernel

/-- Non-vacuity: versions that meet the hypotheses of the round trip, and their header. -/
example : (∀ t ∈ [S "v0.30.0", S "gen-golang", S "unknown", S "node-ts", S "v1.0.0"], ';' ∉ t ∧ '@' ∉ t) ∧
    Spec.header ⟨S "v0.30.0", S "gen-golang", S "unknown", S "node-ts", S "v1.0.0"⟩ =
      S "webrpc@v0.30.0;gen-golang@unknown;node-ts@v1.0.0" := by decide +kernel

/-- Non-vacuity: a response with a status. -/
example : let _ := asciiOnly
    (Response.of (serveHTTP ⟨[], none, none, S "webrpc;gen-golang;Test@v1.0.0"⟩ ⟨S "POST", S "/x", S "", some []⟩).1).status
      ≠ none := by decide +kernel

end Verif.Rpc
