import Verif.Ts.Cors

/-! # C112: pages may call the example servers; C113: pages see the version of the server -/

namespace Verif.Ts.Cors
open Verif.Schema hiding Json Method
open Verif.Json Verif.Gen Verif.Ts
open Verif.Compile (mapSet)

/-! ### Lists of names as texts -/

theorem pieces_self {sep : Char → Bool} {a : Str} (h : ∀ c ∈ a, sep c = false) : pieces sep a = [a] := by
  induction a with
  | nil => rfl
  | cons c a ih =>
    simp only [List.mem_cons, forall_eq_or_imp] at h
    simp [pieces, h.1, ih h.2]

theorem pieces_cons {sep : Char → Bool} {a : Str} {d : Char} {t : Str} (h : ∀ c ∈ a, sep c = false) (hd : sep d = true) :
    pieces sep (a ++ d :: t) = a :: pieces sep t := by
  induction a with
  | nil => simp [pieces, hd]
  | cons c a ih =>
    simp only [List.mem_cons, forall_eq_or_imp] at h
    simp [pieces, h.1, ih h.2]

theorem pieces_join {names : List Str} (hne : names ≠ []) {sep : Char → Bool} (hs : sep ',' = true) (h : ∀ n ∈ names, ∀ c ∈ n, sep c = false) :
    pieces sep (join (S ",") names) = names := by
  induction names with
  | nil => exact absurd rfl hne
  | cons a r ih =>
    cases r with
    | nil => exact pieces_self (h a (by simp))
    | cons b r =>
      have : join (S ",") (a :: b :: r) = a ++ ',' :: join (S ",") (b :: r) := by simp [join, S]
      rw [this, pieces_cons (h a (by simp)) hs, ih (by simp) (fun n hn => h n (by simp [hn]))]

def noBlank (s : Str) : Prop := ∀ c ∈ s, c ≠ ' ' ∧ c ≠ '\t' ∧ c ≠ ','

theorem dropWhile_id {p : Char → Bool} {s : Str} (h : ∀ c ∈ s, p c = false) : s.dropWhile p = s := by
  cases s with
  | nil => rfl
  | cons c s => simp [List.dropWhile, h c (by simp)]

theorem strip_self {s : Str} (h : noBlank s) : stripBlanks s = s := by
  unfold stripBlanks
  have h1 : s.dropWhile (fun c => c == ' ' || c == '\t') = s := dropWhile_id (fun c hc => by simp [h c hc])
  have h2 : s.reverse.dropWhile (fun c => c == ' ' || c == '\t') = s.reverse := dropWhile_id (fun c hc => by simp [h c (by simpa using hc)])
  rw [h1, h2, List.reverse_reverse]

theorem strip_blank (s : Str) : stripBlanks (' ' :: s) = stripBlanks s := by simp [stripBlanks, List.dropWhile]

theorem pieces_ne (sep : Char → Bool) (s : Str) : pieces sep s ≠ [] := by
  cases s with
  | nil => simp [pieces]
  | cons c s =>
    unfold pieces
    split
    · simp
    · split <;> simp

theorem strip_pieces (s : Str) : (pieces (· == ',') (' ' :: s)).map stripBlanks = (pieces (· == ',') s).map stripBlanks := by
  rw [pieces]
  simp only [beq_iff_eq, Char.reduceEq, if_false]
  cases h : pieces (· == ',') s with
  | nil => exact absurd h (pieces_ne _ _)
  | cons p ps => simp [strip_blank]

theorem pieces_spaced {names : List Str} (hne : names ≠ []) (h : ∀ n ∈ names, noBlank n) :
    (pieces (· == ',') (join (S ", ") names)).map stripBlanks = names := by
  induction names with
  | nil => exact absurd rfl hne
  | cons a r ih =>
    have ha : ∀ c ∈ a, (c == ',') = false := fun c hc => by simp [(h a (by simp) c hc).2.2]
    cases r with
    | nil => simp [join, pieces_self ha, strip_self (h a (by simp))]
    | cons b r =>
      have : join (S ", ") (a :: b :: r) = a ++ ',' :: (' ' :: join (S ", ") (b :: r)) := by simp [join, S]
      rw [this, pieces_cons ha rfl, List.map_cons, strip_pieces, ih (by simp) (fun n hn => h n (by simp [hn])), strip_self (h a (by simp))]

theorem token_noBlank {s : Str} (h : isToken s = true) : noBlank s := by
  intro c hc
  simp only [isToken, Bool.and_eq_true, List.all_eq_true] at h
  have := h.2 c hc
  refine ⟨?_, ?_, ?_⟩ <;> rintro rfl <;> revert this <;> decide

theorem token_ne {s : Str} (h : isToken s = true) : s ≠ [] := by rintro rfl; simp [isToken] at h

theorem filter_tokens {names : List Str} (h : ∀ n ∈ names, isToken n = true) : names.filter (fun p => !p.isEmpty) = names := by
  rw [List.filter_eq_self]
  intro n hn
  have := token_ne (h n hn)
  cases n <;> simp_all

/-- A list of names as servers write it. -/
theorem values_spaced {name : Str} {hs : List (Str × Str)} {names : List Str} (hne : names ≠ [])
    (hh : header name hs = some (join (S ", ") names)) (h : ∀ n ∈ names, isToken n = true) : listValues name hs = some names := by
  unfold listValues
  rw [hh]
  simp only
  rw [pieces_spaced hne (fun n hn => token_noBlank (h n hn)), filter_tokens h, if_pos (List.all_eq_true.2 h)]

theorem values_joined {name : Str} {hs : List (Str × Str)} {names : List Str} (hne : names ≠ [])
    (hh : header name hs = some (join (S ",") names)) (h : ∀ n ∈ names, isToken n = true) : listValues name hs = some names := by
  have hp : (pieces (· == ',') (join (S ",") names)).map stripBlanks = names := by
    rw [pieces_join hne rfl (fun n hn c hc => by simp [(token_noBlank (h n hn) c hc).2.2])]
    conv => rhs; rw [← List.map_id names]
    exact List.map_congr_left fun n hn => by simp [strip_self (token_noBlank (h n hn))]
  unfold listValues
  rw [hh]
  simp only
  rw [hp, filter_tokens h, if_pos (List.all_eq_true.2 h)]

/-! ### Letters -/

def lowerC (c : Char) : Char := if 'A' ≤ c ∧ c ≤ 'Z' then Char.ofNat (c.toNat + 32) else c

theorem lowerC_cases (c : Char) : lowerC c = c ∧ ¬ ('A' ≤ c ∧ c ≤ 'Z') ∨ ('A' ≤ c ∧ c ≤ 'Z') ∧ 'a' ≤ lowerC c ∧ lowerC c ≤ 'z' := by
  unfold lowerC
  split
  · next h =>
    refine .inr ⟨h, ?_⟩
    have h1 : 65 ≤ c.toNat := h.1
    have h2 : c.toNat ≤ 90 := h.2
    have hv : (Char.ofNat (c.toNat + 32)).toNat = c.toNat + 32 := by
      have gen : ∀ k : Fin 26, (Char.ofNat (65 + k.val + 32)).toNat = 65 + k.val + 32 := by decide
      have := gen ⟨c.toNat - 65, by omega⟩
      simp only at this
      rwa [show 65 + (c.toNat - 65) + 32 = c.toNat + 32 by omega] at this
    refine ⟨?_, ?_⟩
    · change 97 ≤ (Char.ofNat (c.toNat + 32)).toNat
      omega
    · change (Char.ofNat (c.toNat + 32)).toNat ≤ 122
      omega
  · next h => exact .inl ⟨rfl, h⟩

theorem lowerC_idem (c : Char) : lowerC (lowerC c) = lowerC c := by
  rcases lowerC_cases c with ⟨h, _⟩ | ⟨_, h1, h2⟩
  · rw [h, h]
  · have : ¬ ('A' ≤ lowerC c ∧ lowerC c ≤ 'Z') := by
      rintro ⟨_, h⟩
      have a : 97 ≤ (lowerC c).toNat := h1
      have b : (lowerC c).toNat ≤ 90 := h
      omega
    generalize lowerC c = d at this
    unfold lowerC
    rw [if_neg this]

theorem lower_eq (s : Str) : lower s = s.map lowerC := rfl

theorem lower_idem (s : Str) : lower (lower s) = lower s := by
  simp only [lower_eq, List.map_map]
  exact List.map_congr_left fun c _ => lowerC_idem c

theorem plain_lowerC {c : Char} (h : plainChar c = true) : plainChar (lowerC c) = true := by
  rcases lowerC_cases c with ⟨h1, _⟩ | ⟨_, h1, h2⟩
  · rw [h1]; exact h
  · simp [plainChar, h1, h2]

theorem token_lowerC {c : Char} (h : tokenChar c = true) : tokenChar (lowerC c) = true := by
  rcases lowerC_cases c with ⟨h1, _⟩ | ⟨_, h1, h2⟩
  · rw [h1]; exact h
  · simp [tokenChar, h1, h2]

theorem plain_token {c : Char} (h : plainChar c = true) : tokenChar c = true := by
  simp only [plainChar, Bool.or_eq_true, beq_iff_eq] at h
  rcases h with (((((h | h) | h) | h) | h) | h)
  · simp [tokenChar, h]
  · simp [tokenChar, h]
  · simp [tokenChar, h]
  · subst h; decide
  · subst h; decide
  · subst h; decide

theorem token_lower {s : Str} (h : isToken s = true) : isToken (lower s) = true := by
  simp only [isToken, Bool.and_eq_true, List.all_eq_true] at h ⊢
  refine ⟨?_, fun c hc => ?_⟩
  · have := h.1
    cases s <;> simp_all [lower]
  · rw [lower_eq] at hc
    obtain ⟨d, hd, rfl⟩ := List.mem_map.1 hc
    exact token_lowerC (h.2 d hd)

/-! ### The answer of go-chi/cors -/

theorem asks_tokens (b : Browser) {r : TsRequest} (ht : ∀ h ∈ r.headers, isToken h.1 = true) : ∀ n ∈ b.asks r, isToken n = true := by
  intro n hn
  obtain ⟨h, hh, rfl⟩ := List.mem_map.1 hn
  exact token_lower (ht h (List.mem_filter.1 hh).1)

theorem asks_lower (b : Browser) (r : TsRequest) : ∀ n ∈ b.asks r, lower n = n := by
  intro n hn
  obtain ⟨h, hh, rfl⟩ := List.mem_map.1 hn
  exact lower_idem _

theorem plain_names {s : Str} {n : Str} (hn : n ∈ parseHeaderList s) : lower n = n ∧ isToken n = true ∧ n ≠ S "*" := by
  simp only [parseHeaderList, List.mem_filter, List.mem_map] at hn
  obtain ⟨⟨p, _, rfl⟩, hne⟩ := hn
  have hp : ∀ c ∈ lower (p.filter plainChar), plainChar c = true := by
    intro c hc
    rw [lower_eq] at hc
    obtain ⟨d, hd, rfl⟩ := List.mem_map.1 hc
    exact plain_lowerC (List.mem_filter.1 hd).2
  refine ⟨lower_idem _, ?_, ?_⟩
  · simp only [isToken, Bool.and_eq_true, List.all_eq_true]
    exact ⟨hne, fun c hc => plain_token (hp c hc)⟩
  · intro h
    rw [h] at hp
    exact absurd (hp '*' (by decide)) (by decide)

theorem parse_join {names : List Str} (hne : names ≠ []) (h : ∀ n ∈ names, isToken n = true) :
    parseHeaderList (join (S ",") names) = (names.map fun p => lower (p.filter plainChar)).filter fun p => !p.isEmpty := by
  unfold parseHeaderList
  rw [pieces_join hne rfl]
  intro n hn c hc
  have := token_noBlank (h n hn) c hc
  simp [this]

theorem plain_self {n : Str} (hl : lower n = n) (hp : ∀ c ∈ n, plainChar c = true) : lower (n.filter plainChar) = n := by
  rw [List.filter_eq_self.2 hp, hl]

/-- When the server allows every origin and `POST`, its answer gives leave just for the names in its list. -/
theorem go_leave (o : Options) (ho : S "*" ∈ o.allowedOrigins) (hm : S "POST" ∈ o.allowedMethods)
    (hp : ∀ a ∈ o.allowedHeaders, ∀ c ∈ a, plainChar c = true) (origin : Str) {names : List Str} (hne : names ≠ [])
    (ht : ∀ n ∈ names, isToken n = true) (hl : ∀ n ∈ names, lower n = n) :
    preflightOk origin (S "POST") names ((goCors o).preflight ⟨origin, S "POST", join (S ",") names⟩) = true ↔
      ∀ n ∈ names, ∃ a ∈ o.allowedHeaders ++ [S "Origin"], lower a = n := by
  have hor : o.originOk origin = true := by simp [Options.originOk, ho]
  have hme : o.methodOk (S "POST") = true := by simp [Options.methodOk, hm]
  have hpl : ∀ a ∈ o.allowedHeaders ++ [S "Origin"], ∀ c ∈ a, plainChar c = true := by
    intro a ha c hc
    rcases List.mem_append.1 ha with h | h
    · exact hp a h c hc
    · simp only [List.mem_singleton] at h
      subst h
      revert c
      decide
  generalize hps : parseHeaderList (join (S ",") names) = ns
  have hnp : ∀ n ∈ ns, lower n = n ∧ isToken n = true ∧ n ≠ S "*" := fun n hn => plain_names (hps ▸ hn)
  have hok : o.headersOk ns = true ↔ ∀ n ∈ ns, ∃ a ∈ o.allowedHeaders ++ [S "Origin"], lower a = n := by
    simp only [Options.headersOk, List.all_eq_true, List.contains_iff_mem, List.mem_map]
  have hsame : (∀ n ∈ names, ∃ a ∈ o.allowedHeaders ++ [S "Origin"], lower a = n) → ns = names := by
    intro h
    rw [← hps, parse_join hne ht]
    have : (names.map fun p => lower (p.filter plainChar)) = names := by
      conv => rhs; rw [← List.map_id names]
      refine List.map_congr_left fun n hn => ?_
      obtain ⟨a, ha, hla⟩ := h n hn
      refine plain_self (hl n hn) fun c hc => ?_
      rw [← hla, lower_eq] at hc
      obtain ⟨d, hd, rfl⟩ := List.mem_map.1 hc
      exact plain_lowerC (hpl a ha d hd)
    rw [this, filter_tokens ht]
  unfold goCors
  simp only [hor, hme, hps, Bool.true_and]
  by_cases hk : o.headersOk ns = true
  · rw [if_pos hk]
    have h1 : listValues (S "access-control-allow-headers") ([o.allowOrigin origin, (S "access-control-allow-methods", S "POST")] ++
        if ns.isEmpty then [] else [(S "access-control-allow-headers", join (S ", ") ns)]) = some ns := by
      have e1 : (S "access-control-allow-origin" = S "access-control-allow-headers") = False := by decide
      have e2 : (S "access-control-allow-methods" = S "access-control-allow-headers") = False := by decide
      cases hns : ns with
      | nil => simp [listValues, header, Options.allowOrigin, e1, e2]
      | cons x xs =>
        rw [← hns]
        refine values_spaced (by simp [hns]) ?_ fun n hn => (hnp n hn).2.1
        simp [header, Options.allowOrigin, e1, e2, hns]
    have h2 : listValues (S "access-control-allow-methods") ([o.allowOrigin origin, (S "access-control-allow-methods", S "POST")] ++
        if ns.isEmpty then [] else [(S "access-control-allow-headers", join (S ", ") ns)]) = some [S "POST"] := by
      have e1 : (S "access-control-allow-origin" = S "access-control-allow-methods") = False := by decide
      refine values_joined (names := [S "POST"]) (by simp) ?_ (by decide)
      simp [header, Options.allowOrigin, e1, join]
    have h3 : corsCheck origin ([o.allowOrigin origin, (S "access-control-allow-methods", S "POST")] ++
        if ns.isEmpty then [] else [(S "access-control-allow-headers", join (S ", ") ns)]) = true := by
      simp [corsCheck, header, Options.allowOrigin, ho]
    have hmap : ns.map lower = ns := by
      conv => rhs; rw [← List.map_id ns]
      exact List.map_congr_left fun n hn => (hnp n hn).1
    have hstar : ns.contains (S "*") = false := by
      rw [Bool.eq_false_iff]
      intro h
      exact (hnp _ (List.contains_iff_mem.1 h)).2.2 rfl
    unfold preflightOk
    simp only [h1, h2, h3, hmap, hstar]
    simp only [List.contains_cons, beq_self_eq_true, Bool.true_or, Bool.true_and, Bool.false_and, Bool.or_false, Bool.and_eq_true]
    rw [List.all_eq_true]
    refine ⟨fun h n hn => hok.1 hk n ?_, fun h => ?_⟩
    · simpa using h.2 n hn
    · refine ⟨by simp, fun n hn => ?_⟩
      rw [hsame h]; simpa using hn
  · rw [if_neg hk]
    refine ⟨fun h => ?_, fun h => ?_⟩
    · simp [preflightOk, corsCheck, header] at h
    · exact absurd (hok.2 fun n hn => h n (by rw [hsame h] at hn; exact hn)) hk

/-! ### Requests of clients -/

theorem mapSet_mem {β : Type} (k : Str) (v : β) (m : List (Str × β)) : (k, v) ∈ mapSet k v m := by
  induction m with
  | nil => simp [mapSet]
  | cons x m ih =>
    obtain ⟨k', v'⟩ := x
    unfold mapSet
    split
    · simp
    · simp [ih]

theorem mapSet_names {β : Type} {k : Str} {v : β} {m : List (Str × β)} {x : Str × β} (h : x ∈ mapSet k v m) : x.1 = k ∨ x ∈ m := by
  induction m with
  | nil => simp [mapSet] at h; simp [h]
  | cons y m ih =>
    obtain ⟨k', v'⟩ := y
    unfold mapSet at h
    split at h
    · rcases List.mem_cons.1 h with rfl | h
      · exact .inl rfl
      · exact .inr (by simp [h])
    · rcases List.mem_cons.1 h with rfl | h
      · exact .inr (by simp)
      · rcases ih h with h | h
        · exact .inl h
        · exact .inr (by simp [h])

section
variable [JsEngine]

/-- The request of a generated client. -/
theorem request_headers {c : TsClient} {m : TsMethod} {req : Option Js} {hs : List (Str × Str)} {r : TsRequest}
    (h : c.request m req hs = .ok r) : r.method = S "POST" ∧ (S "Webrpc", c.header) ∈ r.headers ∧
      ∀ x ∈ r.headers, x.1 = S "Webrpc" ∨ x.1 = S "Content-Type" ∨ x ∈ hs := by
  have key : ∀ body, createHttpRequest c.header (c.url m.name) body hs = r → r.method = S "POST" ∧ (S "Webrpc", c.header) ∈ r.headers ∧
      ∀ x ∈ r.headers, x.1 = S "Webrpc" ∨ x.1 = S "Content-Type" ∨ x ∈ hs := by
    rintro body rfl
    refine ⟨rfl, mapSet_mem _ _ _, fun x hx => ?_⟩
    rcases mapSet_names hx with h | h
    · exact .inl h
    · rcases mapSet_names h with h | h
      · exact .inr (.inl h)
      · exact .inr (.inr h)
  unfold TsClient.request at h
  split at h
  · simp only [Except.ok.injEq] at h
    exact key _ h
  · split at h
    · simp at h
    · simp only [Except.ok.injEq] at h
      exact key _ h

omit [JsEngine] in
theorem asks_ne (b : Browser) {r : TsRequest} {v : Str} (h : (S "Webrpc", v) ∈ r.headers) : S "webrpc" ∈ b.asks r := by
  refine List.mem_map.2 ⟨_, List.mem_filter.2 ⟨h, b.webrpc _ _ _ (by decide)⟩, by simp only; decide⟩

omit [JsEngine] in
/-- The general case: behind go-chi/cors with origin `*` and `POST`, a request of a page is served just when each header that needs leave
is in the list of the server, and then the page gets the answer of the server; else `fetch` fails. -/
theorem go_page (o : Options) (ho : S "*" ∈ o.allowedOrigins) (hm : S "POST" ∈ o.allowedMethods)
    (hp : ∀ a ∈ o.allowedHeaders, ∀ c ∈ a, plainChar c = true) (b : Browser) (origin : Str) (handle : TsRequest → Answer) {r : TsRequest}
    (hr : r.method = S "POST") (ht : ∀ h ∈ r.headers, isToken h.1 = true) :
    ((∀ h ∈ r.headers, b.guarded r.headers h = true → ∃ a ∈ o.allowedHeaders ++ [S "Origin"], lower a = lower h.1) →
      (b.fetch (goCors o) origin handle r).reached = true ∧ (b.fetch (goCors o) origin handle r).fetched = direct handle r) ∧
    ((∃ h ∈ r.headers, b.guarded r.headers h = true ∧ ¬ ∃ a ∈ o.allowedHeaders ++ [S "Origin"], lower a = lower h.1) →
      (b.fetch (goCors o) origin handle r).reached = false ∧ (b.fetch (goCors o) origin handle r).fetched = .failed b.refused) := by
  have hal : r.headers.all (fun h => isToken h.1) = true := List.all_eq_true.2 ht
  have hiff : (∀ n ∈ b.asks r, ∃ a ∈ o.allowedHeaders ++ [S "Origin"], lower a = n) ↔
      ∀ h ∈ r.headers, b.guarded r.headers h = true → ∃ a ∈ o.allowedHeaders ++ [S "Origin"], lower a = lower h.1 := by
    simp only [Browser.asks, List.mem_map, List.mem_filter]
    exact ⟨fun h x hx hg => h _ ⟨x, ⟨hx, hg⟩, rfl⟩, fun h n ⟨x, ⟨hx, hg⟩, e⟩ => e ▸ h x hx hg⟩
  have hcheck : corsCheck origin ((goCors o).headers origin r.method) = true := by
    simp [goCors, corsCheck, header, Options.allowOrigin, Options.originOk, Options.methodOk, ho, hm, hr]
  rw [hr] at hcheck
  unfold Browser.fetch
  rw [hal]
  simp only [Bool.not_true, Bool.false_eq_true, if_false, hcheck, if_true, hr]
  by_cases hemp : b.asks r = []
  · refine ⟨fun _ => by simp [hemp, direct], fun ⟨h, h1, h2, h3⟩ => absurd (hiff.1 (by simp [hemp]) h h1 h2) h3⟩
  · have hl := go_leave o ho hm hp origin hemp (asks_tokens b ht) (asks_lower b r)
    have he : (b.asks r).isEmpty = false := by cases hh : b.asks r <;> simp_all
    refine ⟨fun h => ?_, fun ⟨h, h1, h2, h3⟩ => ?_⟩
    · rw [hl.2 (hiff.2 h)]
      simp [he, direct]
    · have : preflightOk origin (S "POST") (b.asks r) ((goCors o).preflight ⟨origin, S "POST", join (S ",") (b.asks r)⟩) = false := by
        rw [Bool.eq_false_iff]
        intro hh
        exact h3 (hiff.1 (hl.1 hh) h h1 h2)
      rw [this]
      simp [he]

/-! ### The servers -/

theorem go_client (o : Options) (ho : S "*" ∈ o.allowedOrigins) (hm : S "POST" ∈ o.allowedMethods)
    (hp : ∀ a ∈ o.allowedHeaders, ∀ c ∈ a, plainChar c = true)
    (hw : ∃ a ∈ o.allowedHeaders ++ [S "Origin"], lower a = lower (S "Webrpc")) (hc : ∃ a ∈ o.allowedHeaders ++ [S "Origin"], lower a = lower (S "Content-Type"))
    (b : Browser) (origin : Str) (handle : TsRequest → Answer)
    (c : TsClient) (m : TsMethod) (req : Option Js) (hs : List (Str × Str)) (ht : ∀ h ∈ hs, isToken h.1 = true)
    (hh : ∀ h ∈ hs, ∃ a ∈ o.allowedHeaders ++ [S "Origin"], lower a = lower h.1) :
    c.call m req hs (fun r => (b.fetch (goCors o) origin handle r).fetched) = c.call m req hs (direct handle) := by
  unfold TsClient.call
  cases hr : c.request m req hs with
  | error t => rfl
  | ok r =>
    obtain ⟨h1, h2, h3⟩ := request_headers hr
    simp only
    rw [((go_page o ho hm hp b origin handle h1 ?_).1 ?_).2]
    · intro x hx
      rcases h3 x hx with h | h | h
      · rw [h]; decide
      · rw [h]; decide
      · exact ht x h
    · intro x hx _
      rcases h3 x hx with h | h | h
      · rw [h]; exact hw
      · rw [h]; exact hc
      · exact hh x h

/-- C112: from any page, calls of the generated client to the chat server end as they do without a browser, if the caller adds no headers but
`Accept`, `Authorization` and `X-CSRF-Token`. -/
theorem C112_chat_partial (b : Browser) (origin : Str) (handle : TsRequest → Answer)
    (c : TsClient) (m : TsMethod) (req : Option Js) (hs : List (Str × Str))
    (hh : ∀ h ∈ hs, h.1 ∈ [S "Accept", S "Authorization", S "Content-Type", S "X-CSRF-Token", S "Webrpc"]) :
    c.call m req hs (fun r => (b.fetch (goCors chatOptions) origin handle r).fetched) = c.call m req hs (direct handle) := by
  refine go_client chatOptions (by decide) (by decide) (by decide) ⟨S "Webrpc", by decide, rfl⟩ ⟨S "Content-Type", by decide, rfl⟩ b origin handle
    c m req hs (fun h hx => ?_) fun h hx => ⟨h.1, List.mem_append_left _ (hh h hx), rfl⟩
  have : ∀ n ∈ [S "Accept", S "Authorization", S "Content-Type", S "X-CSRF-Token", S "Webrpc"], isToken n = true := by decide
  exact this _ (hh h hx)

/-- C112: the same for hello-webrpc. -/
theorem C112_hello_partial (b : Browser) (origin : Str) (handle : TsRequest → Answer)
    (c : TsClient) (m : TsMethod) (req : Option Js) (hs : List (Str × Str))
    (hh : ∀ h ∈ hs, h.1 ∈ [S "Accept", S "Authorization", S "Content-Type", S "X-CSRF-Token", S "Webrpc"]) :
    c.call m req hs (fun r => (b.fetch (goCors helloOptions) origin handle r).fetched) = c.call m req hs (direct handle) := by
  refine go_client helloOptions (by decide) (by decide) (by decide) ⟨S "Webrpc", by decide, rfl⟩ ⟨S "Content-Type", by decide, rfl⟩ b origin handle
    c m req hs (fun h hx => ?_) fun h hx => ⟨h.1, List.mem_append_left _ (hh h hx), rfl⟩
  have : ∀ n ∈ [S "Accept", S "Authorization", S "Content-Type", S "X-CSRF-Token", S "Webrpc"], isToken n = true := by decide
  exact this _ (hh h hx)

/-- C112 is false of `node-ts/server-go`: no request of the generated client in a page ever reaches the server, and every call fails with
`WebrpcRequestFailed`, whatever the caller does, since the server does not allow the header `Webrpc`. -/
theorem C112_server_go_unreachable (b : Browser) (origin : Str) (handle : TsRequest → Answer)
    (c : TsClient) (m : TsMethod) (req : Option Js) (hs : List (Str × Str)) :
    (∀ r, c.request m req hs = .ok r → (b.fetch (goCors serverGoOptions) origin handle r).reached = false) ∧
    (∀ r, c.request m req hs = .ok r → c.call m req hs (fun r => (b.fetch (goCors serverGoOptions) origin handle r).fetched) =
      .error (.webrpc (requestFailedClass.construct .undefined .undefined .undefined (.str (S "fetch(): " ++ b.refused))))) := by
  have key : ∀ r, c.request m req hs = .ok r → (b.fetch (goCors serverGoOptions) origin handle r).reached = false ∧
      (b.fetch (goCors serverGoOptions) origin handle r).fetched = .failed b.refused := by
    intro r hr
    obtain ⟨h1, h2, h3⟩ := request_headers hr
    by_cases ht : ∀ h ∈ r.headers, isToken h.1 = true
    · refine (go_page serverGoOptions (by decide) (by decide) (by decide) b origin handle h1 ht).2 ⟨_, h2, b.webrpc _ _ _ (by decide), ?_⟩
      have : ¬ ∃ a ∈ serverGoOptions.allowedHeaders ++ [S "Origin"], lower a = lower (S "Webrpc") := by decide
      exact this
    · have : r.headers.all (fun h => isToken h.1) = false := by
        rw [Bool.eq_false_iff]
        exact fun h => ht (List.all_eq_true.1 h)
      unfold Browser.fetch
      rw [this]
      exact ⟨rfl, rfl⟩
  refine ⟨fun r hr => (key r hr).1, fun r hr => ?_⟩
  unfold TsClient.call
  rw [hr]
  simp only
  rw [(key r hr).2]
  rfl

/-- C112: `node-ts/server` allows every header a page can send. -/
theorem C112_node_partial (b : Browser) (origin : Str) (handle : TsRequest → Answer)
    (c : TsClient) (m : TsMethod) (req : Option Js) (hs : List (Str × Str)) (hh : ∀ h ∈ hs, isToken h.1 = true) :
    c.call m req hs (fun r => (b.fetch nodeServer origin handle r).fetched) = c.call m req hs (direct handle) := by
  unfold TsClient.call
  cases hr : c.request m req hs with
  | error t => rfl
  | ok r =>
    obtain ⟨h1, h2, h3⟩ := request_headers hr
    have ht : ∀ x ∈ r.headers, isToken x.1 = true := by
      intro x hx
      rcases h3 x hx with h | h | h
      · rw [h]; decide
      · rw [h]; decide
      · exact hh x h
    have hal : r.headers.all (fun h => isToken h.1) = true := List.all_eq_true.2 ht
    have hne : b.asks r ≠ [] := List.ne_nil_of_mem (asks_ne b h2)
    have htok := asks_tokens b ht
    have hjne : (join (S ",") (b.asks r)).isEmpty = false := by
      cases hn : b.asks r with
      | nil => exact absurd hn hne
      | cons x xs =>
        have hx := token_ne (htok x (by simp [hn]))
        cases x with
        | nil => exact absurd rfl hx
        | cons a x => cases xs <;> simp [join]
    have hv : listValues (S "access-control-allow-headers") (nodeServer.preflight ⟨origin, S "POST", join (S ",") (b.asks r)⟩).headers = some (b.asks r) := by
      refine values_joined hne ?_ htok
      have e1 : (S "access-control-allow-origin" = S "access-control-allow-headers") = False := by decide
      have e2 : (S "access-control-allow-methods" = S "access-control-allow-headers") = False := by decide
      simp only [nodeServer, header, e1, e2, hjne, if_false, if_true, Bool.false_eq_true]
    have hm : listValues (S "access-control-allow-methods") (nodeServer.preflight ⟨origin, S "POST", join (S ",") (b.asks r)⟩).headers =
        some [S "GET", S "POST", S "PUT", S "PATCH", S "DELETE", S "OPTIONS"] := by
      refine values_joined (by simp) ?_ (by decide)
      have e1 : (S "access-control-allow-origin" = S "access-control-allow-methods") = False := by decide
      simp only [nodeServer, header, e1, if_false, if_true]
      decide
    have hmap : (b.asks r).map lower = b.asks r := by
      conv => rhs; rw [← List.map_id (b.asks r)]
      exact List.map_congr_left fun n hn => asks_lower b r n hn
    have hp : preflightOk origin (S "POST") (b.asks r) (nodeServer.preflight ⟨origin, S "POST", join (S ",") (b.asks r)⟩) = true := by
      have hc : corsCheck origin (nodeServer.preflight ⟨origin, S "POST", join (S ",") (b.asks r)⟩).headers = true := by
        simp [nodeServer, corsCheck, header]
      have hst : (nodeServer.preflight ⟨origin, S "POST", join (S ",") (b.asks r)⟩).status = 204 := rfl
      unfold preflightOk
      simp only [hv, hm, hc, hst, hmap]
      simp only [Bool.and_eq_true]
      rw [List.all_eq_true]
      refine ⟨⟨trivial, by decide⟩, by decide, fun n hn => by simp [hn]⟩
    have hc2 : corsCheck origin (nodeServer.headers origin r.method) = true := by simp [nodeServer, corsCheck, header]
    simp only
    unfold Browser.fetch
    rw [hal, h1, hp]
    rw [h1] at hc2
    simp [hc2, direct]

/-- C112: `node-ts/server-hono` allows `Authorization` besides the headers of the client. -/
theorem C112_hono_partial (b : Browser) (origin : Str) (handle : TsRequest → Answer)
    (c : TsClient) (m : TsMethod) (req : Option Js) (hs : List (Str × Str))
    (hh : ∀ h ∈ hs, h.1 ∈ [S "Content-Type", S "Authorization", S "Webrpc"]) :
    c.call m req hs (fun r => (b.fetch honoServer origin handle r).fetched) = c.call m req hs (direct handle) := by
  unfold TsClient.call
  cases hr : c.request m req hs with
  | error t => rfl
  | ok r =>
    obtain ⟨h1, h2, h3⟩ := request_headers hr
    have hall : ∀ x ∈ r.headers, x.1 ∈ [S "Content-Type", S "Authorization", S "Webrpc"] := by
      intro x hx
      rcases h3 x hx with h | h | h
      · simp [h]
      · simp [h]
      · exact hh x h
    have htk : ∀ n ∈ [S "Content-Type", S "Authorization", S "Webrpc"], isToken n = true := by decide
    have hal : r.headers.all (fun h => isToken h.1) = true := List.all_eq_true.2 fun x hx => htk _ (hall x hx)
    have hv : listValues (S "access-control-allow-headers") (honoServer.preflight ⟨origin, S "POST", join (S ",") (b.asks r)⟩).headers =
        some [S "Content-Type", S "Authorization", S "Webrpc"] := by
      refine values_joined (by simp) ?_ htk
      have e1 : (S "access-control-allow-origin" = S "access-control-allow-headers") = False := by decide
      have e2 : (S "access-control-allow-methods" = S "access-control-allow-headers") = False := by decide
      simp [honoServer, header, e1, e2]
    have hm : listValues (S "access-control-allow-methods") (honoServer.preflight ⟨origin, S "POST", join (S ",") (b.asks r)⟩).headers =
        some [S "GET", S "POST", S "PUT", S "PATCH", S "DELETE", S "OPTIONS"] := by
      refine values_joined (by simp) ?_ (by decide)
      have e1 : (S "access-control-allow-origin" = S "access-control-allow-methods") = False := by decide
      simp only [honoServer, header, e1, if_false, if_true]
      decide
    have hp : preflightOk origin (S "POST") (b.asks r) (honoServer.preflight ⟨origin, S "POST", join (S ",") (b.asks r)⟩) = true := by
      have hc : corsCheck origin (honoServer.preflight ⟨origin, S "POST", join (S ",") (b.asks r)⟩).headers = true := by
        simp [honoServer, corsCheck, header]
      have hst : (honoServer.preflight ⟨origin, S "POST", join (S ",") (b.asks r)⟩).status = 204 := rfl
      unfold preflightOk
      simp only [hv, hm, hc, hst]
      simp only [Bool.and_eq_true]
      rw [List.all_eq_true]
      refine ⟨⟨trivial, by decide⟩, by decide, fun n hn => ?_⟩
      obtain ⟨x, hx, rfl⟩ := List.mem_map.1 hn
      have := List.mem_map_of_mem (f := lower) (hall x (List.mem_filter.1 hx).1)
      rw [Bool.or_eq_true]
      exact .inl (List.contains_iff_mem.2 this)
    have hc2 : corsCheck origin (honoServer.headers origin r.method) = true := by simp [honoServer, corsCheck, header]
    simp only
    unfold Browser.fetch
    rw [hal, h1, hp]
    rw [h1] at hc2
    simp [hc2, direct]

end

/-! ### What the page sees of the response -/

/-- What `res.headers.get('Webrpc')` gives, node-ts/webapp/index.ts:8. -/
def Outcome.version (x : Outcome) : Option Str := header (S "webrpc") x.visible

theorem header_filter (p : Str → Bool) (n : Str) (hs : List (Str × Str)) :
    header n (hs.filter fun h => p h.1) = if p n then header n hs else none := by
  induction hs with
  | nil => simp [header]
  | cons x hs ih =>
    obtain ⟨k, v⟩ := x
    by_cases hk : p k = true
    · rw [List.filter_cons_of_pos (by simpa using hk), header, header]
      by_cases he : k = n
      · subst he; simp [hk]
      · rw [if_neg he, if_neg he, ih]
    · rw [List.filter_cons_of_neg (by simpa using hk), ih, header]
      by_cases he : k = n
      · subst he; simp [hk]
      · rw [if_neg he]

theorem header_append (n : Str) (a b : List (Str × Str)) (h : header n b = none) : header n (a ++ b) = header n a := by
  induction a with
  | nil => simpa [header] using h
  | cons x a ih =>
    obtain ⟨k, v⟩ := x
    simp only [List.cons_append, header, ih]

/-- C113: a page that got an answer from the chat server or from hello-webrpc sees the `Webrpc` header of that answer. -/
theorem C113_visible_partial (b : Browser) (origin : Str) (handle : TsRequest → Answer) (r : TsRequest) (hr : r.method = S "POST") (o : Options)
    (ho : o = chatOptions ∨ o = helloOptions) {status : Int} {text : Except Str Str}
    (h : (b.fetch (goCors o) origin handle r).fetched = .response status text) :
    (b.fetch (goCors o) origin handle r).version = header (S "webrpc") (handle r).headers := by
  have key : ∀ o, o.originOk origin = true → o.methodOk (S "POST") = true → o.exposedHeaders = [S "Link", S "Webrpc"] →
      (b.fetch (goCors o) origin handle r).fetched = .response status text →
      (b.fetch (goCors o) origin handle r).version = header (S "webrpc") (handle r).headers := by
    intro o h1 h2 h3 h
    have hhs : (goCors o).headers origin r.method = [o.allowOrigin origin, (S "access-control-expose-headers", join (S ", ") [S "Link", S "Webrpc"])] := by
      simp [goCors, h1, h2, h3, hr]
    have hl : listValues (S "access-control-expose-headers") ((goCors o).headers origin r.method) = some [S "Link", S "Webrpc"] := by
      refine values_spaced (by simp) ?_ (by decide)
      have e1 : (S "access-control-allow-origin" = S "access-control-expose-headers") = False := by decide
      simp only [hhs, header, Options.allowOrigin, e1, if_false, if_true]
    have hnone : header (S "webrpc") ((goCors o).headers origin r.method) = none := by
      have e1 : (S "access-control-allow-origin" = S "webrpc") = False := by decide
      have e2 : (S "access-control-expose-headers" = S "webrpc") = False := by decide
      simp only [hhs, header, Options.allowOrigin, e1, e2, if_false]
    unfold Browser.fetch at h ⊢
    split at h
    · simp at h
    · next g1 =>
      split at h
      · simp at h
      · next g2 =>
        rw [if_neg g1, if_neg g2]
        simp only at h ⊢
        split at h
        · next g3 =>
          rw [if_pos g3]
          unfold Outcome.version
          simp only [hl, Option.getD_some]
          rw [header_filter (fun n => (List.map lower [S "Link", S "Webrpc"] ++ safeResponse).contains n || (List.map lower [S "Link", S "Webrpc"]).contains (S "*")),
            if_pos (by decide), header_append _ _ _ hnone]
        · simp at h
  rcases ho with rfl | rfl
  · exact key _ (by simp [chatOptions, Options.originOk]) (by decide) rfl h
  · exact key _ (by simp [helloOptions, Options.originOk]) (by decide) rfl h

/-- C113 is false of the three servers of node-ts: a page never sees their `Webrpc` header. -/
theorem C113_hidden (b : Browser) (origin : Str) (handle : TsRequest → Answer) (r : TsRequest) :
    (b.fetch nodeServer origin handle r).version = none ∧ (b.fetch honoServer origin handle r).version = none ∧
      (b.fetch (goCors serverGoOptions) origin handle r).version = none := by
  have key : ∀ (s : Server) ns, listValues (S "access-control-expose-headers") (s.headers origin r.method) = some ns →
      ((ns.map lower ++ safeResponse).contains (S "webrpc") || (ns.map lower).contains (S "*")) = false →
      (b.fetch s origin handle r).version = none := by
    intro s ns h1 h2
    unfold Browser.fetch
    split
    · rfl
    · split
      · rfl
      · simp only
        split
        · unfold Outcome.version
          simp only [h1, Option.getD_some]
          rw [header_filter (fun n => (List.map lower ns ++ safeResponse).contains n || (List.map lower ns).contains (S "*"))]
          simp only [h2]
          rfl
        · rfl
  have e0 : (S "access-control-allow-origin" = S "access-control-expose-headers") = False := by decide
  have e1 : (S "access-control-allow-methods" = S "access-control-expose-headers") = False := by decide
  have e2 : (S "access-control-allow-headers" = S "access-control-expose-headers") = False := by decide
  refine ⟨key _ [] ?_ (by decide), key _ [] ?_ (by decide), ?_⟩
  · simp only [nodeServer, listValues, header, e0, e1, e2, if_false]
  · simp only [honoServer, listValues, header, e0, if_false]
  · by_cases hm : serverGoOptions.methodOk r.method = true
    · refine key _ [S "Link"] (values_spaced (by simp) ?_ (by decide)) (by decide)
      have ho : serverGoOptions.originOk origin = true := by simp [serverGoOptions, Options.originOk]
      simp only [goCors, ho, hm, Bool.true_and, if_true]
      simp only [serverGoOptions, Options.allowOrigin, header, List.cons_append, List.nil_append, e0, if_false, if_true, List.isEmpty_cons, Bool.false_eq_true]
    · refine key _ [] ?_ (by decide)
      simp [goCors, hm, listValues, header]

/-! A browser, and calls that do and do not get through. -/

/-- Everything needs leave. -/
def strict : Browser := ⟨fun _ _ => true, fun _ _ _ _ => rfl, fun _ _ _ => rfl, S "Failed to fetch"⟩

def exRequest : TsRequest := createHttpRequest (S "webrpc@v0.31.2") (S "http://localhost/rpc/Chat/SendMessage") (some (S "{}")) [(S "Authorization", S "x")]
def exAnswer : TsRequest → Answer := fun _ => ⟨200, S "{}", [(S "webrpc", S "v")]⟩

example : (strict.fetch (goCors chatOptions) (S "http://a") exAnswer exRequest).reached = true ∧
    (strict.fetch (goCors chatOptions) (S "http://a") exAnswer exRequest).version = some (S "v") ∧
    (strict.fetch (goCors serverGoOptions) (S "http://a") exAnswer exRequest).reached = false ∧
    (strict.fetch nodeServer (S "http://a") exAnswer exRequest).reached = true ∧
    (strict.fetch honoServer (S "http://a") exAnswer exRequest).reached = true ∧
    (strict.fetch honoServer (S "http://a") exAnswer { exRequest with headers := (S "X-Other", []) :: exRequest.headers }).reached = false := by
  decide +kernel

end Verif.Ts.Cors
