import Verif.Spec.WireError
import Verif.Props.JsonSchema
import Verif.Rpc.Server
/-!
# C106: how a Go client understands any answer
-/

namespace Verif.WireError
open Verif.Schema hiding Json
open Verif.Json Verif.Spec Verif.JsonSpec Verif.JsonSchema Verif.Rpc

/-- The members for one tag, one after the other. -/
def foldMember {α : Type} (d : α → Json → Option α) (k : Str) : α → List (Str × Json) → Option α
  | x, [] => some x
  | x, (key, j) :: r => if key.map foldChar = k.map foldChar then (d x j).bind fun y => foldMember d k y r else foldMember d k x r

/-- Null keeps what is there; everything else is read as `R` says. -/
def Keeps {α : Type} (d : α → Json → Option α) (R : Json → α → Prop) : Prop :=
  ∀ old j x, d old j = some x ↔ (j = .null ∧ x = old) ∨ (j ≠ .null ∧ R j x)

theorem foldMember_iff {α : Type} {d : α → Json → Option α} {R : Json → α → Prop} (hd : Keeps d R) (k : Str)
    (l : List (Str × Json)) (x y : α) : foldMember d k x l = some y ↔ LastSays l k R x y := by
  induction l generalizing x with
  | nil =>
    constructor
    · rintro ⟨⟩
      exact ⟨fun _ h => by simp at h, .inr ⟨rfl, fun _ h => by simp at h⟩⟩
    · rintro ⟨_, h | h⟩
      · obtain ⟨b, _, _, _, h, _⟩ := h
        cases b <;> cases h
      · rw [h.1]; rfl
  | cons p l ih =>
    obtain ⟨key, j⟩ := p
    unfold foldMember
    by_cases hs : SameKey key k
    · rw [if_pos (show key.map foldChar = k.map foldChar from hs)]
      rw [Option.bind_eq_some_iff]
      simp only [ih, hd x j]
      constructor
      · rintro ⟨z, ⟨hj, rfl⟩ | ⟨hj, hr⟩, hall, h⟩
        · subst hj
          refine ⟨?_, ?_⟩
          · intro p hp hps
            rcases List.mem_cons.1 hp with rfl | hp
            · exact .inl rfl
            · exact hall p hp hps
          · rcases h with ⟨b, k', j', a, rfl, h⟩ | ⟨rfl, h⟩
            · exact .inl ⟨(key, .null) :: b, k', j', a, rfl, h⟩
            · refine .inr ⟨rfl, fun p hp hps => ?_⟩
              rcases List.mem_cons.1 hp with rfl | hp
              · rfl
              · exact h p hp hps
        · refine ⟨?_, ?_⟩
          · intro p hp hps
            rcases List.mem_cons.1 hp with rfl | hp
            · exact .inr ⟨_, hr⟩
            · exact hall p hp hps
          · rcases h with ⟨b, k', j', a, rfl, h⟩ | ⟨rfl, h⟩
            · exact .inl ⟨(key, j) :: b, k', j', a, rfl, h⟩
            · exact .inl ⟨[], key, j, l, rfl, hs, hj, hr, h⟩
      · rintro ⟨hall, h⟩
        have hall' : ∀ p ∈ l, SameKey p.1 k → p.2 = .null ∨ ∃ y, R p.2 y := fun p hp => hall p (List.mem_cons_of_mem _ hp)
        rcases h with ⟨b, k', j', a, he, hk, hn, hr, h⟩ | ⟨rfl, h⟩
        · cases b with
          | nil =>
            cases he
            exact ⟨y, .inr ⟨hn, hr⟩, hall', .inr ⟨rfl, h⟩⟩
          | cons p b =>
            cases he
            rcases hall (key, j) (List.mem_cons_self ..) hs with hj | ⟨z, hz⟩
            · exact ⟨x, .inl ⟨hj, rfl⟩, hall', .inl ⟨b, k', j', a, rfl, hk, hn, hr, h⟩⟩
            · by_cases hj : j = .null
              · exact ⟨x, .inl ⟨hj, rfl⟩, hall', .inl ⟨b, k', j', a, rfl, hk, hn, hr, h⟩⟩
              · exact ⟨z, .inr ⟨hj, hz⟩, hall', .inl ⟨b, k', j', a, rfl, hk, hn, hr, h⟩⟩
        · exact ⟨y, .inl ⟨h (key, j) (List.mem_cons_self ..) hs, rfl⟩, hall', .inr ⟨rfl, fun p hp => h p (List.mem_cons_of_mem _ hp)⟩⟩
    · rw [if_neg (show ¬ key.map foldChar = k.map foldChar from hs), ih]
      constructor
      · rintro ⟨hall, h⟩
        refine ⟨fun p hp hps => ?_, ?_⟩
        · rcases List.mem_cons.1 hp with rfl | hp
          · exact absurd hps hs
          · exact hall p hp hps
        · rcases h with ⟨b, k', j', a, rfl, h⟩ | ⟨rfl, h⟩
          · exact .inl ⟨(key, j) :: b, k', j', a, rfl, h⟩
          · refine .inr ⟨rfl, fun p hp hps => ?_⟩
            rcases List.mem_cons.1 hp with rfl | hp
            · exact absurd hps hs
            · exact h p hp hps
      · rintro ⟨hall, h⟩
        refine ⟨fun p hp => hall p (List.mem_cons_of_mem _ hp), ?_⟩
        rcases h with ⟨b, k', j', a, he, hk, h⟩ | ⟨rfl, h⟩
        · cases b with
          | nil => cases he; exact absurd hk hs
          | cons p b => cases he; exact .inl ⟨b, k', j', a, rfl, hk, h⟩
        · exact .inr ⟨rfl, fun p hp => h p (List.mem_cons_of_mem _ hp)⟩

theorem keeps_str : Keeps Rpc.decStr IsText := by
  intro old j x
  cases j with
  | null =>
    constructor
    · rintro ⟨⟩; exact .inl ⟨rfl, rfl⟩
    · rintro (⟨_, rfl⟩ | ⟨h, _⟩)
      · rfl
      · exact absurd rfl h
  | str raw =>
    unfold Rpc.decStr
    dsimp only
    rw [Verif.Props.C74_strings]
    constructor
    · intro h; exact .inr ⟨by simp, .str h⟩
    · rintro (⟨h, _⟩ | ⟨_, h⟩)
      · cases h
      · cases h; assumption
  | _ =>
    constructor
    · intro h; cases h
    · rintro (⟨h, _⟩ | ⟨_, h⟩) <;> cases h

theorem keeps_int : Keeps Rpc.decInt IsInt := by
  intro old j x
  cases j with
  | null =>
    constructor
    · rintro ⟨⟩; exact .inl ⟨rfl, rfl⟩
    · rintro (⟨_, rfl⟩ | ⟨h, _⟩)
      · rfl
      · exact absurd rfl h
  | num t =>
    unfold Rpc.decInt
    dsimp only
    rw [Verif.Values.atoi_iff]
    constructor
    · rintro ⟨h1, h2⟩; exact .inr ⟨by simp, .num h1 h2⟩
    · rintro (⟨h, _⟩ | ⟨_, h⟩)
      · cases h
      · cases h; constructor <;> assumption
  | _ =>
    constructor
    · intro h; cases h
    · rintro (⟨h, _⟩ | ⟨_, h⟩) <;> cases h

/-- The tags of an error. -/
def errorTags : List Str := [S "error", S "code", S "msg", S "cause", S "status"]

theorem distinct_errorTags : Distinct errorTags := by decide +kernel

/-- All five folds. -/
def Folds (e e' : RpcError) (l : List (Str × Json)) : Prop :=
  foldMember Rpc.decStr (S "error") e.name l = some e'.name ∧ foldMember Rpc.decInt (S "code") e.code l = some e'.code ∧
  foldMember Rpc.decStr (S "msg") e.message l = some e'.message ∧ foldMember Rpc.decStr (S "cause") e.cause l = some e'.cause ∧
  foldMember Rpc.decInt (S "status") e.httpStatus l = some e'.httpStatus

theorem foldMember_same {α : Type} {d : α → Json → Option α} {k key : Str} (h : SameKey key k) (x : α) (j : Json) (r : List (Str × Json)) :
    foldMember d k x ((key, j) :: r) = (d x j).bind fun y => foldMember d k y r := by
  rw [foldMember, if_pos (show key.map foldChar = k.map foldChar from h)]

theorem foldMember_other {α : Type} {d : α → Json → Option α} {k key : Str} (h : ¬ SameKey key k) (x : α) (j : Json) (r : List (Str × Json)) :
    foldMember d k x ((key, j) :: r) = foldMember d k x r := by
  rw [foldMember, if_neg (show ¬ key.map foldChar = k.map foldChar from h)]

theorem setMembers_iff (l : List (Str × Json)) (e e' : RpcError) : e.setMembers l = some e' ↔ Folds e e' l := by
  induction l generalizing e with
  | nil =>
    obtain ⟨a, b, c, d, f⟩ := e
    obtain ⟨a', b', c', d', f'⟩ := e'
    simp [RpcError.setMembers, Folds, foldMember]
  | cons p l ih =>
    obtain ⟨key, j⟩ := p
    have hsm : e.setMembers ((key, j) :: l) = (e.setMember key j).bind fun x => x.setMembers l := by
      rw [RpcError.setMembers]; cases e.setMember key j <;> rfl
    rw [hsm]
    cases hf : fieldFor errorTags key with
    | none =>
      have hno : ∀ k ∈ errorTags, ¬ SameKey key k := by
        intro k hk hs
        rw [(fieldFor_iff distinct_errorTags).2 ⟨hk, hs⟩] at hf
        cases hf
      have : e.setMember key j = some e := by
        unfold RpcError.setMember
        rw [show [S "error", S "code", S "msg", S "cause", S "status"] = errorTags from rfl, hf]
      rw [this, Option.bind_some, ih]
      unfold Folds
      rw [foldMember_other (hno _ (by simp [errorTags])), foldMember_other (hno _ (by simp [errorTags])),
        foldMember_other (hno _ (by simp [errorTags])), foldMember_other (hno _ (by simp [errorTags])),
        foldMember_other (hno _ (by simp [errorTags]))]
    | some t =>
      obtain ⟨ht, hs⟩ := (fieldFor_iff distinct_errorTags).1 hf
      have hno : ∀ k ∈ errorTags, k ≠ t → ¬ SameKey key k := fun k hk hne hk' =>
        hne (distinct_eq distinct_errorTags hk ht (hk'.symm.trans hs))
      have hset : e.setMember key j = (if t = S "error" then (Rpc.decStr e.name j).map fun x => { e with name := x }
          else if t = S "code" then (Rpc.decInt e.code j).map fun x => { e with code := x }
          else if t = S "msg" then (Rpc.decStr e.message j).map fun x => { e with message := x }
          else if t = S "cause" then (Rpc.decStr e.cause j).map fun x => { e with cause := x }
          else (Rpc.decInt e.httpStatus j).map fun x => { e with httpStatus := x }) := by
        unfold RpcError.setMember
        rw [show [S "error", S "code", S "msg", S "cause", S "status"] = errorTags from rfl, hf]
      rw [hset]
      unfold Folds
      simp only [errorTags, List.mem_cons, List.not_mem_nil, or_false] at ht
      rcases ht with rfl | rfl | rfl | rfl | rfl
      · rw [if_pos rfl, foldMember_same hs, foldMember_other (hno (S "code") (by simp [errorTags]) (by decide)),
          foldMember_other (hno (S "msg") (by simp [errorTags]) (by decide)), foldMember_other (hno (S "cause") (by simp [errorTags]) (by decide)),
          foldMember_other (hno (S "status") (by simp [errorTags]) (by decide))]
        cases Rpc.decStr e.name j with
        | none => simp
        | some x => simp only [Option.map_some, Option.bind_some, ih]; rfl
      · rw [if_neg (by decide), if_pos rfl, foldMember_same hs, foldMember_other (hno (S "error") (by simp [errorTags]) (by decide)),
          foldMember_other (hno (S "msg") (by simp [errorTags]) (by decide)), foldMember_other (hno (S "cause") (by simp [errorTags]) (by decide)),
          foldMember_other (hno (S "status") (by simp [errorTags]) (by decide))]
        cases Rpc.decInt e.code j with
        | none => simp
        | some x => simp only [Option.map_some, Option.bind_some, ih]; rfl
      · rw [if_neg (by decide), if_neg (by decide), if_pos rfl, foldMember_same hs, foldMember_other (hno (S "error") (by simp [errorTags]) (by decide)),
          foldMember_other (hno (S "code") (by simp [errorTags]) (by decide)), foldMember_other (hno (S "cause") (by simp [errorTags]) (by decide)),
          foldMember_other (hno (S "status") (by simp [errorTags]) (by decide))]
        cases Rpc.decStr e.message j with
        | none => simp
        | some x => simp only [Option.map_some, Option.bind_some, ih]; rfl
      · rw [if_neg (by decide), if_neg (by decide), if_neg (by decide), if_pos rfl, foldMember_same hs, foldMember_other (hno (S "error") (by simp [errorTags]) (by decide)),
          foldMember_other (hno (S "code") (by simp [errorTags]) (by decide)), foldMember_other (hno (S "msg") (by simp [errorTags]) (by decide)),
          foldMember_other (hno (S "status") (by simp [errorTags]) (by decide))]
        cases Rpc.decStr e.cause j with
        | none => simp
        | some x => simp only [Option.map_some, Option.bind_some, ih]; rfl
      · rw [if_neg (by decide), if_neg (by decide), if_neg (by decide), if_neg (by decide), foldMember_same hs, foldMember_other (hno (S "error") (by simp [errorTags]) (by decide)),
          foldMember_other (hno (S "code") (by simp [errorTags]) (by decide)), foldMember_other (hno (S "msg") (by simp [errorTags]) (by decide)),
          foldMember_other (hno (S "cause") (by simp [errorTags]) (by decide))]
        cases Rpc.decInt e.httpStatus j with
        | none => simp
        | some x => simp only [Option.map_some, Option.bind_some, ih]; rfl

theorem ofJson_iff (j : Json) (e : RpcError) : RpcError.ofJson j = some e ↔ IsWireError j e := by
  cases j with
  | obj l =>
    unfold RpcError.ofJson
    dsimp only
    rw [setMembers_iff]
    unfold Folds
    simp only [foldMember_iff keeps_str, foldMember_iff keeps_int]
    constructor
    · rintro ⟨h1, h2, h3, h4, h5⟩
      exact .obj h1 h2 h3 h4 h5
    · intro h
      cases h with
      | obj h1 h2 h3 h4 h5 => exact ⟨h1, h2, h3, h4, h5⟩
  | null =>
    constructor
    · rintro ⟨⟩; exact .null
    · intro h; cases h; rfl
  | _ => exact ⟨fun h => (by cases h), fun h => by cases h⟩

/-! ### C106 -/

theorem said_iff (b : Str) (e : RpcError) : (parse b).bind RpcError.ofJson = some e ↔ ∃ j, JsonText b j ∧ IsWireError j e := by
  rw [Option.bind_eq_some_iff]
  simp only [parse_iff, ofJson_iff]

/-- C106. An answer with another status than 200 is an error, and it is the error that its body says, all of its name,
number, message, cause and status. -/
theorem C106_error_said (m : ClientMethod) (status : Int) (hs : status ≠ 200) (body : Str) (j : Json) (e : RpcError)
    (hj : JsonText body j) (he : IsWireError j e) : readResponse m (.response status (some body)) = .error e := by
  unfold readResponse
  dsimp only
  rw [if_pos hs, (said_iff body e).2 ⟨j, hj, he⟩]

/-- C106. If its body does not say an error, or cannot be read, the error is "bad response". -/
theorem C106_unreadable (m : ClientMethod) (status : Int) (hs : status ≠ 200) (body : Option Str)
    (hb : ∀ b, body = some b → ¬ ∃ j e, JsonText b j ∧ IsWireError j e) :
    ∃ e, readResponse m (.response status body) = .error e ∧ e.is errBadResponse = true ∧ e.name = S "WebrpcBadResponse" ∧ e.httpStatus = 500 := by
  unfold readResponse
  dsimp only
  rw [if_pos hs]
  cases body with
  | none => exact ⟨_, rfl, by decide, rfl, rfl⟩
  | some b =>
    cases h : (parse b).bind RpcError.ofJson with
    | none =>
      dsimp only
      rw [h]
      exact ⟨_, rfl, by decide, rfl, rfl⟩
    | some e =>
      obtain ⟨j, h1, h2⟩ := (said_iff b e).1 h
      exact absurd ⟨j, e, h1, h2⟩ (hb b rfl)

/-- C106. A call succeeds exactly if the status is 200 and, for a method with results, the body is the JSON of results. -/
theorem C106_succeeds (m : ClientMethod) (t : Transport) (v : Json) :
    readResponse m t = .ok v ↔
      ∃ body, t = .response 200 body ∧
        ((m.hasResult = false ∧ v = .null) ∨ (m.hasResult = true ∧ ∃ text j, body = some text ∧ JsonText text j ∧ m.readResult j = some v)) := by
  cases t with
  | failed t => exact ⟨fun h => (by cases h), fun ⟨_, h, _⟩ => by cases h⟩
  | response status body =>
    unfold readResponse
    dsimp only
    by_cases hs : status = 200
    · subst hs
      rw [if_neg (by simp)]
      cases hr : m.hasResult with
      | false =>
        rw [if_neg (by simp)]
        constructor
        · rintro ⟨⟩; exact ⟨body, rfl, .inl ⟨rfl, rfl⟩⟩
        · rintro ⟨_, _, ⟨_, rfl⟩ | ⟨h, _⟩⟩
          · rfl
          · cases h
      | true =>
        rw [if_pos rfl]
        cases body with
        | none =>
          refine ⟨fun h => (by cases h), ?_⟩
          rintro ⟨_, hb, ⟨h, _⟩ | ⟨_, text, j, h, _⟩⟩
          · cases h
          · cases hb; cases h
        | some b =>
          dsimp only
          cases h : (parse b).bind m.readResult with
          | none =>
            refine ⟨fun h => (by cases h), ?_⟩
            rintro ⟨_, hb, ⟨h, _⟩ | ⟨_, text, j, h1, h2, h3⟩⟩
            · cases h
            · cases hb; cases h1
              rw [parse_iff.2 h2, Option.bind_some, h3] at h
              cases h
          | some x =>
            dsimp only
            constructor
            · rintro ⟨⟩
              obtain ⟨j, h1, h2⟩ := Option.bind_eq_some_iff.1 h
              exact ⟨_, rfl, .inr ⟨rfl, b, j, rfl, parse_iff.1 h1, h2⟩⟩
            · rintro ⟨_, hb, ⟨h, _⟩ | ⟨_, text, j, h1, h2, h3⟩⟩
              · cases h
              · cases hb; cases h1
                rw [parse_iff.2 h2, Option.bind_some, h3] at h
                cases h; rfl
    · rw [if_pos hs]
      constructor
      · intro h
        cases body with
        | none => cases h
        | some b =>
          dsimp only at h
          cases he : (parse b).bind RpcError.ofJson <;> rw [he] at h <;> cases h
      · rintro ⟨_, h, _⟩
        cases h
        exact absurd rfl hs

/-- C106. A request that is not answered is a "request failed" error with the reason as its cause. -/
theorem C106_not_answered (m : ClientMethod) (reason : Str) :
    ∃ e, readResponse m (.failed reason) = .error e ∧ e.name = S "WebrpcRequestFailed" ∧ e.code = -1 ∧ e.cause = reason :=
  ⟨_, rfl, rfl, rfl, rfl⟩

/-- C106. What a body says is one error. -/
theorem C106_one (j : Json) (e e' : RpcError) (h : IsWireError j e) (h' : IsWireError j e') : e = e' := by
  have := (ofJson_iff j e).2 h
  rw [(ofJson_iff j e').2 h'] at this
  cases this; rfl

/-- C106. An object without any member of an error, as other servers and proxies answer, is not reported as a bad response
but as an error without name and message, which `errors.Is` takes for the endpoint error. -/
theorem C106_anonymous (m : ClientMethod) (status : Int) (hs : status ≠ 200) (body : Str) (l : List (Str × Json))
    (hj : JsonText body (.obj l)) (hl : ∀ p ∈ l, ∀ k ∈ [S "error", S "code", S "msg", S "cause", S "status"], ¬ SameKey p.1 k) :
    readResponse m (.response status (some body)) = .error ⟨[], 0, [], [], 0⟩ ∧
      (⟨[], 0, [], [], 0⟩ : RpcError).is errEndpoint = true := by
  refine ⟨C106_error_said m status hs body _ _ hj ?_, by decide⟩
  have gen : ∀ {α : Type} (R : Json → α → Prop) (zero : α) (k : Str), k ∈ [S "error", S "code", S "msg", S "cause", S "status"] →
      LastSays l k R zero zero := fun R zero k hk =>
    ⟨fun p hp hps => absurd hps (hl p hp k hk), .inr ⟨rfl, fun p hp hps => absurd hps (hl p hp k hk)⟩⟩
  exact .obj (gen _ _ _ (by simp)) (gen _ _ _ (by simp)) (gen _ _ _ (by simp)) (gen _ _ _ (by simp)) (gen _ _ _ (by simp))

/-- C106. The answer of a proxy. -/
theorem C106_anonymous_example (m : ClientMethod) :
    readResponse m (.response 502 (some (S "{\"statusCode\": 502}"))) = .error ⟨[], 0, [], [], 0⟩ ∧
    readResponse m (.response 502 (some (S "<html>"))) = .error (errBadResponse.withCause (S "failed to unmarshal server error")) ∧
    readResponse m (.response 404 (some (S "{\"CODE\": 5, \"code\": null, \"Error\": \"Gone\", \"error\": \"Lost\", \"status\": 404}"))) =
      .error ⟨S "Lost", 5, [], [], 404⟩ := by
  have h1 : (parse (S "{\"statusCode\": 502}")).bind RpcError.ofJson = some ⟨[], 0, [], [], 0⟩ := by decide +kernel
  have h2 : (parse (S "<html>")).bind RpcError.ofJson = none := by decide +kernel
  have h3 : (parse (S "{\"CODE\": 5, \"code\": null, \"Error\": \"Gone\", \"error\": \"Lost\", \"status\": 404}")).bind RpcError.ofJson =
      some ⟨S "Lost", 5, [], [], 404⟩ := by decide +kernel
  refine ⟨?_, ?_, ?_⟩
  · unfold readResponse; dsimp only; rw [if_pos (by decide), h1]
  · unfold readResponse; dsimp only; rw [if_pos (by decide), h2]
  · unfold readResponse; dsimp only; rw [if_pos (by decide), h3]

end Verif.WireError
