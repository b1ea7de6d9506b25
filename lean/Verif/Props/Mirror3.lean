import Verif.Props.Mirror2
/-!
# C103, C104: cases that meet the hypotheses, and the cases where values change
-/

namespace Verif.Ts
open Verif.Schema hiding Json Method
open Verif.Json Verif.Gen Verif.TsSpec Verif.Props Verif.Rpc Verif.RpcSpec Verif.Values
open Verif.Spec hiding FieldDecl

/-- The Go declarations for `bankSchema`. -/
def bankDecls : Decls where
  enums := []
  structs := [(S "Account", [fld (S "id") .string, fld (S "balance") .big]),
    (S "Bank", [fld (S "accounts") (.list (.ref (S "Account")))])]

theorem bankDecls_ok : WellDeclared bankDecls where
  names := let _ := wholeFloats; enums_named (P := fun l => (l.map (·.1)).Pairwise (· ≠ ·)) .nil (by decide +kernel)
  values := let _ := wholeFloats; enums_named (P := fun l => (l.map (·.2)).Pairwise (· ≠ ·)) .nil (by decide +kernel)
  tags := let _ := wholeFloats; structs_named (P := fun l => (l.filterMap (·.tag)).Pairwise (· ≠ ·)) .nil (by decide +kernel)

/-- The first type of the schema. -/
theorem bank_account : Declares bankSchema.types ⟨[], 1⟩ (bankSchema.types[0]'(by decide)) := ⟨[], _, rfl, rfl, nofun⟩

theorem bank_structs : StructsFor bankSchema.types bankDecls := by
  intro t ht _ g hg tag htag
  have ht' := ht
  simp only [bankSchema, List.mem_cons, List.not_mem_nil, or_false] at ht
  rcases ht with rfl | rfl
  · have hfields : bankDecls.fields (S "Account") = [fld (S "id") .string, fld (S "balance") .big] := rfl
    rw [show (_ : TypeDecl).name = S "Account" from rfl, hfields] at hg
    simp only [List.mem_cons, List.not_mem_nil, or_false] at hg
    rcases hg with rfl | rfl
    · cases htag
      refine ⟨⟨_, List.mem_cons_self .., by decide, by simp⟩, ?_⟩
      intro f hf v hn hv
      simp only [List.mem_cons, List.not_mem_nil, or_false] at hf
      rcases hf with rfl | rfl
      · cases hv; exact .core rfl
      · exact absurd hn (by decide)
    · cases htag
      refine ⟨⟨_, List.mem_cons_of_mem _ (List.mem_cons_self ..), by decide, by simp⟩, ?_⟩
      intro f hf v hn hv
      simp only [List.mem_cons, List.not_mem_nil, or_false] at hf
      rcases hf with rfl | rfl
      · exact absurd hn (by decide)
      · cases hv; exact .core rfl
  · have hfields : bankDecls.fields (S "Bank") = [fld (S "accounts") (.list (.ref (S "Account")))] := rfl
    rw [show (_ : TypeDecl).name = S "Bank" from rfl, hfields] at hg
    simp only [List.mem_cons, List.not_mem_nil, or_false] at hg
    subst hg
    cases htag
    refine ⟨⟨_, List.mem_cons_self .., by decide, by simp⟩, ?_⟩
    intro f hf v hn hv
    simp only [List.mem_cons, List.not_mem_nil, or_false] at hf
    subst hf
    cases hv
    exact .list (.struct bank_account rfl)

/-- A bank with an account whose balance is beyond 64 bits. -/
def oneAccount : List GoVal := [.list [.ptr (.struct [.str (S "17"), .big (-123456789012345678901234567890)])]]

/-- C103. A case that meets the hypotheses: the bank is sent from Go to TypeScript, where it has its types, and from there
back to Go. -/
theorem C103_example (c : TsClient) (hc : c.table = bigFields bankSchema false) :
    let _ := exEngine; let _ := wholeFloats
    ∃ j data l text j' vals', encodePayload bankDecls (bankDecls.fields (S "Bank")) oneAccount = some j ∧
      jsonParse (print ⟨false, true⟩ 0 j) = some data ∧ c.decode (S "Bank") data = .ok (.obj l) ∧
      MirrorsFields bankDecls (bankDecls.fields (S "Bank")) oneAccount l ∧ TsMembers bankDecls (bankDecls.fields (S "Bank")) l ∧
      stringify (.obj l) = some text ∧ JsonText text j' ∧ decodePayload bankDecls (bankDecls.fields (S "Bank")) j' = some vals' ∧
      deepEqualList oneAccount vals' = true := by
  let _ := exEngine
  let _ := wholeFloats
  let _ := asciiOnly
  have hb : bankDecls.fields (S "Bank") = [fld (S "accounts") (.list (.ref (S "Account")))] := rfl
  have ha : bankDecls.fields (S "Account") = [fld (S "id") .string, fld (S "balance") .big] := rfl
  have htags := bankDecls_ok.tags (S "Bank")
  have hcar : CarriedFields bankDecls (bankDecls.fields (S "Bank")) oneAccount := by
    rw [hb]
    refine plainField (.list (by decide) fun v hv => ?_) .nil
    simp only [List.mem_cons, List.not_mem_nil, or_false] at hv
    subst hv
    refine .ref ?_
    rw [ha]
    exact plainField (.str _) (plainField (.big _) .nil)
  have hex : ∀ v ∈ oneAccount, Exact v := by
    intro v hv
    simp only [oneAccount, List.mem_cons, List.not_mem_nil, or_false] at hv
    subst hv
    refine .list fun v hv => ?_
    simp only [List.mem_cons, List.not_mem_nil, or_false] at hv
    subst hv
    refine .ptr (.struct fun v hv => ?_)
    simp only [List.mem_cons, List.not_mem_nil, or_false] at hv
    rcases hv with rfl | rfl
    · exact .str _
    · exact .big _
  have hfill : FilledFields bankDecls (bankDecls.fields (S "Bank")) oneAccount := by
    rw [hb]
    refine .cons (.list fun v hv => ?_) .nil
    simp only [List.mem_cons, List.not_mem_nil, or_false] at hv
    subst hv
    refine .ref ?_
    rw [ha]
    exact .cons (.str _) (.cons (.big _) .nil)
  have hmem : MembersFor bankSchema.types ((bankSchema.types[1]'(by decide)).fields.filterMap fun f => f.type.map (jsonNameOf f, ·))
      (bankDecls.fields (S "Bank")) := by
    rw [hb]
    intro f hf tag htag
    simp only [List.mem_cons, List.not_mem_nil, or_false] at hf
    subst hf
    cases htag
    exact ⟨.list (S "[]Account") (.struct (S "Account") (S "Account") ⟨[], 1⟩), by decide +kernel, .list (.struct bank_account rfl)⟩
  obtain ⟨j, data, l, e1, -, e2, -, e3, e4⟩ := C103_to_ts_partial bankSchema bankSchema bank_valid (by unfold DistinctObjects; decide) false
    bank_findable c hc (S "Bank") _ (.struct (bankSchema.types[1]'(by decide)) (List.getElem_mem _) rfl) bankDecls_ok bank_structs htags hmem hcar hex
  obtain ⟨text, j', vals', k1, k2, k3, k4⟩ := C103_to_go bankDecls_ok htags e4 (List.Perm.refl l)
  exact ⟨j, data, l, text, j', vals', e1, e2, e3, e4, C103_conforms_partial e4 hfill, k1, k2, k3, k4⟩

/-- The service of the bank in Go. -/
def ledgerTotal : MethodCode :=
  ⟨S "total", ⟨.list [fld (S "id") .string], .list [fld (S "sums") (.list .big)]⟩, []⟩

@[inherit_doc ledgerTotal]
def ledgerCode : ServiceCode := ⟨S "Ledger", S "/rpc/Ledger/", [ledgerTotal]⟩

/-- The TypeScript client of the bank. -/
def bankClient : TsClient :=
  { hostname := S "http://localhost:3000//", path := S "/rpc/Ledger/", errors := builtinClasses, header := S "webrpc@v1"
    table := bigFields bankSchema false }

/-- C104. A case that meets the hypotheses: `total({id: "17"})`, with an implementation that returns a sum beyond 64 bits. -/
theorem C104_example : let _ := exEngine; let _ := wholeFloats; let _ := asciiOnly
    let impl : Impl := fun _ _ => .results [.list [.big (10 ^ 30), .big (-1)]]
    let handler := ledgerCode.handler bankDecls (S "webrpc@v1") impl {}
    let m : TsMethod := ⟨S "total", S "totalResponse"⟩
    let origin := S "http://localhost:3000"
    ∃ r args out, bankClient.request m (some (.obj [(S "id", .str (S "17"))])) [] = .ok r ∧
      deepEqualList [.str (S "17")] args = true ∧
      served bankDecls ledgerCode (handler (goRequest origin r)).1 = [(S "total", args)] ∧
      bankClient.call m (some (.obj [(S "id", .str (S "17"))])) [] (overGo origin handler) = .ok (.obj out) ∧
      MirrorsFields bankDecls [fld (S "sums") (.list .big)] [.list [.big (10 ^ 30), .big (-1)]] out := by
  intro e1 e2 e3 impl handler m origin
  have hw : Wired bankClient m [] origin ledgerCode ledgerTotal := by
    refine ⟨⟨2, by decide⟩, by decide, rfl, rfl, ?_, by simp, by simp⟩
    rw [ledgerCode, List.find?_cons_of_pos (by simp)]
  obtain ⟨r, args, h1, h2, h3⟩ := C104_call_partial bankSchema bankSchema bank_valid (by unfold DistinctObjects; decide) false bank_findable
    bankClient rfl builtin_distinct bankDecls_ok bank_structs m [] origin ledgerCode ledgerTotal hw (S "webrpc@v1") impl {}
    [.str (S "17")] [fld (S "id") .string] [.str (S "17")] (.list _ _) (by decide) _ [(S "id", .str (S "17"))]
    (.present rfl nofun (.str _) .nil) (List.Perm.refl _)
  obtain ⟨k1, k2⟩ := h3 nofun
  obtain ⟨out, k3, k4⟩ := k2 _ [fld (S "sums") (.list .big)] [.list [.big (10 ^ 30), .big (-1)]] _ rfl (.list _ _)
    (.response (bankSchema.services[0]'(by decide)) (((bankSchema.services[0]'(by decide)).methods)[0]'(by decide)) (List.getElem_mem _) (List.getElem_mem _) rfl)
    (by
      intro f hf tag htag
      simp only [List.mem_cons, List.not_mem_nil, or_false] at hf
      subst hf
      cases htag
      exact ⟨.list (S "[]bigint") (.leaf (S "bigint") .bigint), by decide +kernel, .list (.core rfl)⟩)
    (by decide)
    (plainField (.list (by decide) fun v hv => by
      simp only [List.mem_cons, List.not_mem_nil, or_false] at hv
      rcases hv with rfl | rfl <;> exact .big _) .nil)
    (fun v hv => by
      simp only [List.mem_cons, List.not_mem_nil, or_false] at hv
      subst hv
      refine .list fun v hv => ?_
      simp only [List.mem_cons, List.not_mem_nil, or_false] at hv
      rcases hv with rfl | rfl <;> exact .big _)
  exact ⟨r, args, out, h1, h2, k1, k3, k4⟩

/-- An engine that rounds 2⁵³ + 1, as all engines do. -/
@[instance_reducible] def roundingEngine : JsEngine :=
  { canon := fun t => if t = intText (2 ^ 53 + 1) then intText (2 ^ 53) else t
    canon_int := fun i hi => by
      by_cases h : intText i = intText (2 ^ 53 + 1)
      · have := intText_inj h
        omega
      · rw [if_neg h]
    canon_num := fun t h => by
      by_cases e : t = intText (2 ^ 53 + 1)
      · rw [if_pos e]; exact Or.inl (by have := nums_int (2 ^ 53); rwa [Nums] at this)
      · rw [if_neg e]; exact Or.inl h
    canon_idem := fun t _ => by
      by_cases e : t = intText (2 ^ 53 + 1)
      · rw [if_pos e, if_neg (by intro h; have := intText_inj h; omega)]
      · rw [if_neg e, if_neg e]
    syntaxError := fun _ => S "Unexpected token", typeError := fun k => S "Cannot read properties of null: " ++ k }

/-- C103, why integers must be small: 2⁵³ + 1 in a `uint64` arrives as 2⁵³. -/
theorem C103_rounded_example : let _ := roundingEngine; let _ := wholeFloats
    ∃ j, encode bankDecls (.uint 64) (.int (2 ^ 53 + 1)) = some j ∧ jsonParse (print ⟨false, true⟩ 0 j) = some (.num (intText (2 ^ 53))) :=
  let _ := roundingEngine
  let _ := wholeFloats
  C103_rounded bankDecls 64 (2 ^ 53 + 1) _ (by show (if _ then _ else _) = _; rw [if_pos rfl])

/-- `GetArticleResponse` of node-ts/server-go/example.gen.go:136-140 (the TypeScript member is `content?: string`,
webapp/client.gen.ts:74). -/
def articleFields : List FieldDecl := [fld (S "title") .string, fld (S "content") (.ptr .string), fld (S "largeNum") .big]

/-- C103, why nil must not be sent: an article without content arrives with the member `content: null`, although TypeScript
is told that it is a string or not there. -/
theorem C103_null_example : let _ := exEngine; let _ := wholeFloats
    let vals := [GoVal.str (S "News"), .nil, .big 5]
    let l := [(S "title", Js.str (S "News")), (S "content", .null), (S "largeNum", .big 5)]
    (∃ j, encodePayload bankDecls articleFields vals = some j ∧ jsonParse (print ⟨false, true⟩ 0 j) = some (.obj (wireMembers l))) ∧
      MirrorsFields bankDecls articleFields vals l ∧ ¬ TsMembers bankDecls articleFields l := by
  let _ := exEngine
  let _ := wholeFloats
  refine ⟨⟨.obj [(S "title", .str (S "News")), (S "content", .null), (S "largeNum", .str (S "5"))], rfl, ?_⟩, ?_, ?_⟩
  · rw [jsonParse_print (by
      simp only [Nums, NumsMembers, and_true, true_and]
      exact ⟨⟨true, S "News", rfl⟩, ⟨true, S "5", rfl⟩⟩) true]; rfl
  · exact .present rfl nofun (.str _) (.present rfl nofun (.nil (.ptr _)) (.present rfl nofun (.big _) .nil))
  · intro h
    have key : ∀ ms, TsMembers bankDecls [fld (S "content") (.ptr .string), fld (S "largeNum") .big] ms →
        ms ≠ [(S "content", .null), (S "largeNum", .big 5)] := by
      rintro ms h rfl
      cases h with
      | hidden h1 _ => cases h1
      | missing _ h =>
        cases h with
        | hidden h1 _ => cases h1
        | missing h _ => rcases h with h | ⟨t, h⟩ <;> cases h
        | present h1 _ _ => exact absurd h1 (by decide)
      | present _ h _ => exact (C103_null (d := bankDecls) (t := .ptr .string) (.ptr _) (by simp [base])).2 h
    cases h with
    | hidden h1 _ => cases h1
    | missing h _ => rcases h with h | ⟨t, h⟩ <;> cases h
    | present _ _ h => exact key _ h rfl

end Verif.Ts
