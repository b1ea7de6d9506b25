import Verif.Props.TsServer
import Verif.Props.Imports
import Verif.Schema.BigInt
/-!
# C96: the generated server of the example, and the RIDL file it is generated from

The model has the tables of `server.gen.ts` as literals.  Here they are computed from the text of the RIDL file with the model of
the compiler.
-/

namespace Verif.Ts
open Verif.Schema hiding Json Method
open Verif.Json Verif.Gen Verif.Spec Verif.TsSpec Verif.Props Verif.Values
open Verif.Compile

/-- `/repo/_examples/node-ts/service.ridl`, lines 1-68; no line end follows the last line. -/
def nodeLines : List Str := [
  S "webrpc = v1",
  S "",
  S "name = node-ts",
  S "version = v1.0.0",
  S "basepath = /v1",
  S "",
  S "service Example",
  S "  @deprecated:\"Use /health endpoint instead.\"",
  S "  - Ping(counter?: bigint) => ()",
  S "",
  S "  # GetUser returns a user by ID.",
  S "  - GetUser(userId: uint64) => (code: uint32, user: User)",
  S "",
  S "  # Get article by id.",
  S "  - GetArticle(GetArticleRequest) => (GetArticleResponse)",
  S "",
  S "struct User",
  S "  - ID: uint64",
  S "    + json = id",
  S "",
  S "  - username: string",
  S "    + json = USERNAME",
  S "",
  S "  - role: Kind",
  S "",
  S "  - meta: map<string,any>",
  S "",
  S "  - internalId: uint64",
  S "    + json = -",
  S "",
  S "  - balance: bigint",
  S "",
  S "  - createdAt?: timestamp",
  S "",
  S "  - extra: Extra",
  S "",
  S "enum Kind: uint32",
  S "  - USER",
  S "  - ADMIN",
  S "",
  S "struct Extra",
  S "  - info: string",
  S "  - amount: bigint",
  S "  - points: []bigint",
  S "",
  S "struct Page",
  S "  - num: uint32",
  S "",
  S "struct GetArticleRequest",
  S "  - articleId: uint32",
  S "    + go.field.name = ArticleID",
  S "  - byBN: bigint",
  S "",
  S "struct GetArticleResponse",
  S "  - title: string",
  S "  - content?: string",
  S "  - largeNum: bigint",
  S "",
  S "error 1000 Unauthorized     \"Unauthorized access\"                                HTTP 401",
  S "error 1001 PermissionDenied \"Permission denied\"                                  HTTP 403",
  S "error 1002 SessionExpired   \"Session expired\"                                    HTTP 403",
  S "error 1003 Geoblocked       \"Geoblocked region\"                                  HTTP 451",
  S "error 1004 RateLimited      \"Rate-limited. Please slow down.\"                    HTTP 429",
  S "error 1005 CorsDisallowed   \"CORS disallowed. JWT can't be used from a web app.\" HTTP 403",
  S "",
  S "# TODO:",
  S "# 1. add new type, GetFriend, without any bigints",
  S "# 2. add bigint to getUser req and response inline, check code gen, etc... user max:bigint / calc:bigint"]

/-- The files of the example. -/
def nodeFiles : Files := [(S "service.ridl", (nodeLines.intersperse ['\n']).flatten)]

/-- What a value of a type is in JavaScript: what `typeof` gives, or the name of a validator. -/
def checkText : VarType → Str
  | .leaf _ .string | .leaf _ .timestamp => S "string"
  | .leaf _ .bool => S "boolean"
  | .leaf _ .bigint => S "bigint"
  | .leaf _ .any | .leaf _ .null | .leaf _ .unknown => S "object"
  | .leaf _ _ => S "number"
  | .map _ _ _ => S "object"
  | .list _ t => checkText t ++ S "[]"
  | .struct _ n _ | .enum _ n _ | .alias _ n _ => n

/-- The name of a field in JSON. -/
def jsonName (f : Field) : Str :=
  match f.metas.findSome? (List.lookup (S "json")) with
  | some (Verif.Schema.Json.str s) => s
  | _ => f.name

/-- Every struct and enum has a validator, which wants every field that is not optional, under its JSON name and with its type. -/
def schemaChecks (s : Schema) : List (Str × List Check) :=
  (s.types.filter fun t => t.kind ≠ S "alias").map fun t => (t.name, t.fields.map fun f =>
    match f.type with
    | some v => ⟨jsonName f, !f.optional, checkText v⟩
    | none => ⟨f.name, true, S "number"⟩)

/-- The name of a request or response. -/
def messageName (m : Schema.Method) (as : List Argument) (suffix : Str) : Str :=
  match m.succinct, as with
  | true, [a] => (a.type.map checkText).getD []
  | _, _ => m.name ++ suffix

/-- A method of a server: names of its request and response; the arguments are checked one after the other, or as a whole (type, and
name in the message). -/
structure MethodFacts where
  name : Str
  req : Str
  resp : Str
  each : List Check
  whole : Option (Str × Str)
deriving DecidableEq

/-- What is generated for a schema with one service. -/
structure ServerFacts where
  base : Str
  service : Str
  methods : List MethodFacts
  validators : List (Str × List Check)
deriving DecidableEq

/-- What a schema demands of a method. -/
def schemaMethod (m : Schema.Method) : MethodFacts where
  name := m.name
  req := messageName m m.inputs (S "Request")
  resp := messageName m m.outputs (S "Response")
  each := if m.succinct then [] else m.inputs.map fun a => ⟨a.name, !a.optional, (a.type.map checkText).getD []⟩
  whole := if m.succinct then m.inputs.head?.map fun a => ((a.type.map checkText).getD [], a.name) else none

/-- What a schema with one service demands. -/
def schemaFacts (s : Schema) : Option ServerFacts :=
  match s.services with
  | [v] => some { base := s.basePath, service := v.name, methods := v.methods.map schemaMethod, validators := schemaChecks s }
  | _ => none

/-- What a server has. -/
def TsServer.facts (s : TsServer) : ServerFacts where
  base := s.base
  service := s.service
  methods := s.methods.map fun m => match m.checks with
    | .each as => ⟨m.name, m.req, m.resp, as, none⟩
    | .whole t l => ⟨m.name, m.req, m.resp, [], some (t, l)⟩
  validators := s.validators

/-- C96: the path, the service, the methods with what is checked before they are called and the validators of the example are those its
RIDL file demands, and so is its table of big integers, but for the order of the entries. -/
theorem C96_file : let _ := asciiOnly
    partOf (fun s => (schemaFacts s, (bigFields s false).map fun t => t.isPerm exampleServer.table)) (compile nodeFiles (S "service.ridl")) =
      some (some exampleServer.facts, some true) := by
  intro _
  decide +kernel

/-- What is checked of a type. -/
def typeChecks (t : TypeDecl) : List Check := t.fields.map fun f =>
  match f.type with
  | some v => ⟨jsonName f, !f.optional, checkText v⟩
  | none => ⟨f.name, true, S "number"⟩

theorem checks_lookup {s : Schema} (hn : (s.types.map (·.name)).Nodup) {t : TypeDecl} (ht : t ∈ s.types) (hk : t.kind ≠ S "alias") :
    (schemaChecks s).lookup t.name = some (typeChecks t) := by
  unfold schemaChecks
  change ((s.types.filter fun t => t.kind ≠ S "alias").map fun t => (t.name, typeChecks t)).lookup t.name = _
  generalize s.types = ts at *
  induction ts with
  | nil => simp at ht
  | cons u us ih =>
    simp only [List.map_cons, List.nodup_cons] at hn
    rcases List.mem_cons.1 ht with rfl | ht
    · rw [List.filter_cons_of_pos (by simpa using hk)]
      simp
    · have hne : t.name ≠ u.name := fun e => hn.1 (e ▸ List.mem_map_of_mem ht)
      by_cases hu : u.kind ≠ S "alias"
      · rw [List.filter_cons_of_pos (by simpa using hu), List.map_cons, List.lookup_cons]
        have : (t.name == u.name) = false := by simpa using hne
        rw [this]
        exact ih hn.2 ht
      · rw [List.filter_cons_of_neg (by simpa using hu)]
        exact ih hn.2 ht

section
variable [JsEngine]

/-- C96: what passes the validator of a struct of any schema: an object that has a member for each field that is not optional, under its
JSON name, and whose members pass the validators of the types of the fields. -/
theorem C96_struct_partial (s : Schema) (hn : (s.types.map (·.name)).Nodup) (t : TypeDecl) (ht : t ∈ s.types) (hk : t.kind = S "struct")
    (hj : t.name ∉ jsTypes) (hty : ∀ f ∈ t.fields, f.type ≠ none) (v : Js) :
    validateType (schemaChecks s) v t.name = .ok true ↔ (t.fields ≠ [] → IsObject v) ∧ ∀ f ∈ t.fields,
      (f.optional = false → ∃ x, (membersOf v).lookup (jsonName f) = some x) ∧
      ∀ x, (membersOf v).lookup (jsonName f) = some x → ∀ ty, f.type = some ty → validateType (schemaChecks s) x (checkText ty) = .ok true := by
  have hl := checks_lookup hn ht (by rw [hk]; decide)
  have hne : typeChecks t ≠ [] ↔ t.fields ≠ [] := by simp [typeChecks]
  have hcheck : ∀ f ∈ t.fields, ∃ ty, f.type = some ty ∧ (⟨jsonName f, !f.optional, checkText ty⟩ : Check) ∈ typeChecks t := by
    intro f hf
    cases hft : f.type with
    | none => exact absurd hft (hty f hf)
    | some ty =>
      refine ⟨ty, rfl, ?_⟩
      unfold typeChecks
      rw [List.mem_map]
      exact ⟨f, hf, by rw [hft]⟩
  rw [validate_iff]
  constructor
  · intro h
    cases h with
    | js h => exact absurd h hj
    | members _ h h0 h1 h2 =>
      rw [hl] at h
      cases h
      refine ⟨fun hf => h0 (hne.2 hf), fun f hf => ?_⟩
      obtain ⟨ty, e, hm⟩ := hcheck f hf
      refine ⟨fun ho => h1 _ hm (by simp [ho]), fun x hx ty' e' => ?_⟩
      rw [e] at e'
      cases e'
      rw [validate_iff]
      exact h2 _ hm x hx
  · rintro ⟨h0, h1⟩
    refine .members hj hl (fun h => h0 (hne.1 h)) (fun c hc hr => ?_) fun c hc x hx => ?_
    all_goals
      unfold typeChecks at hc
      obtain ⟨f, hf, rfl⟩ := List.mem_map.1 hc
      obtain ⟨ty, e, -⟩ := hcheck f hf
    · simp only [e] at hr ⊢
      exact (h1 f hf).1 (by simpa using hr)
    · simp only [e] at hx ⊢
      rw [← validate_iff]
      exact (h1 f hf).2 x hx ty e

/-- C96, false of the code: a value of an enum is a number or a text, and none of these passes the validator of an enum. -/
theorem C96_enums (s : Schema) (hn : (s.types.map (·.name)).Nodup) (t : TypeDecl) (ht : t ∈ s.types) (hk : t.kind = S "enum")
    (hj : t.name ∉ jsTypes) (hf : t.fields ≠ []) (v : Js) (hv : ¬ IsObject v) : validateType (schemaChecks s) v t.name ≠ .ok true := by
  rw [Ne, validate_iff]
  intro h
  cases h with
  | js h => exact hj h
  | members _ h h0 h1 h2 =>
    rw [checks_lookup hn ht (by rw [hk]; decide)] at h
    cases h
    exact hv (h0 (by simp [typeChecks, hf]))

end

/-- C96: the enum of the example. -/
theorem C96_enum_example [JsEngine] (text : Str) : validateType exampleValidators (.num text) (S "Kind") ≠ .ok true ∧
    validateType exampleValidators (.str text) (S "Kind") ≠ .ok true := by
  have key : ∀ v, ¬ IsObject v → validateType exampleValidators v (S "Kind") ≠ .ok true := by
    intro v hv
    rw [Ne, validate_iff]
    intro h
    cases h with
    | js h => exact absurd h (by decide)
    | members _ h h0 h1 h2 =>
      rw [show exampleValidators.lookup (S "Kind") = some [⟨S "USER", true, S "number"⟩, ⟨S "ADMIN", true, S "number"⟩] from rfl] at h
      cases h
      exact hv (h0 (by simp))
  exact ⟨key _ (by simp [IsObject]), key _ (by simp [IsObject])⟩

end Verif.Ts
