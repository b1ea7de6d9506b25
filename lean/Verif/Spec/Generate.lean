import Verif.Gen.Generate
/-!
# What the generator's front end is supposed to do
-/

namespace Verif.Spec
open Verif.Schema Verif.Gen

/-- `(k, v)` is the last pair with key `k` in the list. -/
def LastPair (l : List (Str × Str)) (k v : Str) : Prop :=
  ∃ l1 l2, l = l1 ++ (k, v) :: l2 ∧ ∀ p ∈ l2, p.1 ≠ k

/-- `CliArg a name value`: the argument `a` is `-name` or `-name=value` (any number of dashes). -/
inductive CliArg : Str → Str → Str → Prop
  | plain (dashes name : Str) : dashes ≠ [] → (∀ c ∈ dashes, c = '-') → name ≠ [] → name.head? ≠ some '-' →
      '=' ∉ name → CliArg (dashes ++ name) name []
  | value (dashes name value : Str) : dashes ≠ [] → (∀ c ∈ dashes, c = '-') → name ≠ [] → name.head? ≠ some '-' →
      '=' ∉ name → CliArg (dashes ++ name ++ S "=" ++ value) name value

/-- The flags of webrpc-gen itself. -/
def OwnFlag (name : Str) : Prop :=
  name ∈ ["version", "schema", "schemaVersion", "target", "out", "fmt", "refreshCache", "silent", "service",
    "methodTreeShake", "ignore", "match"].map String.toList

/-- A request for help. -/
def HelpFlag (name : Str) : Prop := name = "h".toList ∨ name = "help".toList

/-- `AnnText a name value`: the text `a` is `@name` or `@name:value`; anything may stand before the `@`. -/
inductive AnnText : Str → Str → Str → Prop
  | plain (pre name : Str) : '@' ∉ pre → ':' ∉ name → AnnText (pre ++ S "@" ++ name) name []
  | value (pre name value : Str) : '@' ∉ pre → ':' ∉ name → AnnText (pre ++ S "@" ++ name ++ S ":" ++ value) name value

/-- Item by item: the texts and what they say. -/
inductive AnnTexts : List Str → List (Str × Str) → Prop
  | nil : AnnTexts [] []
  | cons {a n v : Str} {r : List Str} {ps : List (Str × Str)} : AnnText a n v → AnnTexts r ps →
      AnnTexts (a :: r) ((n, v) :: ps)

/-- The generators whose templates are compiled into webrpc-gen. -/
def Supported (name : Str) : Prop :=
  name ∈ ["golang", "typescript", "javascript", "openapi", "kotlin", "dart"].map String.toList

/-- go.mod requires version `version` of the supported generator `name`. -/
def Requires (modLines : List Str) (name version : Str) : Prop :=
  Supported name ∧ ∃ line ∈ modLines, ∃ rest : Str, (rest = [] ∨ rest.head? = some ' ') ∧ ' ' ∉ version ∧
    line = S "\tgithub.com/webrpc/gen-" ++ name ++ S " " ++ version ++ rest

/-- Every generator is required in one version only. -/
def OneVersion (modLines : List Str) : Prop :=
  ∀ n v w, Requires modLines n v → Requires modLines n w → v = w

/-- The ways to name an embedded generator. -/
inductive Names (name version : Str) : Str → Prop
  | short : Names name version name
  | shortAt : Names name version (name ++ S "@" ++ version)
  | full : Names name version (S "github.com/webrpc/gen-" ++ name)
  | fullAt : Names name version (S "github.com/webrpc/gen-" ++ name ++ S "@" ++ version)

/-- The names used before webrpc-gen v0.7: they stand for version v0.6.0 of the generators. -/
inductive OldName : Str → Str → Prop
  | go : OldName (S "go") (S "github.com/webrpc/gen-golang@v0.6.0")
  | ts : OldName (S "ts") (S "github.com/webrpc/gen-typescript@v0.6.0")
  | js : OldName (S "js") (S "github.com/webrpc/gen-javascript@v0.6.0")

/-- `Means t u`: the target `t` stands for the target `u`. -/
def Means (t u : Str) : Prop := OldName t u ∨ ((∀ w, ¬ OldName t w) ∧ u = t)

end Verif.Spec
