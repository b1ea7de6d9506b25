import Verif.Gen.Cli
import Verif.Spec.Generate
import Verif.Spec.Usage
import Verif.Spec.Paths
/-!
# What the command webrpc-gen is supposed to do
-/

namespace Verif.Spec
open Verif.Schema hiding Json
open Verif.Gen Verif.Cli
open Verif.Compile (splitSlash)

/-! ### Flags -/

/-- The flags with a text value. -/
def TextFlag (name : Str) : Prop :=
  name ∈ ["schema", "schemaVersion", "target", "out", "service", "ignore", "match"].map String.toList

/-- The flags that are on or off. -/
def Switch (name : Str) : Prop :=
  name ∈ ["version", "fmt", "refreshCache", "silent", "methodTreeShake"].map String.toList

/-- The value of a flag with a text value. -/
def textValue (f : Flags) (name : Str) : Str :=
  if name = S "schema" then f.schema
  else if name = S "schemaVersion" then f.schemaVersion
  else if name = S "target" then f.target
  else if name = S "out" then f.out
  else if name = S "service" then f.service
  else if name = S "ignore" then f.ignore
  else if name = S "match" then f.matching
  else []

/-- The value of a switch. -/
def switchValue (f : Flags) (name : Str) : Bool :=
  if name = S "version" then f.version
  else if name = S "fmt" then f.fmt
  else if name = S "refreshCache" then f.refreshCache
  else if name = S "silent" then f.silent
  else if name = S "methodTreeShake" then f.methodTreeShake
  else false

/-- The texts for on and off. -/
inductive BoolText : Str → Bool → Prop
  | on (v : Str) : v ∈ ["1", "t", "T", "true", "TRUE", "True"].map String.toList → BoolText v true
  | off (v : Str) : v ∈ ["0", "f", "F", "false", "FALSE", "False"].map String.toList → BoolText v false

/-- One or two dashes. -/
def Dashes (d : Str) : Prop := d = "-".toList ∨ d = "--".toList

/-- `Settings args sets`: the arguments, in order, are `-name=value`, `-name` for a switch, or `-name value` for a flag
with a text value (also with two dashes); `sets` are the names and values. -/
inductive Settings : List Str → List (Str × Str) → Prop
  | nil : Settings [] []
  | text {d n v : Str} {r : List Str} {s : List (Str × Str)} : Dashes d → TextFlag n → Settings r s →
      Settings ((d ++ n ++ S "=" ++ v) :: r) ((n, v) :: s)
  | next {d n v : Str} {r : List Str} {s : List (Str × Str)} : Dashes d → TextFlag n → Settings r s →
      Settings ((d ++ n) :: v :: r) ((n, v) :: s)
  | switchTo {d n v : Str} {b : Bool} {r : List Str} {s : List (Str × Str)} : Dashes d → Switch n → BoolText v b →
      Settings r s → Settings ((d ++ n ++ S "=" ++ v) :: r) ((n, v) :: s)
  | switchOn {d n : Str} {r : List Str} {s : List (Str × Str)} : Dashes d → Switch n → Settings r s →
      Settings ((d ++ n) :: r) ((n, S "true") :: s)

/-- The flags have the values last given to them; the others have their defaults. -/
structure FlagsAre (sets : List (Str × Str)) (f : Flags) : Prop where
  text : ∀ n, TextFlag n → ∀ v, LastPair sets n v → textValue f n = v
  textDefault : ∀ n, TextFlag n → (∀ v, (n, v) ∉ sets) →
    textValue f n = if n = S "schemaVersion" then S "$WEBRPC_SCHEMA_VERSION" else []
  switch : ∀ n, Switch n → ∀ v, LastPair sets n v → BoolText v (switchValue f n)
  switchDefault : ∀ n, Switch n → (∀ v, (n, v) ∉ sets) → switchValue f n = decide (n = S "fmt")

/-! ### Selecting parts of a schema -/

/-- The items of a comma-separated list. -/
def Items (text : Str) (items : List Str) : Prop :=
  items ≠ [] ∧ (∀ i ∈ items, ',' ∉ i) ∧ text = join [','] items

/-- The method carries one of the annotations in the list (`@name` or `@name:value`); if a name is given more than once,
its last value counts. -/
def Asked (text : Str) (m : Method) : Prop :=
  ∃ items ps k v, Items text items ∧ AnnTexts items ps ∧ LastPair ps k v ∧ Carries m k v

/-- The service is chosen by `-service`. -/
def Chosen (f : Flags) (v : Service) : Prop := f.service = [] ∨ ∃ items, Items f.service items ∧ v.name ∈ items

/-- The method is kept by `-ignore` and `-match`. -/
def Kept (f : Flags) (m : Method) : Prop :=
  (f.ignore ≠ [] → ¬ Asked f.ignore m) ∧ (f.matching ≠ [] → Asked f.matching m)

/-- The type is kept by `-methodTreeShake`. -/
def KeptType (f : Flags) (s : Schema) (t : TypeDecl) : Prop :=
  f.methodTreeShake = true ∧ f.service ≠ [] → ∃ items, Items f.service items ∧ NeededBy s items t

open Classical in
/-- The schema code is generated from: the loaded one with a base path, the requested schema version, and the chosen
services, methods and types.  A list that a filter has emptied is nil. -/
noncomputable def picked (w : World) (f : Flags) (s : Schema) : Schema :=
  { s with
    basePath := if s.basePath = [] ∧ s.services ≠ [] then S "/rpc/" else s.basePath
    schemaVersion := if f.schemaVersion ≠ S "$WEBRPC_SCHEMA_VERSION" then f.schemaVersion
      else if w.schemaVersionVar ≠ [] then w.schemaVersionVar else s.schemaVersion
    types := s.types.filter fun t => decide (KeptType f s t)
    services := (s.services.filter fun v => decide (Chosen f v)).map fun v =>
      { v with methods := v.methods.filter (fun m => decide (Kept f m))
               nils := { v.nils with methods := v.nils.methods || decide (f.ignore ≠ [] ∨ f.matching ≠ []) } }
    nils := { s.nils with
      types := s.nils.types || decide (f.methodTreeShake = true ∧ f.service ≠ [])
      services := s.nils.services || decide (f.service ≠ []) } }

/-- At most one of `-ignore` and `-match` is given, and all its items have an `@`. -/
def FiltersOk (f : Flags) : Prop :=
  (f.ignore = [] ∨ f.matching = []) ∧
  ∀ text ∈ [f.ignore, f.matching], text ≠ [] → ∀ items, Items text items → ∀ i ∈ items, '@' ∈ i

/-- The command line gives the flags `f` and the template options `opts`. -/
def Command (args : List Str) (f : Flags) (opts : List (Str × Str)) : Prop :=
  ∃ own, collectCliArgs args = some (own, opts) ∧ ∃ sets, Settings own sets ∧ FlagsAre sets f

/-- The run generates code from the loaded schema `s`. -/
structure Generating [GoUnicode] (w : World) (args : List Str) (f : Flags) (opts : List (Str × Str)) (s : Schema) : Prop where
  command : Command args f opts
  version : f.version = false
  schema : f.schema ≠ []
  loaded : parseSchemaFile w f.schema = .ok s
  target : f.target ≠ []
  filters : FiltersOk f
  /-- tree shaking ends only on such schemas (C39) -/
  ends : f.methodTreeShake = true ∧ f.service ≠ [] → ¬ RecursiveArgs s

/-! ### Generating -/

/-- The target is a generator of Go code: `golang`, `go` or a path that ends in `gen-golang`, with or without a version. -/
def GolangTarget (target : Str) : Prop :=
  ∃ u name rest, Means target u ∧ u = name ++ rest ∧ '@' ∉ name ∧ (rest = [] ∨ rest.head? = some '@') ∧
    (name = "golang".toList ∨ name = "go".toList ∨ "gen-golang".toList <:+ name)

/-- What templates are told: the schema, its hash, the target, the options, the last element of the version of the
templates, taken apart at its first `@`, and a header naming the generators and the schema that the generated program
can take apart again. -/
structure Told [Verif.Json.GoPrint] (x : Ext) (target : Str) (opts : List (Str × Str)) (version : Str) (s : Schema) (v : Vars) : Prop where
  schema : v.schema = s
  hash : ∃ text, Verif.Json.toJSON s = some text ∧ v.schemaHash = x.sha1 text
  gen : v.webrpcGenVersion = x.version
  command : v.command = x.command
  target : v.target = target
  opts : v.opts = opts
  codeGen : ∃ pre, (pre = [] ∨ pre.getLast? = some '/') ∧ version = pre ++ v.codeGen ∧ '/' ∉ v.codeGen
  name : '@' ∉ v.codeGenName ∧
    (('@' ∉ v.codeGen ∧ v.codeGenName = v.codeGen ∧ v.codeGenVersion = []) ∨
      v.codeGen = v.codeGenName ++ '@' :: v.codeGenVersion)
  header : '@' ∉ s.schemaName → (∀ p ∈ [x.version, version, s.schemaName, s.schemaVersion, v.schemaHash], ';' ∉ p) →
    parseHeader v.header = some
      { webrpcGenVersion := x.version
        codeGenName := v.codeGenName
        codeGenVersion := if v.codeGenVersion = [] then S "unknown" else v.codeGenVersion
        schemaName := s.schemaName
        schemaVersion := if s.schemaVersion = [] then S "v0.0.0-" ++ v.schemaHash else s.schemaVersion }

/-! ### Paths and help -/

/-- Walking from the directory `d` (innermost first) along the elements of a path; above the root there is the root. -/
def walkRoot (d : List Str) : List Str → List Str
  | [] => d
  | e :: es =>
    if e = [] ∨ e = S "." then walkRoot d es
    else if e = S ".." then walkRoot d.tail es
    else walkRoot (e :: d) es

/-- The absolute path of a file or directory given by its elements, innermost first. -/
def absText (d : List Str) : Str := '/' :: Verif.Compile.joinSlash d.reverse

/-- The file a path stands for in the directory `d`. -/
def reached (d : List Str) (path : Str) : List Str := walkRoot (if path.head? = some '/' then [] else d) (splitSlash path)

/-- The name of the file ends so. -/
def Ends (d : List Str) (suffix : String) : Prop := ∃ stem r, d = (stem ++ suffix.toList) :: r

/-- The command line asks for help, after setting the flags to `f`. -/
def AsksHelp (args : List Str) (f : Flags) (opts : List (Str × Str)) : Prop :=
  ∃ own sets pre a post d n, collectCliArgs args = some (own, opts) ∧ own = pre ++ a :: post ∧ Settings pre sets ∧ FlagsAre sets f ∧
    Dashes d ∧ HelpFlag n ∧ (a = d ++ n ∨ ∃ v, a = d ++ n ++ S "=" ++ v)

end Verif.Spec
