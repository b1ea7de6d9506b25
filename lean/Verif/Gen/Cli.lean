import Verif.Gen.Generate
import Verif.Json.SchemaJson
/-!
# Model of the command webrpc-gen

Models `main`, `writeOutfile` and `setTargetFlagsUsage` of `/repo/cmd/webrpc-gen/main.go`, `Generate` of
`/repo/gen/gen.go`, `ParseSchemaFile` of `/repo/webrpc.go`, and the function `(*FlagSet).Parse` of Go's package `flag`
(not in /repo) which `main` calls at main.go:41.

Simplifications:
* Unix paths; `os.Args[1:]` are the arguments; messages on stderr are dropped, except for the help of a target.
* Files are named by their absolute paths without the first slash; writing a file works or not as a parameter says; an
  output directory that is missing is made.
* Templates are outside the model: `Ext.load` says what a target's templates are, and they are functions of the
  variables handed to them.  Go's source formatter, the dump of the `debug` target and SHA-1 are parameters too.
-/

namespace Verif.Cli
open Verif.Schema hiding Json
open Verif.Gen
open Verif.Json (GoPrint toJSON schemaHash parseSchemaJSON Loaded)
open Verif.Compile (Files compile clean splitSlash)

/-! ### Flags -/

/-- The values of the flags, with their defaults, main.go:16-30. -/
structure Flags where
  version : Bool := false
  schema : Str := []
  schemaVersion : Str := S "$WEBRPC_SCHEMA_VERSION"
  target : Str := []
  out : Str := []
  fmt : Bool := true
  refreshCache : Bool := false
  silent : Bool := false
  service : Str := []
  methodTreeShake : Bool := false
  ignore : Str := []
  matching : Str := []
deriving DecidableEq, Repr

/-- `strconv.ParseBool`, which Go's package `flag` uses for boolean flags. -/
def parseBool (v : Str) : Option Bool :=
  if [S "1", S "t", S "T", S "true", S "TRUE", S "True"].contains v then some true
  else if [S "0", S "f", S "F", S "false", S "FALSE", S "False"].contains v then some false
  else none

/-- The flags declared with `flags.Bool`, main.go:18, 23-25, 27. -/
def isBoolFlag (name : Str) : Bool :=
  [S "version", S "fmt", S "refreshCache", S "silent", S "methodTreeShake"].contains name

/-- `flag.Value.Set`: give a flag a value; `none` is an error. -/
def setFlag (f : Flags) (name value : Str) : Option Flags :=
  if name = S "version" then (parseBool value).map fun b => { f with version := b }
  else if name = S "schema" then some { f with schema := value }
  else if name = S "schemaVersion" then some { f with schemaVersion := value }
  else if name = S "target" then some { f with target := value }
  else if name = S "out" then some { f with out := value }
  else if name = S "fmt" then (parseBool value).map fun b => { f with fmt := b }
  else if name = S "refreshCache" then (parseBool value).map fun b => { f with refreshCache := b }
  else if name = S "silent" then (parseBool value).map fun b => { f with silent := b }
  else if name = S "service" then some { f with service := value }
  else if name = S "methodTreeShake" then (parseBool value).map fun b => { f with methodTreeShake := b }
  else if name = S "ignore" then some { f with ignore := value }
  else if name = S "match" then some { f with matching := value }
  else none

/-- The outcome of `flags.Parse`; the flags read so far are known when it fails, since `flags.Usage` looks at them. -/
inductive Parsed
  | ok (f : Flags)
  | help (f : Flags)
  | bad (f : Flags)
deriving DecidableEq, Repr

/-- The first part of `(*FlagSet).parseOne`: is the argument a flag at all? -/
inductive FlagText
  | stop
  | bad
  | flag (name : Str) (value : Option Str)
deriving DecidableEq, Repr

/-- The name and the value, if there is an equals sign. -/
def nameValue (s : Str) : FlagText :=
  match s with
  | [] => .bad
  | c :: _ =>
    if c = '-' ∨ c = '=' then .bad
    else match cut (S "=") s with
      | some (n, v) => .flag n (some v)
      | none => .flag s none

/-- The first part of `(*FlagSet).parseOne`. -/
def flagText : Str → FlagText
  | '-' :: '-' :: [] => .stop
  | '-' :: '-' :: s => nameValue s
  | '-' :: c :: s => nameValue (c :: s)
  | _ => .stop

/-- `(*FlagSet).Parse`: a boolean flag without a value is true; another flag without a value takes the next argument. -/
def parseFlags (f : Flags) : List Str → Parsed
  | [] => .ok f
  | a :: rest =>
    match flagText a with
    | .stop => .ok f
    | .bad => .bad f
    | .flag name value =>
      if !flagNames.contains name then (if name = S "h" ∨ name = S "help" then .help f else .bad f)
      else if isBoolFlag name then
        match setFlag f name (value.getD (S "true")) with
        | none => .bad f
        | some f => parseFlags f rest
      else match value, rest with
        | some v, rest => match setFlag f name v with
          | none => .bad f
          | some f => parseFlags f rest
        | none, [] => .bad f
        | none, v :: rest => match setFlag f name v with
          | none => .bad f
          | some f => parseFlags f rest

/-! ### Input -/

/-- Where the program runs. -/
structure World where
  /-- the working directory, an absolute path -/
  cwd : Str
  files : Files
  /-- the environment variable `WEBRPC_SCHEMA_VERSION`, empty if it is not set -/
  schemaVersionVar : Str
  /-- which files can be written -/
  writable : Str → Bool

/-- `filepath.Abs`. -/
def absPath (cwd path : Str) : Str :=
  if path.head? = some '/' then clean path else clean (cwd ++ '/' :: path)

/-- `filepath.Ext`: from the last dot of the last element. -/
def ext (path : Str) : Str :=
  let last := (splitSlash path).getLastD []
  if last.contains '.' then '.' :: (last.reverse.takeWhile (· != '.')).reverse else []

/-- The outcome of loading a schema. -/
inductive Input
  | ok (s : Schema)
  | err
  | panic
  | hangs
  | unmodelled

/-- `ParseSchemaFile`, webrpc.go:12-48. -/
def parseSchemaFile [GoUnicode] (w : World) (path : Str) : Input :=
  let abs := absPath w.cwd path
  let e := ext abs
  if e = S ".json" then
    match w.files.lookup (abs.drop 1) with
    | none => .err
    | some text => match parseSchemaJSON text with
      | .ok s => .ok s
      | .invalid _ => .err
      | .badJson => .err
      | .panic => .panic
      | .unmodelled => .unmodelled
  else if e = S ".ridl" then
    match compile w.files (abs.drop 1) with
    | .ok s => .ok s
    | .err _ => .err
    | .panic => .panic
    | .fuel => .hangs
  else .err

/-! ### Generating -/

/-- `TemplateVars`, gen.go:27-39 (`WebrpcErrors` is a constant). -/
structure Vars where
  schema : Schema
  schemaHash : Str
  webrpcGenVersion : Str
  command : Str
  header : Str := []
  target : Str
  opts : List (Str × Str)
  codeGen : Str := []
  codeGenVersion : Str := []
  codeGenName : Str := []

/-- Executing templates: a text, an error, or the end of the program with a status (the template function `exit`,
funcmap_flow.go:27-32). -/
inductive Rendered
  | text (code : Str)
  | fails
  | exits (status : Nat)

/-- Templates: their version, and what they make of the variables. -/
structure Templates where
  version : Str
  render : Vars → Rendered

/-- The outcome of `Generate`: the code and whether formatting it failed, an error, or the end of the program. -/
inductive Made
  | code (text : Str) (formatErr : Bool)
  | fails
  | exits (status : Nat)

/-- What is outside the model. -/
structure Ext where
  modLines : List Str
  /-- `loadTemplates`, for a place and the `-refreshCache` flag -/
  load : Target → Bool → Option Templates
  /-- `formatGoSource`, helpers.go:38-47; `none` is the error -/
  format : Str → Option Str
  /-- the dump of the `debug` target, gen.go:87-96 -/
  dump : Vars → Str
  sha1 : Str → Str
  /-- `webrpc.VERSION` -/
  version : Str
  /-- `getWebrpcGenCommand`, gen.go:130-136 -/
  command : Str

/-- The base path when none is given, gen.go:48-50 and main.go:62-65. -/
def defaultBasePath (s : Schema) : Schema :=
  if s.basePath = [] ∧ s.services ≠ [] then { s with basePath := S "/rpc/" } else s

/-- The variables as they are before templates are loaded, gen.go:58-66. -/
def baseVars (x : Ext) (s : Schema) (hash target : Str) (opts : List (Str × Str)) : Vars :=
  { schema := s, schemaHash := hash, webrpcGenVersion := x.version, command := x.command, target := target, opts := opts }

/-- The variables handed to templates of a given version, gen.go:106-112. -/
def fullVars (v : Vars) (version : Str) : Vars :=
  let cg := codeGenOf version
  { v with
    codeGen := (split (S "/") version).getLastD []
    codeGenName := cg.1
    codeGenVersion := cg.2
    header := header { webrpcGenVersion := v.webrpcGenVersion, codeGenName := cg.1, codeGenVersion := cg.2,
                       schemaName := v.schema.schemaName, schemaVersion := v.schema.schemaVersion,
                       schemaHash := v.schemaHash } }

/-- `Generate`, gen.go:41-128. -/
def generate [GoUnicode] [GoPrint] (x : Ext) (s : Schema) (target : Str) (opts : List (Str × Str)) (fmt refresh : Bool) : Made :=
  let s := defaultBasePath s
  match schemaHash x.sha1 s with
  | none => .fails
  | some hash =>
    let vars := baseVars x s hash target opts
    match resolve x.modLines target with
    | .json => match toJSON s with
      | some t => .code t false
      | none => .fails
    | .debug => .code (x.dump vars) false
    | place =>
      match x.load place refresh with
      | none => .fails
      | some t =>
        match t.render (fullVars vars t.version) with
        | .fails => .fails
        | .exits st => .exits st
        | .text code =>
          if fmt && isGolangTarget (oldTarget target) then
            match x.format code with
            | some c => .code c false
            | none => .code code true
          else .code code false

/-! ### The program -/

/-- What a run of the program leaves behind: the exit status, what it prints on stdout (the summary printed after
writing a file is left out), the file it writes, and the help of the target it prints on stderr. -/
structure Outcome where
  status : Nat
  stdout : Option Str := none
  wrote : Option (Str × Str) := none
  help : Option Str := none
deriving DecidableEq, Repr

/-- A run. -/
inductive Run
  | ends (o : Outcome)
  | crashes
  | hangs
  | unmodelled
deriving DecidableEq, Repr

/-- `flags.Usage`, main.go:262-277, and then exiting with `status`: the help of the target is printed, unless the
templates end the program.  The branches are as in the code. -/
def usage [GoUnicode] [GoPrint] (x : Ext) (f : Flags) (opts : List (Str × Str)) (status : Nat) : Outcome :=
  if f.target = [] then { status := status }
  else match generate x {} f.target opts false false with
    | .fails => { status := status, help := some [] }   -- `templateHelp.Code` of an output without code
    | .code _ _ => { status := status, help := some (S "failed to render -help: <nil>") }
    | .exits st => { status := st }

/-- The schema as it is after loading, main.go:62-74. -/
def prepare (w : World) (f : Flags) (s : Schema) : Schema :=
  let s := defaultBasePath s
  if f.schemaVersion = S "$WEBRPC_SCHEMA_VERSION" then
    if w.schemaVersionVar = [] then s else { s with schemaVersion := w.schemaVersionVar }
  else { s with schemaVersion := f.schemaVersion }

/-- `-methodTreeShake` and `-service`, main.go:83-89; `none` if tree shaking does not end within the bound. -/
def selectServices (n : Nat) (f : Flags) (s : Schema) : Option Schema :=
  let names := split (S ",") f.service
  let shaken := if f.methodTreeShake && f.service ≠ [] then treeShakeN n s names else some s
  shaken.map fun s => if f.service ≠ [] then matchServices s names else s

/-- `-ignore` and `-match`, main.go:91-115; `none` is an error. -/
def selectMethods (f : Flags) (s : Schema) : Option Schema :=
  if f.ignore ≠ [] ∧ f.matching ≠ [] then none
  else if f.ignore ≠ [] then (makeAnnotationsMap f.ignore).map (ignoreMethods s)
  else if f.matching ≠ [] then (makeAnnotationsMap f.matching).map (matchMethods s)
  else some s

/-- `writeOutfile`, main.go:216-241: the path that is written (an absolute path is left to the operating system, which
finds the same file as under the clean path). -/
def outPath (w : World) (out : Str) : Str := absPath w.cwd out

/-- After generating, main.go:129-164. -/
def output (w : World) (f : Flags) (code : Str) (formatErr : Bool) : Outcome :=
  if f.out = [] ∨ f.out = S "stdout" then { status := 0, stdout := some (code ++ ['\n']) }
  else if !w.writable (outPath w f.out) then { status := 1 }
  else { status := if f.silent then 0 else if formatErr then 1 else 0, wrote := some (outPath w f.out, code) }

/-- `main` after the schema is loaded, main.go:76-164. -/
def runSchema [GoUnicode] [GoPrint] (n : Nat) (w : World) (x : Ext) (f : Flags) (opts : List (Str × Str)) (s : Schema) : Run :=
  if f.target = [] then .ends { status := 1 }
  else match selectServices n f s with
    | none => .hangs
    | some s => match selectMethods f s with
      | none => .ends { status := 1 }
      | some s => match generate x s f.target opts f.fmt f.refreshCache with
        | .fails => .ends { status := 1 }
        | .exits st => .ends { status := st }
        | .code code formatErr => .ends (output w f code formatErr)

/-- `main`, main.go:32-164, with structs nested at most `n` deep when tree shaking. -/
def run [GoUnicode] [GoPrint] (n : Nat) (w : World) (x : Ext) (args : List Str) : Run :=
  match collectCliArgs args with
  | none => .ends { status := 1 }
  | some (cli, opts) => match parseFlags {} cli with
    | .bad f => .ends (usage x f opts 2)
    | .help f => .ends (usage x f opts 0)
    | .ok f =>
      if f.version then .ends { status := 0, stdout := some (S "webrpc-gen " ++ x.version ++ ['\n']) }
      else if f.schema = [] then .ends (usage x f opts 1)
      else match parseSchemaFile w f.schema with
        | .err => .ends { status := 1 }
        | .panic => .crashes
        | .hangs => .hangs
        | .unmodelled => .unmodelled
        | .ok s => runSchema n w x f opts (prepare w f s)

/-- The files afterwards. -/
def filesAfter (w : World) (o : Outcome) : Files :=
  match o.wrote with
  | none => w.files
  | some (p, c) => (p.drop 1, c) :: w.files

end Verif.Cli
