import Verif.Gen.Funcs
/-!
# Model of the generator's front end

Models the version header (`/repo/gen/gen.go`), its parser in generated servers
(`/repo/tests/server/server.gen.go`), the built-in errors (`/repo/gen/errors.go`), target resolution
(`/repo/gen/gen.go`, `/repo/gen/embed.go`, `/repo/gen/template_source.go`, `/repo/gen/helpers.go`) and the
command line (`/repo/cmd/webrpc-gen/main.go`).
-/

namespace Verif.Gen
open Verif.Schema
open Verif.Compile (mapSet)

/-! ### The version header -/

/-- The fields of `TemplateVars` that go into the header, gen.go:27-39. -/
structure HeaderVars where
  webrpcGenVersion : Str
  codeGenName : Str
  codeGenVersion : Str
  schemaName : Str
  schemaVersion : Str
  schemaHash : Str
deriving DecidableEq

/-- `CodeGenName` and `CodeGenVersion` from the template version, gen.go:106-111. -/
def codeGenOf (tmplVersion : Str) : Str × Str :=
  let last := (split (S "/") tmplVersion).getLastD []
  match cut (S "@") last with
  | none => (last, [])
  | some x => x

/-- `webRPCGenHeader`, gen.go:138-156. -/
def header (t : HeaderVars) : Str :=
  let webrpcGenVersion := S "webrpc@" ++ t.webrpcGenVersion
  let codeGenVersion := if t.codeGenVersion = [] then S "unknown" else t.codeGenVersion
  let codeGen := t.codeGenName ++ S "@" ++ codeGenVersion
  let schemaVersion :=
    if t.schemaVersion = [] then t.schemaName ++ S "@v0.0.0-" ++ t.schemaHash
    else t.schemaName ++ S "@" ++ t.schemaVersion
  webrpcGenVersion ++ S ";" ++ codeGen ++ S ";" ++ schemaVersion

/-- `WebrpcGenVersions`, server.gen.go:943-949. -/
structure GenVersions where
  webrpcGenVersion : Str
  codeGenName : Str
  codeGenVersion : Str
  schemaName : Str
  schemaVersion : Str
deriving DecidableEq, Repr

/-- `parseWebrpcGenVersions`, server.gen.go:964-992; `none` is an error. -/
def parseHeader (h : Str) : Option GenVersions :=
  match split (S ";") h with
  | a :: b :: c :: _ =>
    match cut (S "@") a, cut (S "@") b, cut (S "@") c with
    | some (_, v), some (n, w), some (m, x) =>
      some { webrpcGenVersion := v, codeGenName := n, codeGenVersion := w, schemaName := m, schemaVersion := x }
    | _, _, _ => none
  | _ => none

/-! ### Built-in errors -/

/-- `WebrpcErrors`, errors.go:5-19 (all have their own identity, written here as the path `""`). -/
def webrpcErrors : List ErrorDecl :=
  [ ⟨([], 0), 0, S "WebrpcEndpoint", S "endpoint error", 400⟩,
    ⟨([], 1), -1, S "WebrpcRequestFailed", S "request failed", 400⟩,
    ⟨([], 2), -2, S "WebrpcBadRoute", S "bad route", 404⟩,
    ⟨([], 3), -3, S "WebrpcBadMethod", S "bad method", 405⟩,
    ⟨([], 4), -4, S "WebrpcBadRequest", S "bad request", 400⟩,
    ⟨([], 5), -5, S "WebrpcBadResponse", S "bad response", 500⟩,
    ⟨([], 6), -6, S "WebrpcServerPanic", S "server panic", 500⟩,
    ⟨([], 7), -7, S "WebrpcInternalError", S "internal error", 500⟩,
    ⟨([], 8), -8, S "WebrpcClientAborted", S "request aborted by client", 400⟩,
    ⟨([], 9), -9, S "WebrpcStreamLost", S "stream lost", 400⟩,
    ⟨([], 10), -10, S "WebrpcStreamFinished", S "stream finished", 200⟩ ]

/-! ### Targets -/

/-- `getOldTarget`, helpers.go:11-21. -/
def oldTarget (t : Str) : Str :=
  if t = S "go" then S "github.com/webrpc/gen-golang@v0.6.0"
  else if t = S "ts" then S "github.com/webrpc/gen-typescript@v0.6.0"
  else if t = S "js" then S "github.com/webrpc/gen-javascript@v0.6.0"
  else t

/-- The keys of `embeddedTargetFS`, embed.go:25-32. -/
def embeddedFS : List Str := [S "golang", S "typescript", S "javascript", S "openapi", S "kotlin", S "dart"]

/-- `EmbeddedTarget`, embed.go:40-45 (the file system is identified by the name). -/
structure Embedded where
  name : Str
  version : Str
  importTag : Str
deriving DecidableEq, Repr

/-- One line of go.mod, embed.go:52-68: the generator and its version. -/
def modLine (line : Str) : Option (Str × Str) :=
  if (S "\tgithub.com/webrpc/gen-").isPrefixOf line then
    match split (S " ") (line.drop (S "\tgithub.com/webrpc/gen-").length) with
    | name :: version :: _ => if embeddedFS.contains name then some (name, version) else none
    | _ => none
  else none

/-- The four keys of a generator, embed.go:70-75. -/
def embedKeys (name version : Str) : List Str :=
  [name, name ++ S "@" ++ version, S "github.com/webrpc/gen-" ++ name,
   S "github.com/webrpc/gen-" ++ name ++ S "@" ++ version]

/-- `init`, embed.go:47-85: `EmbeddedTargets` from the lines of go.mod (`bufio.Scanner` strips the line
ends). -/
def embeddedTargets (modLines : List Str) : List (Str × Embedded) :=
  (modLines.filterMap modLine).foldl (fun m x =>
    (embedKeys x.1 x.2).foldl (fun m k => mapSet k
      { name := x.1, version := x.2, importTag := S "github.com/webrpc/gen-" ++ x.1 ++ S "@" ++ x.2 } m) m) []

/-- `isLocalDir`, template_source.go:252-254. -/
def isLocalDir (t : Str) : Bool := hasPrefix t (S "/") || hasPrefix t (S ".")

/-- `inferRemoteTarget`, template_source.go:234-250. -/
def inferRemote [GoUnicode] (t : Str) : Str :=
  if isLocalDir t then t
  else if (split (S "/") t).length = 1 then S "github.com/webrpc/gen-" ++ toLower t
  else t

/-- Where the templates come from. -/
inductive Target
  | json
  | debug
  | embedded (e : Embedded)
  | local_ (dir : Str)
  | remote (url : Str)
deriving DecidableEq, Repr

/-- The choice made in `Generate`, gen.go:76-99, and `loadTemplates`, template_source.go:63-95. -/
def resolve [GoUnicode] (modLines : List Str) (target : Str) : Target :=
  if target = S "json" then .json
  else if target = S "debug" then .debug
  else
    let t := oldTarget target
    match (embeddedTargets modLines).lookup t with
    | some e => .embedded e
    | none => if isLocalDir t then .local_ t else .remote (inferRemote t)

/-- `isGolangTarget`, helpers.go:23-35. -/
def isGolangTarget (target : Str) : Bool :=
  let t := match cut (S "@") target with
    | some (a, _) => a
    | none => target
  t = S "golang" || t = S "go" || hasSuffix t (S "gen-golang")

/-! ### The command line -/

/-- The names given to `flags`, main.go:17-30. -/
def flagNames : List Str :=
  [S "version", S "schema", S "schemaVersion", S "target", S "out", S "fmt", S "refreshCache", S "silent",
   S "service", S "methodTreeShake", S "ignore", S "match"]

/-- Name and value of an argument, main.go:189-193. -/
def argParts (arg : Str) : Str × Str :=
  match cut (S "=") arg with
  | some (n, v) => (n, v)
  | none => (arg, [])

/-- One round of `collectCliArgs`, main.go:187-211; `none` is the error. -/
def collectStep (st : List Str × List (Str × Str)) (arg : Str) : Option (List Str × List (Str × Str)) :=
  let (name, value) := argParts arg
  if !hasPrefix name (S "-") then none
  else
    let name := name.dropWhile (· == '-')
    if name = [] then none
    else if flagNames.contains name then some (st.1 ++ [arg], st.2)
    else if name = S "h" ∨ name = S "help" then some (st.1 ++ [arg], mapSet (S "help") [] st.2)
    else some (st.1, mapSet name value st.2)

/-- The loop of `collectCliArgs`, main.go:184-214. -/
def collectLoop : List Str × List (Str × Str) → List Str → Option (List Str × List (Str × Str))
  | st, [] => some st
  | st, a :: r => match collectStep st a with
    | none => none
    | some st => collectLoop st r

/-- `collectCliArgs`, main.go:184-214. -/
def collectCliArgs (args : List Str) : Option (List Str × List (Str × Str)) := collectLoop ([], []) args

/-- The loop of `makeAnnotationsMap`, main.go:170-180; `none` is the error. -/
def annLoop : List (Str × Str) → List Str → Option (List (Str × Str))
  | m, [] => some m
  | m, a :: r => match cut (S "@") a with
    | none => none
    | some (_, full) => match cut (S ":") full with
      | none => annLoop (mapSet full [] m) r
      | some (n, v) => annLoop (mapSet n v m) r

/-- `makeAnnotationsMap`, main.go:167-183. -/
def makeAnnotationsMap (s : Str) : Option (List (Str × Str)) := annLoop [] (split (S ",") s)

end Verif.Gen
