import Verif.Ridl.Graph
import Verif.Ridl.ParserStates
import Verif.Schema.Validate
import Verif.Compile.Paths
/-!
# Model of the RIDL compiler

Models `/repo/schema/ridl/ridl.go`: from a set of files to a validated schema.

Simplifications:
* A file system is a finite list of paths with their contents; `fs.ReadFile` fails on any other
  path.
* Go shares `*Type`, `*Error` and `*Service` objects between the schemas of an importing and an
  imported file; here the importing schema holds a copy with the same identity (`Ptr`).  The two
  can differ only in the trees of type expressions, and `Validate`, which runs last, computes these
  anew from their texts, and in objects modified by a local declaration of the same name, which
  makes `Validate` fail.
* Error texts are dropped, except for the import stack.
-/

namespace Verif.Compile
open Verif.Schema
open Verif.Ridl (Token Node DefNode ImportNode EnumNode StructNode ErrorNode ArgNode AnnNode MethodNode
  ServiceNode AliasNode Graph ParseResult parseDoc)

/-- Files: path and content. -/
abbrev Files := List (Str × Str)

/-- `for _, x := range xs { ... }` with an error exit and loop variables `s`. -/
def foldRes {α σ : Type} (f : σ → α → Res σ) : σ → List α → Res σ
  | s, [] => .ok s
  | s, x :: xs => (f s x).bind fun s' => foldRes f s' xs

/-- `TokenNode.String` of a possibly missing node: `invalidToken` has no text,
parser_node.go:164-176, 206-211. -/
def textOf : Option Token → Str
  | none => []
  | some t => t.val

/-! ### Selecting nodes, parser_node.go:62-140 -/

/-- `RootNode.Definitions`, parser_node.go:62-71. -/
def definitions (ns : List Node) : List DefNode := ns.filterMap fun | .defn n => some n | _ => none
/-- `RootNode.Imports`, parser_node.go:73-82. -/
def imports (ns : List Node) : List ImportNode := ns.filterMap fun | .import_ n => some n | _ => none
/-- `RootNode.Structs`, parser_node.go:84-93. -/
def structs (ns : List Node) : List StructNode := ns.filterMap fun | .struct n => some n | _ => none
/-- `RootNode.Errors`, parser_node.go:95-104. -/
def errors (ns : List Node) : List ErrorNode := ns.filterMap fun | .error n => some n | _ => none
/-- `RootNode.Enums`, parser_node.go:106-115. -/
def enums (ns : List Node) : List EnumNode := ns.filterMap fun | .enum n => some n | _ => none
/-- `RootNode.TypeAliases`, parser_node.go:117-126. -/
def aliases (ns : List Node) : List AliasNode := ns.filterMap fun | .alias n => some n | _ => none
/-- `RootNode.Services`, parser_node.go:128-137. -/
def services (ns : List Node) : List ServiceNode := ns.filterMap fun | .service n => some n | _ => none

/-! ### Definitions -/

/-- One main definition, ridl.go:136-163. -/
def applyDef (s : Schema) (d : DefNode) : Res Schema :=
  let key := d.left.val
  let value := textOf d.right
  if key = S "webrpc" then do
    Res.failIf (s.webrpcVersion ≠ []) .defDup
    .ok { s with webrpcVersion := value }
  else if key = S "name" then do
    Res.failIf (s.schemaName ≠ []) .defDup
    .ok { s with schemaName := value }
  else if key = S "basepath" then do
    Res.failIf (s.basePath ≠ []) .defDup
    .ok { s with basePath := value }
  else if key = S "version" then do
    Res.failIf (s.schemaVersion ≠ []) .defDup
    .ok { s with schemaVersion := value }
  else .err .unknownDef

/-! ### Imports -/

/-- `isImportAllowed`, ridl.go:417-427. -/
def isImportAllowed (name : Str) (whitelist : List Str) : Bool :=
  whitelist.isEmpty || whitelist.contains name

/-- Add the allowed elements that are not yet there, ridl.go:186-195. -/
def addNew {α : Type} (ptr : α → Ptr) (name : α → Str) (members : List Str) (acc xs : List α) : List α :=
  xs.foldl (fun acc x =>
    if !(acc.any fun y => ptr y = ptr x) && isImportAllowed (name x) members then acc ++ [x] else acc) acc

/-- Merge an imported schema, ridl.go:180-201.  Services are not checked for being there
already. -/
def takeImport (s m : Schema) (members : List Str) : Schema :=
  { s with
    types := addNew TypeDecl.ptr TypeDecl.name members s.types m.types
    errors := addNew ErrorDecl.ptr ErrorDecl.name members s.errors m.errors
    services := s.services ++ m.services.filter fun v => isImportAllowed v.name members }

/-! ### Declarations -/

/-- `parseComment`, ridl.go:475-481 (`strings.Split(comment, "\n")`). -/
def splitNewline : Str → List Str
  | [] => [[]]
  | c :: cs =>
    if c = '\n' then [] :: splitNewline cs
    else match splitNewline cs with
      | [] => [[c]]
      | x :: xs => (c :: x) :: xs

/-- `parseComment`, ridl.go:475-481. -/
def parseComment (c : Str) : List Str := if c = [] then [] else splitNewline c

/-- Give the objects made by one file their identities. -/
def numbered {α : Type} (path : Str) (mk : Ptr → α) (i : Nat) : α := mk (path, i)

/-- The types declared in a file, without their contents (1st pass), ridl.go:204-230. -/
def declaredTypes (path : Str) (ns : List Node) : List TypeDecl :=
  let mks : List (Ptr → TypeDecl) :=
    (aliases ns).map (fun n p =>
      { ptr := p, kind := S "alias", name := n.name.val, comments := parseComment n.comment }) ++
    (enums ns).map (fun n p => { ptr := p, kind := S "enum", name := n.name.val }) ++
    (structs ns).map (fun n p =>
      { ptr := p, kind := S "struct", name := n.name.val, comments := parseComment n.comment })
  mks.mapIdx fun i mk => mk (path, i)

/-- The services declared in a file, without their methods (1st pass), ridl.go:232-240. -/
def declaredServices (path : Str) (ns : List Node) : List Service :=
  (services ns).mapIdx fun i n =>
    { ptr := (path, i), name := n.name.val, comments := parseComment n.comment }

/-- Modify the object `find?` finds. -/
def updateFirst {α : Type} (p : α → Bool) (f : α → α) : List α → List α
  | [] => []
  | x :: xs => if p x then f x :: xs else x :: updateFirst p f xs

/-- Modify what `GetTypeByName` returns, which may be nil (ridl.go:246-250 and others). -/
def updateType [GoUnicode] (name : Str) (f : TypeDecl → TypeDecl) (s : Schema) : Res Schema :=
  match getTypeByName s.types name with
  | none => .err .noDefinition
  | some _ => .ok { s with types := updateFirst (fun t => toLower t.name = toLower name) f s.types }

/-- `if err := ParseVarTypeExpr(...); err != nil { return fmt.Errorf(...) }`: the error is
replaced. -/
def orErr {α : Type} (r : Res α) (e : SErr) : Res α :=
  match r with
  | .err _ => .err e
  | r => r

/-- The metas of a field or alias: one map with one entry per line, ridl.go:259-264, 349-354. -/
def metaOf (m : Token × Token) : Meta := [(m.1.val, Json.str m.2.val)]

/-- One type alias, ridl.go:243-265. -/
def resolveAlias [GoUnicode] (s : Schema) (n : AliasNode) : Res Schema := do
  let _ ← updateType n.name.val id s
  let vt ← orErr (parseExpr s.types n.aliasType.val) .aliasUnknown
  updateType n.name.val
    (fun d => { d with type := some vt, metas := d.metas ++ n.metas.map metaOf }) s

/-- One member of an enum, ridl.go:283-304 (`i` counts from zero, `strconv.Itoa(i)`). -/
def enumField (vt : VarType) (i : Nat) (d : DefNode) : Field :=
  let key := d.left.val
  let val := textOf d.right
  { name := key
    value := if val = [] then (if vt.expr = S "string" then key else (Nat.repr i).toList) else val
    comments := parseComment d.comment }

/-- One enum, ridl.go:268-305. -/
def resolveEnum [GoUnicode] (s : Schema) (n : EnumNode) : Res Schema := do
  let _ ← updateType n.name.val id s
  let vt ← orErr (parseExpr s.types n.enumType.val) .enumUnknown
  updateType n.name.val
    (fun d => { d with type := some vt, fields := d.fields ++ n.values.mapIdx (enumField vt) }) s

/-- Value of a decimal digit. -/
def digit? (c : Char) : Option Nat := if '0' ≤ c ∧ c ≤ '9' then some (c.toNat - 48) else none

/-- Value of a string of decimal digits. -/
def decimal? : Nat → Str → Option Nat
  | acc, [] => some acc
  | acc, c :: cs => match digit? c with
    | none => none
    | some d => decimal? (acc * 10 + d) cs

/-- `v, _ := strconv.ParseInt(s, 10, 32)` for `s` without a sign: a value that does not fit is
replaced by the largest one, a malformed number by 0; the error is ignored (ridl.go:310, 315). -/
def parseInt32 (s : Str) : Int :=
  if s = [] then 0
  else match decimal? 0 s with
    | none => 0
    | some n => if n ≤ 2147483647 then n else 2147483647

/-- One error, ridl.go:307-322.  (`line.message.String()` would panic without a message; the syntax
parser always sets one.) -/
def makeError (path : Str) (i : Nat) (n : ErrorNode) : Res ErrorDecl :=
  match n.message with
  | none => .panic
  | some m => .ok
    { ptr := (path, i)
      code := parseInt32 n.code.val
      name := n.name.val
      message := m.val
      httpStatus := match n.httpStatus with
        | none => 400
        | some t => parseInt32 t.val }

/-- `Res.each` with a running number. -/
def eachIdx {α β : Type} (f : Nat → α → Res β) : Nat → List α → Res (List β)
  | _, [] => .ok []
  | i, x :: xs => (f i x).bind fun y => (eachIdx f (i + 1) xs).bind fun ys => .ok (y :: ys)

/-- One field of a struct, ridl.go:333-356. -/
def makeField [GoUnicode] (ts : List TypeDecl) (d : DefNode) : Res Field := do
  let vt ← orErr (parseExpr ts (textOf d.right)) .structUnknown
  .ok { name := d.left.val, type := some vt, optional := d.optional
        comments := parseComment d.comment, metas := d.metas.map metaOf }

/-- One struct, ridl.go:324-357. -/
def resolveStruct [GoUnicode] (s : Schema) (n : StructNode) : Res Schema := do
  let _ ← updateType n.name.val id s
  let fs ← Res.each (makeField s.types) n.fields
  updateType n.name.val (fun d => { d with fields := d.fields ++ fs }) s

/-- `toLowerFirstChar`, ridl.go:501-509. -/
def toLowerFirst [GoUnicode] : Str → Str
  | [] => []
  | c :: cs => lowerChar c :: cs

/-- The normal form of `buildArgumentsList`, ridl.go:458-470. -/
def makeArg [GoUnicode] (ts : List TypeDecl) (a : ArgNode) : Res Argument := do
  let vt ← orErr (parseExpr ts (textOf a.argType)) .argUnknown
  .ok { name := textOf a.name, type := some vt, optional := a.optional }

/-- The succinct form of `buildArgumentsList`, ridl.go:433-455. -/
def succinctArg [GoUnicode] (ts : List TypeDecl) (structName : Str) : Res Argument :=
  match getTypeByName ts structName with
  | none => .err .succinctUnknown
  | some t => do
    Res.failIf (t.kind ≠ S "struct") .succinctKind
    let vt ← orErr (parseExpr ts t.name) .argUnknown
    .ok { name := toLowerFirst t.name, type := some vt, optional := false }

/-- `buildArgumentsList`, ridl.go:429-473. -/
def buildArgs [GoUnicode] (ts : List TypeDecl) (args : List ArgNode) : Res (List Argument × Bool) :=
  match args.map (·.inlineStruct) with
  | [some tok] => do
    let a ← succinctArg ts tok.val
    .ok ([a], true)
  | _ => do
    let xs ← Res.each (makeArg ts) args
    .ok (xs, false)

/-- Assignment to a Go map. -/
def mapSet {β : Type} (k : Str) (v : β) : List (Str × β) → List (Str × β)
  | [] => [(k, v)]
  | (k', v') :: r => if k' = k then (k, v) :: r else (k', v') :: mapSet k v r

/-- `buildAnnotations`, ridl.go:483-499. -/
def buildAnnotations (anns : List AnnNode) : List (Str × Annotation) :=
  anns.foldl (fun m a => mapSet a.annType.val { annotationType := a.annType.val, value := textOf a.value } m) []

/-- One method, ridl.go:363-396.  (`proxy` is not carried over.) -/
def makeMethod [GoUnicode] (ts : List TypeDecl) (m : MethodNode) : Res Method := do
  let ins ← buildArgs ts m.inputs
  let outs ← buildArgs ts m.outputs
  Res.failIf (ins.2 ≠ outs.2) .succinctMix
  .ok { name := m.name.val
        annotations := buildAnnotations m.annotations
        comments := parseComment m.comment
        succinct := ins.2 && outs.2
        streamInput := m.streamInput
        streamOutput := m.streamOutput
        inputs := ins.1
        outputs := outs.1
        errors := m.errors.map (·.val) }

/-- `serviceDef.Methods = methods`, ridl.go:400. -/
def setMethods (ms : List Method) (v : Service) : Service := { v with methods := ms }

/-- One service, ridl.go:360-401; assigning to a nil `serviceDef` would panic. -/
def resolveService [GoUnicode] (s : Schema) (n : ServiceNode) : Res Schema := do
  let ms ← Res.each (makeMethod s.types) n.methods
  match getServiceByName s.services n.name.val with
  | none => .panic
  | some _ =>
    let vs := updateFirst (fun v => toLower v.name = toLower n.name.val) (setMethods ms) s.services
    .ok { s with services := vs }

/-- Everything after the imports, ridl.go:203-403. -/
def declare [GoUnicode] (path : Str) (ns : List Node) (s : Schema) : Res Schema := do
  let s := { s with types := s.types ++ declaredTypes path ns
                    services := s.services ++ declaredServices path ns }
  let s ← foldRes resolveAlias s (aliases ns)
  let s ← foldRes resolveEnum s (enums ns)
  let es ← eachIdx (makeError path) 0 (errors ns)
  let s := { s with errors := s.errors ++ es }
  let s ← foldRes resolveStruct s (structs ns)
  foldRes resolveService s (services ns)

/-! ### Files -/

/-- What the parsers of one compilation share: the import graph and the cache, ridl.go:25-32. -/
structure Shared where
  graph : Graph Str
  cache : List (Str × Schema)

/-- The path an import refers to, ridl.go:162. -/
def importPath (path : Str) (n : ImportNode) : Str := joinPath (dir path) n.path.val

/-- `newImportError`, ridl.go:74-86; `stack` is the chain of files from the failing one up. -/
def importError (stack : List Str) : SErr → SErr
  | .inImport st e => .inImport st e
  | e => .inImport stack e

/-- `importParser` and the call of `Parse` on a file not in the cache, ridl.go:59-72, 165-172;
`rec` is `Parse` of the importing chain. -/
def importFile (rec : List Str → Str → Shared → Res (Schema × Shared)) (chain : List Str) (path ip : Str)
    (st : Shared) : Res (Schema × Shared) :=
  let g := (st.graph.addNode ip).addEdge path ip
  match g.isCircular? with
  | none => .fuel
  | some true => .err .circularImport
  | some false =>
    match rec chain ip { st with graph := g } with
    | .ok (m, st') => .ok (m, { st' with cache := (ip, m) :: st'.cache })
    | .err e => .err (importError (ip :: chain) e)
    | .panic => .panic
    | .fuel => .fuel

/-- Look up the cache, ridl.go:164-172. -/
def importSchema (rec : List Str → Str → Shared → Res (Schema × Shared)) (chain : List Str) (path ip : Str)
    (st : Shared) : Res (Schema × Shared) :=
  match st.cache.lookup ip with
  | some m => .ok (m, st)
  | none => importFile rec chain path ip st

/-- One import, ridl.go:161-201; `chain` is the file itself and the files importing it. -/
def importOne (rec : List Str → Str → Shared → Res (Schema × Shared)) (chain : List Str) (path : Str)
    (a : Schema × Shared) (n : ImportNode) : Res (Schema × Shared) := do
  let r ← importSchema rec chain path (importPath path n) a.2
  .ok (takeImport a.1 r.1 (n.members.map (·.val)), r.2)

/-- `fs.ReadFile` and the syntax parser, ridl.go:111-127.  A document on which the syntax parser
never returns gives `fuel`. -/
def readNodes (fs : Files) (path : Str) : Res (List Node) := do
  Res.failIf (!validPath path) .badPath
  match fs.lookup path with
  | none => .err .readFile
  | some src =>
    match parseDoc src with
    | .ok ns => .ok ns
    | .err _ _ _ _ => .err .syntaxError
    | .panic => .panic
    | .outOfFuel => .fuel

/-- `(*Parser).Parse` and `parse`, ridl.go:44-57 and 110-404; `parents` are the files importing this
one, nearest first; the first argument bounds the depth of imports. -/
def compileN [GoUnicode] (fs : Files) : Nat → List Str → Str → Shared → Res (Schema × Shared)
  | 0, _, _, _ => .fuel
  | n + 1, parents, path, st => do
    let ns ← readNodes fs path
    let s ← foldRes applyDef {} (definitions ns)
    let r ← foldRes (importOne (compileN fs n) (path :: parents) path) (s, st) (imports ns)
    let s ← declare path ns r.1
    let s ← validate s
    .ok (s, r.2)

/-- `NewParser(fsys, root, path).Parse()`, ridl.go:34-57: compile a file with all its imports.  The
depth of imports never exceeds the number of files (`C28`). -/
def compile [GoUnicode] (fs : Files) (path : Str) : Res Schema := do
  let r ← compileN fs (fs.length + 2) [] path { graph := Graph.new [path], cache := [] }
  .ok r.1

end Verif.Compile
