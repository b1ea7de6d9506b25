import Verif.Gen.Strings
/-!
# The `Webrpc` header

`VersionFromHeader` of the generated Go code (`_examples/node-ts/server-go/example.gen.go:908-961`, the same text in every
generated Go file) and of the generated TypeScript code (`_examples/node-ts/server/server.gen.ts:671-721`, the same text
in every generated TypeScript file).
-/

namespace Verif.Rpc
open Verif.Schema (Str S)
open Verif.Gen

/-- `WebrpcGenVersions`, example.gen.go:912-918, server.gen.ts:675-681. -/
structure GenVersions where
  webrpcGen : Str
  codeGenName : Str
  codeGen : Str
  schemaName : Str
  schema : Str
deriving DecidableEq

/-- `parseWebrpcGenVersions` in Go, example.gen.go:933-961. -/
def goParseVersions (header : Str) : Except Str GenVersions :=
  match split (S ";") header with
  | a :: b :: c :: _ =>
    match cut (S "@") a with
    | none => .error (S "webrpc gen version could not be parsed from: " ++ a)
    | some (_, webrpcGen) =>
      match cut (S "@") b with
      | none => .error (S "tmplTarget and tmplVersion could not be parsed from: " ++ b)
      | some (target, version) =>
        match cut (S "@") c with
        | none => .error (S "schema name and schema version could not be parsed from: " ++ c)
        | some (schemaName, schemaVersion) => .ok ⟨webrpcGen, target, version, schemaName, schemaVersion⟩
  | _ => .error (S "expected at least 3 parts while parsing webrpc header: " ++ header)

/-- `VersionFromHeader` in Go, example.gen.go:920-931; `none`: the header is missing (`http.Header.Get` returns ""). -/
def goVersionFromHeader (h : Option Str) : Except Str GenVersions :=
  let text := h.getD []
  if text = [] then .error (S "header is empty or missing")
  else match goParseVersions text with
    | .error e => .error (S "webrpc header is invalid: " ++ e)
    | .ok v => .ok v

/-- The empty answer of the TypeScript function, server.gen.ts:686-692, 701-707. -/
def noVersions : GenVersions := ⟨[], [], [], [], []⟩

/-- `const [x, y] = part.split("@")` with `x ?? ""` and `y ?? ""`, server.gen.ts:710-720. -/
def firstTwo (part : Str) : Str × Str :=
  let l := split (S "@") part
  (l[0]?.getD [], l[1]?.getD [])

/-- `parseWebrpcGenVersions` in TypeScript, server.gen.ts:698-721. -/
def tsParseVersions (header : Str) : GenVersions :=
  match split (S ";") header with
  | a :: b :: c :: _ =>
    ⟨(firstTwo a).2, (firstTwo b).1, (firstTwo b).2, (firstTwo c).1, (firstTwo c).2⟩
  | _ => noVersions

/-- `VersionFromHeader` in TypeScript, server.gen.ts:683-696; `none`: `headers.get` returns `null`. -/
def tsVersionFromHeader (h : Option Str) : GenVersions :=
  match h with
  | none => noVersions
  | some [] => noVersions
  | some text => tsParseVersions text

/-- The `WebrpcHeaderValue`s in /repo: node-ts/server-go/example.gen.go:910, tests/server/server.gen.go:941 (and
tests/client/client.gen.go:591), webrpc-streaming/proto/chat.gen.go:845, golang-imports/api.gen.go:724,
hello-webrpc/server/hello_api.gen.go:571, golang-basics/example.gen.go:1162 (and admin, internal),
webrpc-streaming/webapp/src/rpc.gen.ts:533, node-ts/server/server.gen.ts:673 (and server-hono, webapp),
hello-webrpc/webapp/client.gen.ts:421. -/
def headerValues : List Str :=
  [S "webrpc@v0.30.0;gen-golang@unknown;node-ts@v1.0.0",
   S "webrpc;gen-golang;Test@v1.0.0",
   S "webrpc;gen-golang;webrpc-sse-chat@v1.0.0",
   S "webrpc;gen-golang;example-api-service@v1.0.0",
   S "webrpc;gen-golang;hello-webrpc@v1.0.0",
   S "webrpc;gen-golang;example@v1.0.0",
   S "webrpc;gen-typescript;webrpc-sse-chat@v1.0.0",
   S "webrpc;gen-typescript;node-ts@v1.0.0",
   S "webrpc;gen-typescript;hello-webrpc@v1.0.0"]

end Verif.Rpc
