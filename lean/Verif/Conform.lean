import Verif.Props.Cli
import Verif.Props.SchemaJson
/-!
# Running the model on real files

`tools/conform.py` runs the model of the command line tool on the schema files of `/repo` and compares the JSON it makes
with the files and the schema hashes recorded there.  This is a test of the model, not a proof; nothing else imports it.
-/

namespace Verif.Conform
open Verif.Schema hiding Json
open Verif.Cli Verif.Gen
open Verif.Json (toJSON)

/-- A template set that writes the schema as JSON, whatever the target. -/
def asJson (v : Vars) : Rendered :=
  match @toJSON Verif.Props.asciiPrint v.schema with
  | some t => .text t
  | none => .fails

/-- Every remote template is `asJson`. -/
def ext : Ext :=
  { modLines := [], sha1 := fun _ => S "hash", version := S "v1", command := S "cmd", dump := fun _ => [],
    format := fun c => some c,
    load := fun _ _ => some { version := S "gen-x@v2", render := asJson } }

/-- Arguments: the working directory, the files that exist, `--`, the arguments of webrpc-gen. -/
def main (args : List String) : IO UInt32 := do
  let cwd := args.headD "/"
  let files := (args.drop 1).takeWhile (· != "--")
  let cli := ((args.drop 1).dropWhile (· != "--")).drop 1
  let mut fs : List (List Char × List Char) := []
  for f in files do
    let t ← IO.FS.readFile f
    fs := (f.toList.drop 1, t.toList) :: fs
  let w : World := { cwd := cwd.toList, files := fs, schemaVersionVar := [], writable := fun _ => true }
  match @run Verif.Props.asciiOnly Verif.Props.asciiPrint 50 w ext (cli.map String.toList) with
  | .ends o => do
    match o.wrote with
    | some (_, t) => IO.print (String.ofList t)
    | none => IO.eprintln "no file"
    return o.status.toUInt32
  | .crashes => do IO.eprintln "crash"; return 3
  | .hangs => do IO.eprintln "hang"; return 4
  | .unmodelled => do IO.eprintln "unmodelled"; return 5

end Verif.Conform
