import Verif.Compile.Compile
/-!
# Model of the messages of import errors

Models `importError.Error` of `/repo/schema/ridl/ridl.go`.  The message of the cause is a parameter.
-/

namespace Verif.Compile
open Verif.Schema

/-- The loop over the files, ridl.go:101-106. -/
def stackLines : List Str → Str
  | [] => []
  | [f] => S "  - " ++ f
  | f :: fs => S "  - " ++ f ++ S "\n" ++ stackLines fs

/-- `importError.Error`, ridl.go:93-108; `stack` is what line 80 makes of the chain of files, `err` the message of the cause. -/
def importErrorText (err : Str) (stack : List Str) : Str :=
  if stack = [] then err else err ++ S "\nstack trace:\n" ++ stackLines stack

/-- `newImportError`, ridl.go:78-85: the files as `filepath.Join(p.root, p.path)`, here any function. -/
def stackOf (shown : Str → Str) (chain : List Str) : List Str := chain.map shown

end Verif.Compile
