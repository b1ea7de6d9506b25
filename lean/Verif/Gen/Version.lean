import Verif.Schema.Validate
/-!
# Model of `version.go`

Models `/repo/version.go`.  What the two commands print is a parameter (nothing, if a command cannot be run); `VERSION` as injected by
the linker is one too.
-/

namespace Verif.Gen
open Verif.Schema

/-- `inferRuntimeVersion`, version.go:27-41: what `go list -m` and `git describe` print. -/
def inferRuntimeVersion (goList git : Str) : Str :=
  if goList.length > 0 then trimSpace goList
  else if git.length > 0 then trimSpace git
  else S "unknown"

/-- `init`, version.go:19-25: the value of `VERSION` after it. -/
def runtimeVersion (injected goList git : Str) : Str :=
  if injected = [] then inferRuntimeVersion goList git else injected

end Verif.Gen
