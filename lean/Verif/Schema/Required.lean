import Verif.Schema.Types
/-!
# Model of `Type.RequiredFields`

Models `/repo/schema/type.go:167-176`.
-/

namespace Verif.Schema

/-- The loop, type.go:169-173; `acc` is `requiredFields`. -/
def requiredLoop : List Field → List Field → List Field
  | acc, [] => acc
  | acc, f :: fs => requiredLoop (if !f.optional then acc ++ [f] else acc) fs

/-- `Type.RequiredFields`, type.go:167-176. -/
def TypeDecl.requiredFields (t : TypeDecl) : List Field := requiredLoop [] t.fields

end Verif.Schema
