import Verif.Spec.SchemaJson
import Verif.Spec.Cli
/-!
# Vocabulary for schemas that templates cannot tell apart
-/

namespace Verif.Spec
open Verif.Schema

/-- The types of the fields of a struct. -/
def fieldTypes (t : TypeDecl) : List VarType := if t.kind = "struct".toList then t.fields.filterMap (·.type) else []

/-- The types of the arguments and results of a method. -/
def argTypes (m : Method) : List VarType := (m.inputs ++ m.outputs).filterMap (·.type)

/-- The list is nil, as written in JSON. -/
def isNil {α : Type} (flag : Bool) (l : List α) : Bool := flag && l.isEmpty

/-- Which lists of a method are nil. -/
def methodNils (m : Method) : List Bool :=
  [isNil m.nils.annotations m.annotations, isNil m.nils.comments m.comments, isNil m.nils.inputs m.inputs, isNil m.nils.outputs m.outputs]

/-- Which lists of a service are nil. -/
def serviceNils (v : Service) : List Bool := [isNil v.nils.methods v.methods, isNil v.nils.comments v.comments]

/-- Which lists of a schema are nil. -/
def schemaNils (s : Schema) : List Bool := [isNil s.nils.types s.types, isNil s.nils.errors s.errors, isNil s.nils.services s.services]

/-- The declarations say the same, and the types of the fields have the same parsed form. -/
def AlikeType (t t' : TypeDecl) : Prop := typeView t = typeView t' ∧ (fieldTypes t).map shape = (fieldTypes t').map shape

/-- The methods say the same, and the types of arguments and results have the same parsed form. -/
def AlikeMethod (m m' : Method) : Prop := methodView m = methodView m' ∧ (argTypes m).map shape = (argTypes m').map shape ∧
  methodNils m = methodNils m'

def AlikeService (v v' : Service) : Prop :=
  v.name = v'.name ∧ v.comments = v'.comments ∧ Pointwise AlikeMethod v.methods v'.methods ∧
  serviceNils v = serviceNils v'

/-- The schemas say the same, and the types of fields, arguments and results have the same parsed form.  They may differ in
the identities of objects in memory and in the parsed form of the types of aliases and enums. -/
structure Alike (s s' : Schema) : Prop where
  webrpc : s.webrpcVersion = s'.webrpcVersion
  name : s.schemaName = s'.schemaName
  version : s.schemaVersion = s'.schemaVersion
  path : s.basePath = s'.basePath
  types : Pointwise AlikeType s.types s'.types
  errors : s.errors.map errorView = s'.errors.map errorView
  services : Pointwise AlikeService s.services s'.services
  lists : schemaNils s = schemaNils s'

/-- Templates whose result depends only on what schemas say: they do not look at the parsed form of the types of aliases and
enums. -/
def SeesText (tm : Verif.Cli.Templates) : Prop :=
  ∀ v v' : Verif.Cli.Vars, Alike v.schema v'.schema → v' = { v with schema := v'.schema } → tm.render v = tm.render v'

end Verif.Spec
