import Verif.Rpc.TestSuite
import Verif.Spec.Values
/-!
# What a server must do to pass the interoperability tests
-/

namespace Verif.RpcSpec
open Verif.Schema hiding Json Method
open Verif.Json Verif.Gen Verif.Rpc

/-- The call returns no error. -/
def Succeeds (r : TypedReturn) : Prop := ∃ vals, r = .ok vals

/-- What the test client must see. -/
structure Passes (call : Str → List GoVal → TypedReturn) : Prop where
  empty : Succeeds (call (S "GetEmpty") [])
  error : ∃ e, call (S "GetError") [] = .error e
  one : ∃ vals, call (S "GetOne") [] = .ok vals ∧ Succeeds (call (S "SendOne") vals)
  multi : ∃ vals, call (S "GetMulti") [] = .ok vals ∧ Succeeds (call (S "SendMulti") vals)
  complex : ∃ vals, call (S "GetComplex") [] = .ok vals ∧ Succeeds (call (S "SendComplex") vals)
  list : ∃ a b, call (S "GetEnumList") [] = .ok [.list [a, b]]
  map : ∃ a b, call (S "GetEnumMap") [] = .ok [.map [a, b]]
  /-- For every row of the table the error of the row, except that the cause may be missing. -/
  errors : ∀ row ∈ schemaErrorRows, ∃ cause, call (S "GetSchemaError") [.int row.code] = .error { row with cause := cause } ∧
    (cause = [] ∨ cause = row.cause)

/-- What the implementation behind a generated server must do for that. -/
structure ServesTests [GoFloat] (impl : Str → List GoVal → TypedOutcome) : Prop where
  empty : impl (S "GetEmpty") [] = .results []
  error : ∃ text, impl (S "GetError") [] = .error (.other text)
  one : ∃ v, impl (S "GetOne") [] = .results [v] ∧ Carried testDecls (.ref (S "Simple")) v ∧
    ∀ w, deepEqual v w = true → impl (S "SendOne") [w] = .results []
  multi : ∃ v1 v2 v3, impl (S "GetMulti") [] = .results [v1, v2, v3] ∧ Carried testDecls (.ref (S "Simple")) v1 ∧
    Carried testDecls (.ref (S "Simple")) v2 ∧ Carried testDecls (.ref (S "Simple")) v3 ∧
    ∀ w1 w2 w3, deepEqual v1 w1 = true → deepEqual v2 w2 = true → deepEqual v3 w3 = true →
      impl (S "SendMulti") [w1, w2, w3] = .results []
  complex : ∃ v, impl (S "GetComplex") [] = .results [v] ∧ Carried testDecls (.ref (S "Complex")) v ∧
    ∀ w, deepEqual v w = true → impl (S "SendComplex") [w] = .results []
  list : ∃ a b, impl (S "GetEnumList") [] = .results [.list [a, b]] ∧
    Carried testDecls (.list (.enum (S "Status"))) (.list [a, b])
  map : ∃ a b, impl (S "GetEnumMap") [] = .results [.map [a, b]] ∧
    Carried testDecls (.map (.enum (S "Access")) (.uint 64)) (.map [a, b])
  errors : ∀ row ∈ schemaErrorRows, ∃ g cause, impl (S "GetSchemaError") [.int row.code] = .error g ∧
    g.toRpc = { row with cause := cause } ∧ (cause = [] ∨ cause = row.cause)

end Verif.RpcSpec
