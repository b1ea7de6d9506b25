import Verif.Compile.Paths
/-!
# Files inside a root directory

A file or directory is a list of names, innermost first.
-/

namespace Verif.Spec
open Verif.Schema (Str S)
open Verif.Compile (joinSlash)

/-- A name of a file or directory. -/
def Proper (e : Str) : Prop := e ≠ [] ∧ e ≠ S "." ∧ e ≠ S ".." ∧ '/' ∉ e

/-- Walking from the directory `d` (innermost first) along the elements of a path; `none`: the walk
leaves the root. -/
def walk (d : List Str) : List Str → Option (List Str)
  | [] => some d
  | e :: es =>
    if e = [] ∨ e = S "." then walk d es
    else if e = S ".." then
      match d with
      | [] => none
      | _ :: d' => walk d' es
    else walk (e :: d) es

/-- The text of a directory or file given by its elements, innermost first. -/
def pathText (d : List Str) : Str := if d = [] then S "." else joinSlash d.reverse

end Verif.Spec
