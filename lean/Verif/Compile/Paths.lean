import Verif.Schema.Types
/-!
# Model of slash-separated paths

Models the functions of the Go standard library packages `path` and `io/fs` that
`/repo/schema/ridl/ridl.go` uses at lines 111 and 162 (not in /repo): `path.Clean`, `path.Dir`,
`path.Join` and `fs.ValidPath`.
-/

namespace Verif.Compile
open Verif.Schema (Str S)

/-- The elements between slashes (`strings.Split(s, "/")`). -/
def splitSlash : Str → List Str
  | [] => [[]]
  | c :: cs =>
    if c = '/' then [] :: splitSlash cs
    else match splitSlash cs with
      | [] => [[c]]
      | x :: xs => (c :: x) :: xs

/-- `strings.Join(xs, "/")`. -/
def joinSlash : List Str → Str
  | [] => []
  | [x] => x
  | x :: y :: r => x ++ '/' :: joinSlash (y :: r)

/-- One element of the scan of `path.Clean`; `acc` holds the elements so far, last one first. -/
def cleanStep (rooted : Bool) (acc : List Str) (e : Str) : List Str :=
  if e = [] ∨ e = S "." then acc
  else if e = S ".." then
    match acc with
    | [] => if rooted then [] else [e]
    | x :: r => if x = S ".." then e :: acc else r
  else e :: acc

/-- `path.Clean`. -/
def clean (p : Str) : Str :=
  let rooted := p.head? = some '/'
  let body := joinSlash ((splitSlash p).foldl (cleanStep rooted) []).reverse
  if rooted then '/' :: body else if body = [] then S "." else body

/-- The part up to and including the last slash. -/
def upToSlash : Str → Str
  | [] => []
  | c :: cs =>
    match upToSlash cs with
    | [] => if c = '/' then [c] else []
    | r => c :: r

/-- `path.Dir`. -/
def dir (p : Str) : Str := clean (upToSlash p)

/-- `path.Join(a, b)`. -/
def joinPath (a b : Str) : Str :=
  if a = [] ∧ b = [] then []
  else if a = [] then clean b
  else if b = [] then clean a
  else clean (a ++ '/' :: b)

/-- `fs.ValidPath` (text that is not UTF-8 is outside the model). -/
def validPath (p : Str) : Bool :=
  p == S "." || (splitSlash p).all fun e => e != [] && e != S "." && e != S ".."

end Verif.Compile
