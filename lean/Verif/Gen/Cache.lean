import Verif.Gen.Generate
/-!
# Model of the template cache

Models `/repo/gen/template_source.go`: `loadRemote`, `cacheTemplates`, `openCacheDir`.  The cache directory of one
target is a map from file names to contents; a missing directory is the empty map (`openCacheDir` sees no difference,
and `MkdirAll` is the first thing `cacheTemplates` does).  The name of the directory is derived from the target by a
32-bit hash; that two targets have different directories is taken for granted.

`os.WriteFile` empties or creates the file and then writes the data; the model does this one character at a time, so a
crash (or a full disk) may leave any beginning of the data.  What git delivers is an input.  Times are in
nanoseconds since 1970.
-/

namespace Verif.Gen
open Verif.Schema
open Verif.Compile (mapSet decimal?)

/-- The files of a directory. -/
abbrev Dir := List (Str × Str)

/-- `templateCacheTimestampFilename`, template_source.go:38. -/
def stampFile : Str := S ".webrpc-gen-timestamp"

/-- `templateCacheInfoFilename`, template_source.go:39. -/
def infoFile : Str := S ".webrpc-gen-info"

/-- The smallest observable effects of writing files. -/
inductive Micro
  | create (name : Str)
  | append (name : Str) (c : Char)

/-- The effect on the directory. -/
def Micro.run : Micro → Dir → Dir
  | .create n, d => mapSet n [] d
  | .append n c, d => mapSet n ((d.lookup n).getD [] ++ [c]) d

/-- A sequence of effects. -/
def runAll (ms : List Micro) (d : Dir) : Dir := ms.foldl (fun d m => m.run d) d

/-- `os.WriteFile`. -/
def writeFile (name data : Str) : List Micro := .create name :: data.map (.append name)

/-- Several files, one after the other. -/
def writeFiles (fs : List (Str × Str)) : List Micro := (fs.map fun f => writeFile f.1 f.2).flatten

/-- The pattern `/*.go.tmpl` of `vfspath.Glob`, template_source.go:152, 136 (names have no slash). -/
def isTemplate (name : Str) : Bool := hasSuffix name (S ".go.tmpl")

/-- Seconds since 1970 (`now.Unix()`) in decimal. -/
def stampText (now : Nat) : Str := (Nat.repr (now / 1000000000)).toList

/-- What `cacheTemplates` writes, template_source.go:152-188, for the fetched files `fetched`.  (The directory
is never emptied: `os.IsExist(err)` in line 146 is false when `os.Stat` succeeds.)  `none`: no templates. -/
def cacheTemplates (target : Str) (now : Nat) (fetched : List (Str × Str)) : Option (List Micro) :=
  let files := fetched.filter fun f => isTemplate f.1
  if files = [] then none
  else some (writeFiles (files ++ [(infoFile, trimSpace target), (stampFile, stampText now)]))

/-- `ts, _ = strconv.ParseInt(s, 10, 64)`: 0 for malformed text, the largest number for one that does not fit. -/
def parseStamp (s : Str) : Int :=
  if unsigned s = [] then 0
  else match decimal? 0 (unsigned s) with
    | none => 0
    | some n =>
      if s.head? = some '-' then (if n ≤ 9223372036854775808 then -(n : Int) else -9223372036854775808)
      else if n ≤ 9223372036854775807 then (n : Int) else 9223372036854775807

/-- `openCacheDir`, template_source.go:193-216: the time (in seconds) of the cache, `none` if it is not available. -/
def cacheTime (d : Dir) : Option Int :=
  match d.lookup stampFile with
  | none => none
  | some [] => none
  | some b => if parseStamp (trimSpace b) > 0 then some (parseStamp (trimSpace b)) else none

/-- `cacheAge > templateCacheTTL`, template_source.go:104, 37: more than one hour. -/
def tooOld (now : Nat) (ts : Int) : Bool := decide ((now : Int) - ts * 1000000000 > 3600 * 1000000000)

/-- One start of the generator for a remote target. -/
structure Load where
  refresh : Bool
  now : Nat
  /-- What git delivers; `none` is a failure. -/
  fetch : Option (List (Str × Str))
  /-- After how many steps of writing the cache the process dies or the disk fails; `none`: never. -/
  stop : Option Nat

/-- The condition of line 104: fetch, rather than use the cache. -/
def mustFetch (l : Load) (d : Dir) : Bool :=
  match cacheTime d with
  | none => true
  | some ts => l.refresh || tooOld l.now ts

/-- `vfstemplate.ParseGlob`: the template files of a directory; none at all is an error. -/
def parseGlob (d : Dir) : Option Dir :=
  let fs := d.filter fun f => isTemplate f.1
  if fs = [] then none else some fs

/-- The directory after `cacheTemplates`. -/
def afterCaching (target : Str) (l : Load) (fetched : List (Str × Str)) (d : Dir) : Dir :=
  match cacheTemplates target l.now fetched with
  | none => d
  | some ms => match l.stop with
    | none => runAll ms d
    | some k => runAll (ms.take k) d

/-- `loadRemote`, template_source.go:97-142: the templates used (`none` is an error) and the directory
afterwards.  If the process died there is no result; a failing disk does not change it. -/
def loadRemote (target : Str) (l : Load) (d : Dir) : Option Dir × Dir :=
  if mustFetch l d then
    match l.fetch with
    | none => if (cacheTime d).isSome then (parseGlob d, d) else (none, d)
    | some fetched => (parseGlob fetched, afterCaching target l fetched d)
  else (parseGlob d, d)

/-- `TmplVersion` after `loadRemote`, template_source.go:105, 129-132: the target when git was asked, else the contents
of the info file. -/
def tmplVersion (target : Str) (l : Load) (d : Dir) : Str :=
  if mustFetch l d then target else trimSpace ((d.lookup infoFile).getD [])

end Verif.Gen
