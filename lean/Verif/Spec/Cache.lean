import Verif.Gen.Cache
/-!
# What the template cache is supposed to do
-/

namespace Verif.Spec
open Verif.Schema Verif.Gen

/-- The name of a template file. -/
def TemplateName (n : Str) : Prop := ∃ base : Str, n = base ++ ".go.tmpl".toList

/-- Both directories have the same templates with the same contents. -/
def SameTemplates (d e : Dir) : Prop := ∀ n, TemplateName n → d.lookup n = e.lookup n

/-- Fetched files have distinct names. -/
def DistinctFiles (r : Dir) : Prop := (r.map (·.1)).Pairwise (· ≠ ·)

/-- Every template of `d` is (perhaps with other contents) in `e`. -/
def NamesWithin (d e : Dir) : Prop := ∀ n, TemplateName n → (d.lookup n).isSome → (e.lookup n).isSome

/-- Histories: `History target d last` — the loads so far have led from an empty directory to `d`, and `last` is
what git delivered last.  Two things are excluded: that git drops a template it delivered before, and that a load is
stopped while it overwrites a cache that could be used. -/
inductive History (target : Str) : Dir → Option Dir → Prop
  | start : History target [] none
  | cached {d last} (l : Load) : History target d last → mustFetch l d = false → History target (loadRemote target l d).2 last
  | failed {d last} (l : Load) : History target d last → mustFetch l d = true → l.fetch = none →
      History target (loadRemote target l d).2 last
  | fetched {d last r} (l : Load) : History target d last → mustFetch l d = true → l.fetch = some r →
      DistinctFiles r → (∀ e, last = some e → NamesWithin e r) → (∃ n, TemplateName n ∧ (r.lookup n).isSome) →
      (l.stop ≠ none → cacheTime d = none) → History target (loadRemote target l d).2 (some r)

end Verif.Spec
