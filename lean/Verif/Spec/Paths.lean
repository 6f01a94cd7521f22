/-
Specification of router paths, segment by segment, in the terms of the gin documentation: a path is a list of segments
separated by '/'; a segment may contain a wildcard, which starts at its first ':' or '*' that has a name after it and
extends to the end of the segment. Nothing here refers to the scanner of the model.
-/
import Verif.Basic

namespace Astra.Spec

/-- `seg = before ++ marker :: name` where the marker is ':' or '*', the name is not empty and no marker occurs before. -/
def WildcardOf (seg before : Str) (marker : Char) (name : Str) : Prop :=
  seg = before ++ marker :: name ∧ name ≠ [] ∧ (marker = ':' ∨ marker = '*') ∧ ':' ∉ before ∧ '*' ∉ before

/-- The text of a path item for one segment of a router path: a segment without wildcard stands for itself, `:name` becomes `{name}` and
`*name` becomes `{name*}`. -/
inductive TemplateOf : Str → Str → Prop
  | plain {seg : Str} : (∀ before marker name, ¬ WildcardOf seg before marker name) → TemplateOf seg seg
  | param {seg before name : Str} : WildcardOf seg before ':' name → TemplateOf seg (before ++ '{' :: name ++ ['}'])
  | catchAll {seg before name : Str} : WildcardOf seg before '*' name → TemplateOf seg (before ++ '{' :: name ++ ['*', '}'])

/-- The wildcard of a segment, if any: text before it, marker, name. -/
def segWild : Str → Option (Str × Char × Str)
  | c :: d :: r =>
    if c = ':' ∨ c = '*' then some ([], c, d :: r)
    else (segWild (d :: r)).map (fun x => (c :: x.1, x.2.1, x.2.2))
  | _ => none

/-- Rewrite the wildcard of a segment. -/
def mapSeg (f : Char → Str → Str) (seg : Str) : Str :=
  match segWild seg with
  | some (before, marker, name) => before ++ f marker name
  | none => seg

/-- Rewrite all wildcards of a path. -/
def mapPath (f : Char → Str → Str) (path : Str) : Str := join ['/'] ((split '/' path).map (mapSeg f))

/-- The wildcards (marker, name) of a path in order. -/
def wildcards (path : Str) : List (Char × Str) :=
  (split '/' path).filterMap (fun seg => (segWild seg).map (fun x => x.2))

/-- The names between '{' and '}' in a templated path, in order (`cur` is the name being read, reversed). -/
def placeholdersAux : Option Str → Str → List Str
  | _, [] => []
  | none, c :: cs => if c = '{' then placeholdersAux (some []) cs else placeholdersAux none cs
  | some cur, c :: cs => if c = '}' then cur.reverse :: placeholdersAux none cs else placeholdersAux (some (c :: cur)) cs

/-- The template variables of an OpenAPI path. -/
def placeholders (path : Str) : List Str := placeholdersAux none path

/-- What gin accepts as a path (`tree.go`, `findWildcard`: at most one ':' or '*' per segment, with a non-empty name). -/
def GinPath (path : Str) : Prop :=
  ∀ seg ∈ split '/' path,
    (':' ∉ seg ∧ '*' ∉ seg) ∨ ∃ before marker name, WildcardOf seg before marker name ∧ ':' ∉ name ∧ '*' ∉ name

/-- The name that Go gives a function: the path of its package, a dot, the name of the function, and perhaps more after a second dot. The last part of the
package path has no dot. -/
def GoFunctionName (full pkg name : Str) : Prop :=
  ∃ base tail, (pkg = base ∨ ∃ dir, pkg = dir ++ '/' :: base) ∧ '/' ∉ base ∧ '.' ∉ base ∧ full = pkg ++ '.' :: tail ∧ '/' ∉ tail ∧ '.' ∉ name ∧
    (tail = name ∨ ∃ more, tail = name ++ '.' :: more)

end Astra.Spec
