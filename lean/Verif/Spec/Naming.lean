/-
Specification of schema names: how many segments of its package path a schema name starts with, and the name itself.
-/
import Verif.Spec.OpenApi

namespace Astra.Spec

/-- In this list of packages, which all have one name, the package at `i` decides for depth `d`: the next package that is different from it, not
further from the end of the list than `i` is from its start, agrees with it on exactly the last `d` segments. -/
def Decides (pkgs : List Str) (i d : Nat) : Prop :=
  ∃ j p q, i < j ∧ i + j < pkgs.length ∧ pkgs[i]? = some p ∧ pkgs[j]? = some q ∧ DifferAt d p q ∧ ∀ k, i < k → k < j → pkgs[k]? = some p

/-- The depth for the list: that of the last package which decides, or zero if none does. -/
def NamingDepth (pkgs : List Str) (d : Nat) : Prop :=
  (∃ i, Decides pkgs i d ∧ ∀ i' d', i < i' → ¬ Decides pkgs i' d') ∨ (d = 0 ∧ ∀ i d', ¬ Decides pkgs i d')

/-- The packages of the components that have the package name of `pkg`, one for each component, in order. -/
def sameName (components : List Field) (pkg : Str) : List Str := (components.map (·.package)).filter (fun p => lastSegment p = lastSegment pkg)

/-- The components can be given schema names: the package of each of them has more segments than the depth of its package name, if that is
not zero. -/
def Nameable (components : List Field) : Prop :=
  ∀ c ∈ components, ∀ d, NamingDepth (sameName components c.package) d → 0 < d → d < (segments c.package).length

/-- The last `n` segments of a package path, with dots between them. -/
def lastSegments (n : Nat) (pkg : Str) : Str := join c!"." ((segments pkg).drop ((segments pkg).length - n))

/-- The schema name of a type, if its package has the depth `d`; with the kind, if the type has fields that are bound differently. -/
def schemaName (d : Nat) (kind : Option BTag) (name pkg : Str) : Str :=
  lastSegments (d + 1) pkg ++ (match kind with | none => [] | some b => '.' :: b.toStr) ++ '.' :: name

end Astra.Spec
