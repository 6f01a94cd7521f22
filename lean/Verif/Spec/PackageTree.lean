/-
Specification vocabulary for the tree of packages.
-/
import Verif.Model.PackageManager

namespace Astra.Spec

/-- `p` is the package path `q` or one of the paths above it. -/
def Within (p q : Str) : Prop := p = q ∨ p ++ c!"/" <+: q

/-- `q` is `p` without the slashes at its end. -/
def WithoutSlashes (p q : Str) : Prop := (∃ k, p = q ++ List.replicate k '/') ∧ ¬ c!"/" <:+ q

/-- All the loaders fail on the path, one after the other, and take the outside state from `x` to `y`. -/
def AllFail {σ : Type} (path : Str) : List (PathLoader σ) → σ → σ → Prop
  | [], x, y => x = y
  | l :: ls, x, y => ∃ e, (l path x).1 = .error e ∧ AllFail path ls (l path x).2 y

/-- The path that the loaders choose: that of the first one that does not fail, or the own path if all fail; `z` is the outside state
afterwards. -/
def Chosen {σ : Type} (own : Str) (loaders : List (PathLoader σ)) (x : σ) (path : Str) (z : σ) : Prop :=
  (AllFail own loaders x z ∧ path = own) ∨
  ∃ pre l post y, loaders = pre ++ l :: post ∧ AllFail own pre x y ∧ l own y = (.ok path, z)

/-- What the text of an import stands for in a file: its path in double or back quotes. -/
def ImportOf (spec : ImportSpec) (path : Str) : Prop := '"' ∉ path ∧ '`' ∉ path ∧
  (spec.path = '"' :: path ++ ['"'] ∨ spec.path = '`' :: path ++ ['`'])

/-- The last segment of a path. -/
def LastSegment (path seg : Str) : Prop := '/' ∉ seg ∧ (path = seg ∨ c!"/" ++ seg <:+ path)

/-- The identifier under which an import is known in its file (Go specification, "Import declarations"): the name it is given there, or else
the name in the package clause of the imported package, here `declared path`. -/
def Binds (declared : Str → Str) (spec : ImportSpec) (ident : Str) : Prop :=
  match spec.name with
  | some a => a = ident
  | none => ∃ path, ImportOf spec path ∧ declared path = ident

/-- The declaration documents the type: by a comment on the type itself, or else by the comment on the whole declaration. -/
def Documents (d : TopDecl) (name text : Str) : Prop :=
  ∃ doc specs own, d = .gen doc specs ∧ TopSpec.type name own ∈ specs ∧ (own = some text ∨ (own = none ∧ doc = some text))

end Astra.Spec
