/-
Specification vocabulary for C104: the types that an analysis has met, one after the other, and the components made of them.
-/
import Verif.Spec.Types

namespace Astra.Spec

/-- The types of a list, each with the package in which it is met, are translated successfully one after the other; `start` are the components before and
`final` those after. -/
inductive TranslatesEach (Γ : TypeEnv) : List Field → List (Option Str × GoType) → List Field → Prop
  | done (cs : List Field) : TranslatesEach Γ cs [] cs
  | next {start cs final : List Field} {pkg : Option Str} {t : GoType} {r : Result} {rest : List (Option Str × GoType)} :
      Translates Γ start pkg t (cs, .ok r) → TranslatesEach Γ cs rest final → TranslatesEach Γ start ((pkg, t) :: rest) final

/-- The component is the one for the definition of the type `x`: what the translation of the definition gives, under the name of the type and with its
comment. -/
def ComponentOf (Γ : TypeEnv) (x : TName) (c : Field) : Prop :=
  ∃ k before after r, typeResult Γ true k before (some x.1) x.2.1 (Γ.underlying x.1 x.2.1 x.2.2) = some (after, .ok r) ∧
    c = parseResultToField { r with doc := typeDoc Γ x.1 x.2.1 }

/-- The type has a component that describes its own definition. -/
def DescribedIn (Γ : TypeEnv) (components : List Field) (x : TName) : Prop := ∃ c ∈ components, ComponentOf Γ x c

/-- Both types have the same package and name: instances of one generic type, or types declared in different functions. -/
def SameName (x y : TName) : Prop := x.1 = y.1 ∧ x.2.1 = y.2.1

/-- A set of types that contains with every type those its definition uses, all with a name and a package and recorded under them (C19). -/
structure NamedTypes (Γ : TypeEnv) (D : TName → Prop) : Prop where
  closed : ∀ x, D x → ∀ y, Uses Γ x y → D y
  names : ∀ x, D x → x.1 ≠ [] ∧ x.2.1 ≠ []
  own : ∀ x, D x → OwnDefinition x.1 (Γ.underlying x.1 x.2.1 x.2.2)

end Astra.Spec
