/-
Vocabulary for properties of the type translation.
-/
import Verif.Model.TypeTraversal

namespace Astra.Spec

/-- The identity of a named type: package path, name, type arguments. -/
abbrev TName := Str × Str × Str

/-- `Occurs t x`: the named type `x` is written inside `t`: behind pointers, as element, key or value type, or in an
exported struct field. The definitions of named types are not unfolded. -/
inductive Occurs : GoType → TName → Prop
  | named (p n a : Str) : Occurs (.named (some p) n a) (p, n, a)
  | pointer {e x} : Occurs e x → Occurs (.pointer e) x
  | slice {e x} : Occurs e x → Occurs (.slice e) x
  | array {l e x} : Occurs e x → Occurs (.array l e) x
  | key {k v x} : Occurs k x → Occurs (.map k v) x
  | value {k v x} : Occurs v x → Occurs (.map k v) x
  | field {fs : List (StructField × GoType)} {f t x} : (f, t) ∈ fs → f.exported = true → Occurs t x → Occurs (.struct fs) x

/-- `Uses Γ x y`: the definition of the named type `x` mentions the named type `y`. -/
def Uses (Γ : TypeEnv) (x y : TName) : Prop := Occurs (Γ.underlying x.1 x.2.1 x.2.2) y

/-- `UsesPlus Γ x y`: `x` uses `y` directly or through other definitions. -/
inductive UsesPlus (Γ : TypeEnv) : TName → TName → Prop
  | one {x y} : Uses Γ x y → UsesPlus Γ x y
  | more {x y z} : Uses Γ x y → UsesPlus Γ y z → UsesPlus Γ x z

/-- `Reaches Γ t x`: the named type `x` occurs in `t` or in a definition used by `t`. -/
inductive Reaches (Γ : TypeEnv) (t : GoType) : TName → Prop
  | direct {x} : Occurs t x → Reaches Γ t x
  | through {x y} : Occurs t x → UsesPlus Γ x y → Reaches Γ t y

/-- The translation of a type (started outside of any named type) ends with outcome `o`: the components collected and the
result. -/
def Translates (Γ : TypeEnv) (components : List Field) (pkg : Option Str) (t : GoType) (o : List Field × Res Result) : Prop :=
  ∃ fuel, typeResult Γ true fuel components pkg [] t = some o

/-- The translation never ends (the Go program overflows its stack). -/
def Diverges (Γ : TypeEnv) (components : List Field) (pkg : Option Str) (t : GoType) : Prop :=
  ∀ fuel, typeResult Γ true fuel components pkg [] t = none

/-- The element type of a collection does not name a type of another package. -/
def ElementOf (p : Str) : GoType → Prop
  | .named (some q) _ _ => q = p
  | .named none _ _ => False
  | .pointer e => ElementOf p e
  | .slice e => ElementOf p e
  | .array _ e => ElementOf p e
  | .map _ e => ElementOf p e
  | .other => False
  | _ => True

/-- Definitions that are recorded under their own name and package: everything but pointers, other named types and
collections of types of another package. -/
def OwnDefinition (p : Str) : GoType → Prop
  | .slice e => ElementOf p e
  | .array _ e => ElementOf p e
  | .map _ e => ElementOf p e
  | .pointer _ => False
  | .named _ _ _ => False
  | .other => False
  | _ => True

end Astra.Spec
