/-
Specification vocabulary for C105: handlers that are neither declared functions nor function literals in one.
-/
import Verif.Spec.Again
import Verif.Spec.HandlerDoc

namespace Astra.Spec

/-- A Go identifier, as far as it matters here: it has none of these characters. -/
def GoIdentifier (x : Str) : Prop := x ≠ [] ∧ '(' ∉ x ∧ '[' ∉ x ∧ '.' ∉ x ∧ '/' ∉ x

/-- The path of a package whose last part has no dot. -/
def PackagePath (pkg : Str) : Prop := ∃ base, (pkg = base ∨ ∃ dir, pkg = dir ++ '/' :: base) ∧ '/' ∉ base ∧ '.' ∉ base

/-- The names that the Go runtime gives to functions of a package that are neither declared functions nor literals in one. The part `more` is the name of a method
and what follows it: `-fm` for a method value, `.func1` and the like for a literal in the method. -/
inductive OtherName (pkg : Str) : Str → Prop
  /-- A method of a pointer: `pkg.(*T).Get-fm`, `pkg.(*T).routes.func1`. -/
  | pointerMethod (T more : Str) : GoIdentifier T → '/' ∉ more → OtherName pkg (pkg ++ c!".(*" ++ T ++ c!")." ++ more)
  /-- An instance of a generic function: `pkg.Get[...]`, and a literal in one: `pkg.Get[...].func1`. -/
  | instance (F more : Str) : GoIdentifier F → '/' ∉ more → OtherName pkg (pkg ++ c!"." ++ F ++ c!"[...]" ++ more)

/-- Names whose first part can be that of a function. -/
inductive NameWithFirst (pkg : Str) (first : Str) : Str → Prop
  /-- A method of a value: `pkg.T.Get-fm`, `pkg.T.routes.func1`; a literal of a package variable: `pkg.glob..func1`. -/
  | dotted (more : Str) : GoIdentifier first → '/' ∉ more → NameWithFirst pkg first (pkg ++ c!"." ++ first ++ c!"." ++ more)
  /-- A declared function: `pkg.Get`. -/
  | plain : GoIdentifier first → NameWithFirst pkg first (pkg ++ c!"." ++ first)

/-- The functions and methods that a file declares have Go identifiers as names. -/
def DeclaresIdentifiers (E : RouteEnv) (file : FileId) : Prop := ∀ d ∈ E.decls file, GoIdentifier d.name

/-- The handler is in a file that can be found, and is a function of these kinds: a method, a literal in a method, an instance of a generic function, a literal
that stands in no function with the name that comes first in its own. -/
def OtherHandler (E : RouteEnv) (handler file : Str) (line : Int) : Prop :=
  ∃ pkg fileId, PackagePath pkg ∧ E.fileOf pkg file = some fileId ∧
    ((OtherName pkg handler ∧ DeclaresIdentifiers E fileId) ∨
      ∃ first, NameWithFirst pkg first handler ∧ functionsAt first line (E.decls fileId) = [])

/-- The parameters that a path shows by itself. -/
def parametersOfPath (path : Str) : List OParam :=
  (wildcards path).map (fun w => { name := w.2, loc := c!"path", required := decide (w.1 = ':'), schema := { type := c!"string" } })

/-- The operation shows the parameters of the path and nothing about the handler. -/
structure OnlyThePath (op : Operation) (path : Str) : Prop where
  parameters : op.parameters.Perm (parametersOfPath path)
  nothing : { op with parameters := [] } = Operation.blank

end Astra.Spec
