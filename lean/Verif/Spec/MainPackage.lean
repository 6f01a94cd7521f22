/-
Specification vocabulary for the temporary main package.
-/
import Verif.Model.FS

namespace Astra.Spec

/-- The copy differs from the text in exactly one package clause, which is renamed. -/
def RenamedClause (text copy : Str) : Prop :=
  ∃ pre post, text = pre ++ c!"package main" ++ post ∧ copy = pre ++ c!"package astramain" ++ post

/-- The name is that of a Go source file. -/
def GoFile (n : Str) : Prop := c!".go" <:+ n

/-- The name is that of a module file. -/
def ModFile (n : Str) : Prop := c!".mod" <:+ n

/-- A name that a directory entry can have. -/
def FileName (n : Str) : Prop := n ≠ [] ∧ n ≠ c!"." ∧ n ≠ c!".." ∧ '/' ∉ n

/-- A module path: slash-separated names. -/
def ModulePath (m : Str) : Prop := ∀ x ∈ split '/' m, FileName x

end Astra.Spec
