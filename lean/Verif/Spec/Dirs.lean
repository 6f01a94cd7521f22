/-
Specification vocabulary for file trees and the directories of a service.
-/
import Verif.Model.FS

namespace Astra.Spec

/-- A proper file tree: every entry lies in a directory. -/
def Tree (fs : FS) : Prop := ∀ q, q ≠ [] → fs.look q ≠ none → fs.look q.dropLast = some .dir

/-- The directory that a path names for a process in `cwd`; no path at all stands for the current directory. -/
def DirAt (cwd : FPath) (p : Str) (d : FPath) : Prop := (p = [] ∧ d = cwd) ∨ resolve cwd p = some d

/-- The entries that differ are all in `S`. -/
def ChangesOnly (S : FPath → Prop) (fs fs' : FS) : Prop := ∀ q, ¬ S q → fs'.look q = fs.look q

/-- There is no entry at or below `q`. -/
def NothingAt (fs : FS) (q : FPath) : Prop := ∀ r, q <+: r → fs.look r = none

end Astra.Spec
