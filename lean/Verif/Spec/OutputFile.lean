/-
Specification vocabulary for output files.
-/
import Verif.Model.FS

namespace Astra.Spec

/-- A path with ".json" appended unless it ends in a supported extension. -/
def withExtension (supported : List Str) (p : Str) : Str := if supported.any (fun e => e.isSuffixOf p) then p else p ++ c!".json"

/-- Only the entry at `q` differs. -/
def OnlyAt (q : FPath) (fs fs' : FS) : Prop := ∀ p, p ≠ q → fs'.look p = fs.look p

end Astra.Spec
