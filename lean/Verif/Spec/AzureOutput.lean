/-
Specification vocabulary for the Azure Functions output.
-/
import Verif.Spec.Dirs
import Verif.Model.Pipeline

namespace Astra.Spec

/-- The name of the function for a handler: what follows the last dot. -/
def FunctionName (handler n : Str) : Prop := '.' ∉ n ∧ (handler = n ∨ c!"." ++ n <:+ handler)

/-- The directory at `d` is the complete output: for each route a directory named like its function with the file function.json in it,
and nothing else. -/
def AzureTree (text : Route → Str) (routes : List Route) (fs : FS) (d : FPath) : Prop :=
  ∀ rest node, fs.look (d ++ rest) = some node ↔
    (rest = [] ∧ node = .dir) ∨ ∃ r ∈ routes, ∃ n, FunctionName r.handler n ∧
      ((rest = [n] ∧ node = .dir) ∨ (rest = [n, c!"function.json"] ∧ node = .file (text r)))

/-- Everything at and below `d` is as it was. -/
def Untouched (d : FPath) (fs fs' : FS) : Prop := ∀ q, d <+: q → fs'.look q = fs.look q

/-- Of what was at and below `d`, some is gone and the rest is as it was. -/
def Shrunk (d : FPath) (fs fs' : FS) : Prop := ∀ q, d <+: q → fs'.look q = fs.look q ∨ fs'.look q = none

/-- Neither location is within the other. -/
def Apart (a b : FPath) : Prop := ¬ a <+: b ∧ ¬ b <+: a

/-- A removal that is cut short has removed nothing yet. -/
def AtomicRemoval (φ : Faults) : Prop := ∀ i n keep, (φ i = .fail n keep ∨ φ i = .crash n keep) → ∀ q, keep q = true

end Astra.Spec
