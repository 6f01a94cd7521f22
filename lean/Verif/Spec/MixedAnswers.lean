/-
Specification vocabulary for C115: what kind of JSON the values of simple types are.
-/
import Verif.Spec.Sent
import Verif.Spec.BoundQuery

namespace Astra.Spec

/-- Kinds of JSON. -/
inductive JsonKind
  | text | truth | number | list (of : JsonKind) | unknown
  deriving DecidableEq

/-- The kind of JSON that encoding/json makes of the values of a type, for basic types, slices of them and pointers. -/
def jsonKind : GoType → JsonKind
  | .basic _ n => if n = c!"string" then .text else if n = c!"bool" then .truth else .number
  | .slice e => .list (jsonKind e)
  | .pointer e => jsonKind e
  | _ => .unknown

end Astra.Spec
