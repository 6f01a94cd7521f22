/-
Specification vocabulary for C85: how often parameters are listed in an operation and in a text.
-/
import Verif.Spec.HandlerDoc

namespace Astra.Spec

/-- The number of parameters of an operation with this place and name. -/
def timesListed (op : Operation) (loc name : Str) : Nat := (op.parameters.filter (fun o => o.loc = loc ∧ o.name = name)).length

/-- The number of times that context calls read the parameter of this name. -/
def timesRead (get : Entry → List Param) (es : List Entry) (name : Str) : Nat := ((es.flatMap get).filter (fun p => p.name = name)).length

/-- The number of places at which `x` stands in a text. -/
def occurrences (x : Str) : Str → Nat
  | [] => 0
  | c :: cs => (if x <+: c :: cs then 1 else 0) + occurrences x cs

end Astra.Spec
