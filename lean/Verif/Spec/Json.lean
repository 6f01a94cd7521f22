/-
Specification vocabulary for JSON values.
-/
import Verif.Spec.JsonText

namespace Astra.Spec

/-- A number by the grammar of JSON. -/
def GoodNum (t : Str) : Prop := NumberText t

mutual
/-- All numbers in the value are written as JSON numbers. -/
def GoodJson : Json → Prop
  | .num t => GoodNum t
  | .arr xs => GoodElems xs
  | .obj ms => GoodMembers ms
  | _ => True
def GoodElems : List Json → Prop
  | [] => True
  | x :: xs => GoodJson x ∧ GoodElems xs
def GoodMembers : List (Str × Json) → Prop
  | [] => True
  | (_, v) :: ms => GoodJson v ∧ GoodMembers ms
end

end Astra.Spec
