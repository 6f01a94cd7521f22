/-
Model of safePushing.go.
-/
import Verif.Types

namespace Astra

/-- safePushing.go:11: the condition under which a new return type differs from an existing one. -/
def returnTypeDiffers (new existing : ReturnType) : Bool :=
  decide (new.field.type ≠ existing.field.type) || decide (new.field.package ≠ existing.field.package) ||
  decide (new.statusCode ≠ existing.statusCode) || decide (new.contentType ≠ existing.contentType)

/-- safePushing.go:6-17: the loop body of `AddReturnType`: append when the list is empty or at the first existing entry
that differs (then break). -/
def addReturnType1 (prev : List ReturnType) (new : ReturnType) : List ReturnType :=
  if prev = [] then prev ++ [new]
  else if prev.any (returnTypeDiffers new) then prev ++ [new]
  else prev

/-- safePushing.go:5-20 `AddReturnType`. -/
def addReturnType (prev : List ReturnType) (n : List ReturnType) : List ReturnType := n.foldl addReturnType1 prev

/-- safePushing.go:25-40: the loop body of `AddComponent`. -/
def addComponent1 (prev : List Field) (new : Field) : List Field :=
  if prev = [] then prev ++ [new]
  else if prev.any (fun existing => decide (new.name = existing.name) && decide (new.package = existing.package)) then prev
  else prev ++ [new]

/-- safePushing.go:24-43 `AddComponent`. -/
def addComponent (prev : List Field) (n : List Field) : List Field := n.foldl addComponent1 prev

end Astra
