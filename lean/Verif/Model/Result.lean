/-
Model of astTraversal/result.go and utils.go.
-/
import Verif.Model.TypeMapping

namespace Astra

/-- astTraversal/result.go:3-55 `Result`. A `*PackageNode` is represented by its path (`none` is nil); `Names` and
`ConstantValue` are never set by the code and left out. -/
structure Result where
  type : Str := []
  package : Option Str := none
  name : Str := []
  isEmbedded : Bool := false
  enumValues : List EnumVal := []
  mapKeyPackage : Option Str := none
  mapKeyType : Str := []
  mapValueType : Str := []
  sliceType : Str := []
  arrayType : Str := []
  arrayLength : Int := 0
  structFields : List (Str × Result) := []
  bindingTags : List (BTag × BindingTag) := []
  validationTags : List (VTag × Bool) := []
  doc : Str := []
  deriving Repr, Inhabited

/-- astTraversal/packageNode.go:24-27: `Path` of a possibly nil node. -/
def nodePath (p : Option Str) : Str := p.getD []

/-- utils.go:36-39: must the package path be recorded? -/
def needsPackage (type name sliceType arrayType mapValueType : Str) : Bool :=
  !isAcceptedType type || decide (name ≠ []) ||
  (decide (sliceType ≠ []) && !isAcceptedType sliceType) ||
  (decide (arrayType ≠ []) && !isAcceptedType arrayType) ||
  (decide (mapValueType ≠ []) && !isAcceptedType mapValueType)

mutual
/-- utils.go:10-57 `ParseResultToField`. -/
def parseResultToField : Result → Field
  | ⟨type, package, name, isEmbedded, enumValues, mapKeyPackage, mapKeyType, mapValueType, sliceType, arrayType,
      arrayLength, structFields, bindingTags, validationTags, doc⟩ =>
    { type := type
      name := name
      enumValues := enumValues
      isEmbedded := isEmbedded
      sliceType := sliceType
      arrayType := arrayType
      arrayLength := arrayLength
      mapKeyType := mapKeyType
      mapValueType := mapValueType
      bindingTags := bindingTags
      validationTags := validationTags
      doc := if doc ≠ [] then trimSpace doc else []
      package := if needsPackage type name sliceType arrayType mapValueType then nodePath package else []
      mapKeyPackage := if mapKeyType ≠ [] ∧ isAcceptedType mapKeyType = false then nodePath mapKeyPackage else []
      structFields := parseResultsToFields structFields }
/-- utils.go:48-54: the loop over the struct fields. -/
def parseResultsToFields : List (Str × Result) → List (Str × Field)
  | [] => []
  | (k, r) :: rest => (k, parseResultToField r) :: parseResultsToFields rest
end

end Astra
