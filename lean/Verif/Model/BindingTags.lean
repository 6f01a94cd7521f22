/-
Model of bindingTags.go.
-/
import Verif.Types

namespace Astra

/-- bindingTags.go:13-23: the inner loop over the binding tags of one field, in the iteration order of the map.
State: the tags collected so far, `uniqueBindings` and `previousTag` (initially the zero value). -/
def extractTagsInner : List (BTag × BindingTag) → BindingTag → List BTag × Bool → List BTag × Bool
  | [], _, st => st
  | (bindingType, bindingTag) :: rest, previousTag, (tags, unique) =>
    let unique' := if previousTag ≠ {} ∧ unique = false then decide (bindingTag ≠ previousTag) else unique
    let tags' := if elemB tags bindingType then tags else tags ++ [bindingType]
    extractTagsInner rest bindingTag (tags', unique')

/-- bindingTags.go:11-24: the outer loop over the fields, in the iteration order of the map. -/
def extractTagsOuter : List (Str × Field) → List BTag × Bool → List BTag × Bool
  | [], st => st
  | (_, field) :: rest, st => extractTagsOuter rest (extractTagsInner field.bindingTags {} st)

/-- bindingTags.go:10-31 `ExtractBindingTags`. -/
def extractBindingTags (fields : List (Str × Field)) : List BTag × Bool :=
  let (tags, unique) := extractTagsOuter fields ([], false)
  if tags = [] then (bindingTags, unique) else (tags, unique)

/-- bindingTags.go:34-40: the map literal of `ContentTypeToBindingTag`. -/
def contentTypeTable : List (Str × BTag) := [
  (c!"application/json", .json), (c!"application/xml", .xml), (c!"application/x-www-form-urlencoded", .form),
  (c!"multipart/form-data", .form), (c!"application/yaml", .yaml)]

/-- bindingTags.go:33-43 `ContentTypeToBindingTag` (a missing key gives the zero value `NoBindingTag`). -/
def contentTypeToBindingTag (contentType : Str) : BTag := (aget contentTypeTable contentType).getD .none

/-- bindingTags.go:45-54 `BindingTagToContentTypes` (a missing key gives nil). -/
def bindingTagToContentTypes : BTag → List Str
  | .json => [c!"application/json"]
  | .xml => [c!"application/xml"]
  | .form => [c!"application/x-www-form-urlencoded", c!"multipart/form-data"]
  | .yaml => [c!"application/yaml"]
  | _ => []

end Astra
