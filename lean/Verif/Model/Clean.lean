/-
Model of substituteTypes.go and clean.go (the caching step of Clean is modelled with the file system).
-/
import Verif.Types

namespace Astra

/-- substituteTypes.go:6-9 `substituteTypes`. -/
def substituteTypes : List (Str × Str) := [(c!"time.Duration", c!"int"), (c!"error", c!"string")]

/-- substituteTypes.go:13-16: the name looked up in the table. -/
def qualifiedName (component : Field) : Str :=
  if component.package ≠ [] then component.package ++ '.' :: component.name else component.name

/-- substituteTypes.go:12-27 `HandleSubstituteTypes`. -/
def handleSubstituteTypes (component : Field) : Field :=
  match aget substituteTypes (qualifiedName component) with
  | some t => { component with type := t, structFields := [], sliceType := [], mapValueType := [] }
  | none => component

/-- clean.go:50-55: rename the temporary main package. -/
def renameMain (mainPkg : Str) (f : Field) : Field :=
  { f with
    package := if f.package = mainPkg then c!"main" else f.package
    mapKeyPackage := if f.mapKeyPackage = mainPkg then c!"main" else f.mapKeyPackage }

mutual
/-- clean.go:47-62 `cleanField`. The Go code writes the cleaned struct fields back into the same map. -/
def cleanField (mainPkg : Str) : Field → Field
  | ⟨package, type, name, enumValues, isRequired, isEmbedded, sliceType, arrayType, arrayLength, mapKeyPackage,
      mapKeyType, mapValueType, structFields, bindingTags, validationTags, doc⟩ =>
    let f := renameMain mainPkg (handleSubstituteTypes
      ⟨package, type, name, enumValues, isRequired, isEmbedded, sliceType, arrayType, arrayLength, mapKeyPackage,
        mapKeyType, mapValueType, structFields, bindingTags, validationTags, doc⟩)
    if f.structFields = [] then f else { f with structFields := cleanFields mainPkg structFields }
/-- clean.go:57-59: the loop over the struct fields. -/
def cleanFields (mainPkg : Str) : List (Str × Field) → List (Str × Field)
  | [] => []
  | (k, f) :: rest => (k, cleanField mainPkg f) :: cleanFields mainPkg rest
end

/-- clean.go:19-34: what Clean does to a route. Request and response headers are not cleaned. Simplification: fields are values. In the code the
header that `Bind` adds shares the map `StructFields` with the bodies of the same call, and clean.go:57-59 writes the cleaned entries into that map:
for a bound anonymous struct the fields inside the header are cleaned together with those of the body. -/
def cleanRoute (mainPkg : Str) (r : Route) : Route :=
  { r with
    returnTypes := r.returnTypes.map (fun t => { t with field := cleanField mainPkg t.field })
    pathParams := r.pathParams.map (fun p => { p with field := cleanField mainPkg p.field })
    queryParams := r.queryParams.map (fun p => { p with field := cleanField mainPkg p.field })
    body := r.body.map (fun p => { p with field := cleanField mainPkg p.field }) }

end Astra
