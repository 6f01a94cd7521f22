/-
Specification vocabulary for C97: what the document says a request must contain, and the marks of mandatory struct fields.
-/
import Verif.Spec.Paths
import Verif.Model.OpenApi
import Verif.Model.Handler

namespace Astra.Spec

/-- An operation asks for the `:name` segments of the path, and for nothing else. -/
structure AsksForSegments (path : Str) (op : Operation) : Prop where
  /-- what is required is a path parameter of a segment `:name` -/
  only : ∀ o ∈ op.parameters, o.required = true → o.loc = c!"path" ∧ (':', o.name) ∈ wildcards path
  /-- each segment `:name` has a required path parameter -/
  all : ∀ name, (':', name) ∈ wildcards path → ∃ o ∈ op.parameters, o.name = name ∧ o.loc = c!"path" ∧ o.required = true
  /-- no response promises a header -/
  headers : ∀ code resp, mget op.responses code = some resp → ∀ n h, mget resp.headers n = some h → h.required = false

/-- A custom function that, whatever else it does, leaves the path and the path parameters of its route and adds no required parameter. -/
structure AsksForNothing (f : CustomFunc) : Prop where
  path : ∀ ctx view r ops comps, (f ctx view (some r) ops comps).route.path = r.path
  keeps : ∀ ctx view r ops comps, ∀ p ∈ r.pathParams, p ∈ (f ctx view (some r) ops comps).route.pathParams
  pathParams : ∀ ctx view r ops comps, ∀ p ∈ (f ctx view (some r) ops comps).route.pathParams, p ∈ r.pathParams ∨ p.isRequired = false
  queryParams : ∀ ctx view r ops comps, ∀ p ∈ (f ctx view (some r) ops comps).route.queryParams, p ∈ r.queryParams ∨ p.isRequired = false
  requestHeaders : ∀ ctx view r ops comps, ∀ p ∈ (f ctx view (some r) ops comps).route.requestHeaders, p ∈ r.requestHeaders ∨ p.isRequired = false
  responseHeaders : ∀ ctx view r ops comps, ∀ p ∈ (f ctx view (some r) ops comps).route.responseHeaders, p ∈ r.responseHeaders ∨ p.isRequired = false

mutual
/-- A type description without the marks that say that a value is mandatory: the validation tags (`binding:"required"` and the like) and
the flag of the field itself, at any depth. -/
def withoutRequired : Field → Field
  | ⟨package, type, name, enumValues, _, isEmbedded, sliceType, arrayType, arrayLength, mapKeyPackage, mapKeyType,
      mapValueType, structFields, bindingTags, _, doc⟩ =>
    ⟨package, type, name, enumValues, false, isEmbedded, sliceType, arrayType, arrayLength, mapKeyPackage, mapKeyType,
      mapValueType, fieldsWithoutRequired structFields, bindingTags, [], doc⟩
/-- The fields of a struct without these marks. -/
def fieldsWithoutRequired : List (Str × Field) → List (Str × Field)
  | [] => []
  | (k, f) :: rest => (k, withoutRequired f) :: fieldsWithoutRequired rest
end

/-- A route all of whose types went through `g`. -/
def routeVia (g : Field → Field) (r : Route) : Route := { r with
  pathParams := r.pathParams.map (fun p => { p with field := g p.field })
  queryParams := r.queryParams.map (fun p => { p with field := g p.field })
  requestHeaders := r.requestHeaders.map (fun p => { p with field := g p.field })
  responseHeaders := r.responseHeaders.map (fun p => { p with field := g p.field })
  body := r.body.map (fun p => { p with field := g p.field })
  returnTypes := r.returnTypes.map (fun t => { t with field := g t.field }) }

/-- A package group all of whose types went through `g`. -/
def groupVia (g : Field → Field) (x : Str × List Field) : Str × List Field := (x.1, x.2.map g)

end Astra.Spec
