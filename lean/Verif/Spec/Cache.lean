/-
Specification vocabulary for the cache: which Go values the model's association lists stand for, and when two services carry the
same inputs, outputs, config, routes and components.
-/
import Verif.Spec.Schema
import Verif.Model.Service
import Verif.Spec.Json

namespace Astra.Spec

/-- The lists are related element by element. -/
inductive Each {α β : Type} (R : α → β → Prop) : List α → List β → Prop
  | nil : Each R [] []
  | cons {a : α} {b : β} {as : List α} {bs : List β} : R a b → Each R as bs → Each R (a :: as) (b :: bs)

/-- The association lists of the field, at every depth, are Go maps: no key occurs twice. -/
inductive GoMaps : Field → Prop
  | mk {f : Field} : (f.structFields.map (·.1)).Nodup → (f.bindingTags.map (·.1)).Nodup → (f.validationTags.map (·.1)).Nodup →
      (∀ e : Str × Field, e ∈ f.structFields → GoMaps e.2) → GoMaps f

mutual
/-- Change every enum value of a field, at every depth. -/
def mapEnums (g : EnumVal → EnumVal) : Field → Field
  | ⟨package, type, name, enumValues, isRequired, isEmbedded, sliceType, arrayType, arrayLength, mapKeyPackage, mapKeyType,
      mapValueType, structFields, bindingTags, validationTags, doc⟩ =>
    ⟨package, type, name, enumValues.map g, isRequired, isEmbedded, sliceType, arrayType, arrayLength, mapKeyPackage, mapKeyType,
      mapValueType, mapEnumsList g structFields, bindingTags, validationTags, doc⟩
def mapEnumsList (g : EnumVal → EnumVal) : List (Str × Field) → List (Str × Field)
  | [] => []
  | (k, f) :: fs => (k, mapEnums g f) :: mapEnumsList g fs
end

/-- A number in a Go `any` is a `float64` after it has been written to JSON and read back; `f64` gives its text. -/
def asFloat (f64 : Str → Str) : EnumVal → EnumVal
  | .int i => .float (f64 (itoa i))
  | .float t => .float (f64 t)
  | v => v

/-- The enum values, at every depth, are not changed by writing and reading: no integers, and numbers in their canonical form. -/
inductive StableEnums (f64 : Str → Str) : Field → Prop
  | mk {f : Field} : (∀ v ∈ f.enumValues, asFloat f64 v = v) → (∀ e : Str × Field, e ∈ f.structFields → StableEnums f64 e.2) →
      StableEnums f64 f

/-- The floating-point enum values, at every depth, have a JSON text (they are not NaN or infinite). -/
inductive FiniteEnums : Field → Prop
  | mk {f : Field} : (∀ t, EnumVal.float t ∈ f.enumValues → GoodNum t) → (∀ e : Str × Field, e ∈ f.structFields → FiniteEnums e.2) →
      FiniteEnums f

/-- `f'` is `f` after writing and reading. -/
def Restored (f64 : Str → Str) (f f' : Field) : Prop := SameField (mapEnums (asFloat f64) f) f'

def RestoredParam (f64 : Str → Str) (p p' : Param) : Prop := Restored f64 p.field p'.field ∧ p' = { p with field := p'.field }

def RestoredBody (f64 : Str → Str) (p p' : BodyParam) : Prop := Restored f64 p.field p'.field ∧ p' = { p with field := p'.field }

def RestoredReturn (f64 : Str → Str) (t t' : ReturnType) : Prop := Restored f64 t.field t'.field ∧ t' = { t with field := t'.field }

/-- The routes agree in everything but the representation of the maps (and the enum values) in their fields. -/
structure RestoredRoute (f64 : Str → Str) (r r' : Route) : Prop where
  pathParams : Each (RestoredParam f64) r.pathParams r'.pathParams
  queryParams : Each (RestoredParam f64) r.queryParams r'.queryParams
  body : Each (RestoredBody f64) r.body r'.body
  returnTypes : Each (RestoredReturn f64) r.returnTypes r'.returnTypes
  requestHeaders : Each (RestoredParam f64) r.requestHeaders r'.requestHeaders
  responseHeaders : Each (RestoredParam f64) r.responseHeaders r'.responseHeaders
  rest : r' = { r with pathParams := r'.pathParams, queryParams := r'.queryParams, body := r'.body, returnTypes := r'.returnTypes,
                       requestHeaders := r'.requestHeaders, responseHeaders := r'.responseHeaders }

/-- The inputs agree in their mode. -/
def SameInput (i i' : Input) : Prop := i'.mode = i.mode

/-- The outputs agree in their mode and configuration. -/
def SameOutput (o o' : Output) : Prop := o'.mode = o.mode ∧ o.configuration.Perm o'.configuration

/-- The fields of a route. -/
def routeFields (r : Route) : List Field :=
  r.pathParams.map (·.field) ++ r.queryParams.map (·.field) ++ r.body.map (·.field) ++ r.returnTypes.map (·.field) ++
    r.requestHeaders.map (·.field) ++ r.responseHeaders.map (·.field)

/-- The fields of a service: those of its routes and its components. -/
def serviceFields (s : Service) : List Field := s.routes.flatMap routeFields ++ s.components

end Astra.Spec
