/-
Model of the schema generation of outputs/openapi: types.go:167-196, components.go:135-251, schema.go.
-/
import Verif.Model.OpenApiNames
import Verif.Model.TypeMapping

namespace Astra

/-- outputs/openapi/types.go:167-196 `Schema`, the fields the generator sets. `properties` is a canonical map; nil and the
empty map are both `[]` (they are written the same way because of `omitempty`). -/
structure Schema where
  ref : Str := []
  type : Str := []
  format : Str := []
  maxLength : Int := 0
  enum : List EnumVal := []
  allOf : List Schema := []
  items : Option Schema := none
  properties : List (Str × Schema) := []
  additionalProperties : Option Schema := none
  description : Str := []
  deriving Repr, Inhabited

mutual
/-- Decidable equality of schemas (not in the Go code; used to evaluate concrete cases). The type is that of
outputs/openapi/types.go:167-196. -/
def Schema.decEq : (a b : Schema) → Decidable (a = b)
  | ⟨a1, a2, a3, a4, a5, as, ai, ap, aa, a10⟩, ⟨b1, b2, b3, b4, b5, bs, bi, bp, ba, b10⟩ =>
    match Schema.decEqList as bs, Schema.decEqOpt ai bi, Schema.decEqProps ap bp, Schema.decEqOpt aa ba with
    | isTrue h1, isTrue h2, isTrue h3, isTrue h4 =>
      if h : a1 = b1 ∧ a2 = b2 ∧ a3 = b3 ∧ a4 = b4 ∧ a5 = b5 ∧ a10 = b10 then
        isTrue (by obtain ⟨e1, e2, e3, e4, e5, e10⟩ := h; subst e1 e2 e3 e4 e5 e10 h1 h2 h3 h4; rfl)
      else isFalse (fun e => h (by injection e; simp_all))
    | isFalse h, _, _, _ => isFalse (fun e => h (by injection e))
    | _, isFalse h, _, _ => isFalse (fun e => h (by injection e))
    | _, _, isFalse h, _ => isFalse (fun e => h (by injection e))
    | _, _, _, isFalse h => isFalse (fun e => h (by injection e))
/-- Helper of `Schema.decEq`. The type is that of outputs/openapi/types.go:167-196. -/
def Schema.decEqList : (a b : List Schema) → Decidable (a = b)
  | [], [] => isTrue rfl
  | [], _ :: _ => isFalse (by simp)
  | _ :: _, [] => isFalse (by simp)
  | f :: r, f' :: r' =>
    match Schema.decEq f f', Schema.decEqList r r' with
    | isTrue h1, isTrue h2 => isTrue (by subst h1 h2; rfl)
    | isFalse h1, _ => isFalse (by simp [h1])
    | _, isFalse h2 => isFalse (by simp [h2])
/-- Helper of `Schema.decEq`. The type is that of outputs/openapi/types.go:167-196. -/
def Schema.decEqOpt : (a b : Option Schema) → Decidable (a = b)
  | none, none => isTrue rfl
  | none, some _ => isFalse (by simp)
  | some _, none => isFalse (by simp)
  | some f, some f' =>
    match Schema.decEq f f' with
    | isTrue h1 => isTrue (by subst h1; rfl)
    | isFalse h1 => isFalse (by simp [h1])
/-- Helper of `Schema.decEq`. The type is that of outputs/openapi/types.go:167-196. -/
def Schema.decEqProps : (a b : List (Str × Schema)) → Decidable (a = b)
  | [], [] => isTrue rfl
  | [], _ :: _ => isFalse (by simp)
  | _ :: _, [] => isFalse (by simp)
  | (k, f) :: r, (k', f') :: r' =>
    match Schema.decEq f f', Schema.decEqProps r r' with
    | isTrue h1, isTrue h2 => if h : k = k' then isTrue (by subst h h1 h2; rfl) else isFalse (by simp [h])
    | isFalse h1, _ => isFalse (by simp [h1])
    | _, isFalse h2 => isFalse (by simp [h2])
end

instance : DecidableEq Schema := Schema.decEq

/-- The schema of a type format: outputs/openapi/schema.go:90-96, 106-112. -/
def formatSchema (tf : Option TypeFormat) : Schema :=
  match tf with
  | some f => if f.type = [] then {} else { type := f.type, format := f.format }
  | none => {}

/-- What schema generation reads: the merged type mapping (`GetTypeMapping` always consults the same merged map, see
`lookup_fresh`) and the name table. formatTypes.go:129-143, outputs/openapi/components.go:12. -/
structure SchemaEnv where
  types : List (Str × TypeFormat) := mapsCopy [] predefinedTypeMap
  names : List (Str × Str) := []

/-- formatTypes.go:129-143 `GetTypeMapping` on the merged map. -/
def SchemaEnv.mapping (E : SchemaEnv) (name pkg : Str) : Option TypeFormat := mget E.types (typeMappingKey name pkg)

/-- outputs/openapi/schema.go:88-100 `mapTypeFormat`. -/
def mapTypeFormat (E : SchemaEnv) (name pkg : Str) : Schema := formatSchema (E.mapping name pkg)

/-- outputs/openapi/schema.go:104-116 `mapPredefinedTypeFormat`. -/
def mapPredefined (t : Str) : Schema := formatSchema (aget predefinedTypeMap t)

/-- outputs/openapi/components.go:190-199, 206-215, 223-230: the schema of an element type inside a component: predefined,
else a reference if the name table has one, else empty. (In the map case the code sets `Ref` on the empty schema; `Format`
is empty too whenever `Type` is.) -/
def elemSchema (E : SchemaEnv) (b : BTag) (t pkg : Str) : Schema :=
  if (mapPredefined t).type = [] ∧ isAcceptedType t = false then
    match makeRef E.names b t pkg with
    | some r => { ref := r }
    | none => mapPredefined t
  else mapPredefined t

/-- outputs/openapi/components.go:161-168: the binding a field is shown under: its own tag for the kind, else its kind-less
tag; a zero tag counts as absent. -/
def fieldBinding (f : Field) (b : BTag) : Option BindingTag :=
  let own := (aget f.bindingTags b).getD {}
  let noBinding := (aget f.bindingTags .none).getD {}
  if own = {} ∧ noBinding = {} then none else if own = {} then some noBinding else some own

/-- outputs/openapi/components.go:178-188: combine embedded references and properties. -/
def composeStruct (embedded : List Schema) (props : List (Str × Schema)) : Schema :=
  if embedded = [] then { type := c!"object", properties := props }
  else if props = [] then { type := c!"object", allOf := embedded }
  else { type := c!"object", allOf := embedded ++ [{ properties := props }] }

/-- outputs/openapi/components.go:189-248: every component that is not a struct. -/
def leafSchema (E : SchemaEnv) (b : BTag) (c : Field) : Schema :=
  if c.type = c!"slice" then { type := c!"array", items := some (elemSchema E b c.sliceType c.package) }
  else if c.type = c!"array" then
    { type := c!"array", items := some (elemSchema E b c.arrayType c.package), maxLength := c.arrayLength }
  else if c.type = c!"map" then
    { type := c!"object", additionalProperties := some (elemSchema E b c.mapValueType c.package) }
  else if (mapPredefined c.type).type = [] ∧ isAcceptedType c.type = false then
    match makeRef E.names b c.type c.package with
    | some r => { ref := r }
    | none => mapPredefined c.type
  else { mapPredefined c.type with enum := c.enumValues }

mutual
/-- outputs/openapi/components.go:136-251 `componentToSchema`; `none` is `bound = false`. `int(component.ArrayLength)` is
the identity on the modelled lengths. -/
def componentToSchema (E : SchemaEnv) (b : BTag) : Field → Option Schema
  | ⟨package, type, name, enumValues, isRequired, isEmbedded, sliceType, arrayType, arrayLength, mapKeyPackage, mapKeyType,
      mapValueType, structFields, bindingTags, validationTags, doc⟩ =>
    if (E.mapping name package).isSome then some (mapTypeFormat E name package)
    else if type = c!"struct" then
      match structLoop E b structFields [] [] with
      | some (embedded, props) => some (composeStruct embedded props)
      | none => none
    else some (leafSchema E b ⟨package, type, name, enumValues, isRequired, isEmbedded, sliceType, arrayType, arrayLength,
      mapKeyPackage, mapKeyType, mapValueType, structFields, bindingTags, validationTags, doc⟩)
/-- outputs/openapi/components.go:147-176: the loop over the struct fields, in iteration order. -/
def structLoop (E : SchemaEnv) (b : BTag) :
    List (Str × Field) → List Schema → List (Str × Schema) → Option (List Schema × List (Str × Schema))
  | [], embedded, props => some (embedded, props)
  | (_, f) :: rest, embedded, props =>
    if f.isEmbedded then
      match makeRef E.names b f.type f.package with
      | some r => structLoop E b rest (embedded ++ [{ ref := r }]) props
      | none => structLoop E b rest embedded props
    else
      match fieldBinding f b with
      | none => none
      | some tag =>
        if tag.notShown then structLoop E b rest embedded props
        else
          match componentToSchema E b f with
          | some s => structLoop E b rest embedded (mset props tag.name s)
          | none => structLoop E b rest embedded props
end

/-- outputs/openapi/schema.go:44-84 `mapFieldToSchema`; `none` is `bound = false`. -/
def mapFieldToSchema (E : SchemaEnv) (b : BTag) (f : Field) : Option Schema :=
  if isAcceptedType f.type = false then
    (makeRef E.names b f.type f.package).map (fun r => { ref := r })
  else if f.type = c!"slice" then
    let item : Schema :=
      if isAcceptedType f.sliceType = false then
        match makeRef E.names b f.sliceType f.package with
        | some r => { ref := r }
        | none => { type := (mapPredefined f.sliceType).type }
      else { type := (mapPredefined f.sliceType).type }
    some { mapPredefined f.type with items := some item }
  else if f.type = c!"map" then
    let value : Schema :=
      if isAcceptedType f.mapValueType = false then
        match makeRef E.names b f.mapValueType f.package with
        | some r => { ref := r }
        | none => {}
      else mapPredefined f.mapValueType
    some { mapPredefined f.type with additionalProperties := some value }
  else some (mapPredefined f.type)

/-- outputs/openapi/schema.go:8-42 `mapParamToSchema`; `none` is `bound = false`. -/
def mapParamToSchema (E : SchemaEnv) (b : BTag) (p : Param) : Option Schema :=
  if p.isBound then mapFieldToSchema E b p.field
  else if p.isArray then
    let item : Schema :=
      if isAcceptedType p.field.type = false then
        match makeRef E.names b p.field.type p.field.package with
        | some r => { ref := r }
        | none => mapPredefined p.field.type
      else mapPredefined p.field.type
    some { type := c!"array", items := some item }
  else if p.isMap then
    let value : Schema :=
      if isAcceptedType p.field.type = false then
        match makeRef E.names b p.field.type p.field.package with
        | some r => { ref := r }
        | none => {}
      else mapPredefined p.field.type
    some { type := c!"object", additionalProperties := some value }
  else some (mapPredefined p.field.type)

/-- outputs/openapi/schema.go:119-127 `getQueryParamStyle`. -/
def queryParamStyle (s : Schema) : Str × Bool :=
  if s.type = c!"object" then (c!"deepObject", true) else (c!"form", false)

/-- outputs/openapi/schema.go:130-138 `findComponentByPackageAndType`. -/
def findComponent (components : List Field) (pkg name : Str) : Option Field :=
  components.find? (fun c => c.package = pkg && c.name = name)

end Astra
