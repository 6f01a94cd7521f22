/-
The data types of the code: types.go, service.go, config.go, formatTypes.go, astTraversal/tags.go.
-/
import Verif.Basic

namespace Astra

/-- astTraversal/tags.go:8-18: `BindingTagType` and its constants. Simplification: the Go type is a string; only the
seven declared constants are modelled. -/
inductive BTag where
  | header | form | uri | json | xml | yaml | none
  deriving Repr, DecidableEq

/-- astTraversal/tags.go:10-18: the string value of each constant. -/
def BTag.toStr : BTag → Str
  | .header => c!"header" | .form => c!"form" | .uri => c!"uri" | .json => c!"json"
  | .xml => c!"xml" | .yaml => c!"yaml" | .none => []

/-- astTraversal/tags.go:20 `BindingTags`. -/
def bindingTags : List BTag := [.header, .form, .uri, .json, .xml, .yaml]

/-- astTraversal/tags.go:22-26 `BindingTag`. -/
structure BindingTag where
  name : Str := []
  notShown : Bool := false
  returnOptional : Bool := false
  deriving Repr, DecidableEq

/-- astTraversal/tags.go:30-36: `ValidationTagType`. -/
inductive VTag where
  | binding | validate | none
  deriving Repr, DecidableEq

/-- astTraversal/tags.go:32-36: the string value of each constant. -/
def VTag.toStr : VTag → Str
  | .binding => c!"binding" | .validate => c!"validate" | .none => []

/-- astTraversal/tags.go:38 `ValidationTags`. -/
def validationTags : List VTag := [.binding, .validate]

/-- astTraversal/type.go:79-117: the values put in `EnumValues []any`.
Simplification: a float is kept as its literal text. -/
inductive EnumVal where
  | str (s : Str) | int (i : Int) | float (s : Str) | bool (b : Bool)
  deriving Repr, DecidableEq

/-- types.go:70-94 `Field`. `structFields`, `bindingTags` and `validationTags` are Go maps: association lists whose order is the iteration order the
runtime happens to choose (a nil map is the empty list). `ValidationTag` (tags.go:40-42) has the single field `IsRequired`. -/
structure Field where
  package : Str := []
  type : Str := []
  name : Str := []
  enumValues : List EnumVal := []
  isRequired : Bool := false
  isEmbedded : Bool := false
  sliceType : Str := []
  arrayType : Str := []
  arrayLength : Int := 0
  mapKeyPackage : Str := []
  mapKeyType : Str := []
  mapValueType : Str := []
  structFields : List (Str × Field) := []
  bindingTags : List (BTag × BindingTag) := []
  validationTags : List (VTag × Bool) := []
  doc : Str := []
  deriving Repr, Inhabited

mutual
/-- Decidable equality of fields (not in the Go code; used to evaluate concrete cases). The type is that of types.go:70-94. -/
def Field.decEq : (a b : Field) → Decidable (a = b)
  | ⟨a1, a2, a3, a4, a5, a6, a7, a8, a9, a10, a11, a12, as, a14, a15, a16⟩,
    ⟨b1, b2, b3, b4, b5, b6, b7, b8, b9, b10, b11, b12, bs, b14, b15, b16⟩ =>
    match Field.decEqList as bs with
    | isFalse h => isFalse (fun e => h (Field.mk.inj e).2.2.2.2.2.2.2.2.2.2.2.2.1)
    | isTrue hs =>
      if h : (a1 = b1 ∧ a2 = b2 ∧ a3 = b3 ∧ a4 = b4 ∧ a5 = b5 ∧ a6 = b6 ∧ a7 = b7 ∧ a8 = b8) ∧
          (a9 = b9 ∧ a10 = b10 ∧ a11 = b11 ∧ a12 = b12 ∧ a14 = b14 ∧ a15 = b15 ∧ a16 = b16) then
        isTrue (by
          obtain ⟨⟨h1, h2, h3, h4, h5, h6, h7, h8⟩, h9, h10, h11, h12, h14, h15, h16⟩ := h
          subst h1 h2 h3 h4 h5 h6 h7 h8 h9 h10 h11 h12 h14 h15 h16 hs; rfl)
      else
        isFalse (fun e => h (by injection e; simp_all))
/-- Helper of `Field.decEq` for the struct field list. The type is that of types.go:70-94. -/
def Field.decEqList : (a b : List (Str × Field)) → Decidable (a = b)
  | [], [] => isTrue rfl
  | [], _ :: _ => isFalse (by simp)
  | _ :: _, [] => isFalse (by simp)
  | (k, f) :: r, (k', f') :: r' =>
    match Field.decEq f f', Field.decEqList r r' with
    | isTrue h1, isTrue h2 => if h : k = k' then isTrue (by subst h h1 h2; rfl) else isFalse (by simp [h])
    | isFalse h1, _ => isFalse (by simp [h1])
    | _, isFalse h2 => isFalse (by simp [h2])
end

instance : DecidableEq Field := Field.decEq

/-- types.go:36-44 `Param`. -/
structure Param where
  name : Str := []
  field : Field := {}
  isRequired : Bool := false
  isArray : Bool := false
  isMap : Bool := false
  isBound : Bool := false
  deriving Repr, DecidableEq, Inhabited

/-- types.go:46-55 `BodyParam`. -/
structure BodyParam where
  name : Str := []
  field : Field := {}
  contentType : Str := []
  isRequired : Bool := false
  isArray : Bool := false
  isMap : Bool := false
  isBound : Bool := false
  deriving Repr, DecidableEq, Inhabited

/-- types.go:27-31 `ReturnType`. -/
structure ReturnType where
  statusCode : Int := 0
  contentType : Str := []
  field : Field := {}
  deriving Repr, DecidableEq, Inhabited

/-- types.go:8-23 `Route`. -/
structure Route where
  handler : Str := []
  file : Str := []
  lineNo : Int := 0
  method : Str := []
  path : Str := []
  pathParams : List Param := []
  queryParams : List Param := []
  body : List BodyParam := []
  returnTypes : List ReturnType := []
  doc : Str := []
  operationId : Str := []
  requestHeaders : List Param := []
  responseHeaders : List Param := []
  deriving Repr, DecidableEq, Inhabited

/-- config.go:18-22 `Contact`. -/
structure Contact where
  name : Str := []
  url : Str := []
  email : Str := []
  deriving Repr, DecidableEq, Inhabited

/-- config.go:24-27 `License`. -/
structure License where
  name : Str := []
  url : Str := []
  deriving Repr, DecidableEq, Inhabited

/-- config.go:5-16 `Config`. -/
structure Config where
  title : Str := []
  description : Str := []
  version : Str := []
  contact : Contact := {}
  license : License := {}
  secure : Bool := false
  host : Str := []
  basePath : Str := []
  port : Int := 0
  deriving Repr, DecidableEq, Inhabited

/-- formatTypes.go:6-9 `TypeFormat`. -/
structure TypeFormat where
  type : Str := []
  format : Str := []
  deriving Repr, DecidableEq, Inhabited

end Astra
