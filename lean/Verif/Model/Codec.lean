/-
The Go values written to the cache and to the JSON output, as JSON values: the struct tags of types.go, service.go, config.go,
input.go, output.go, astTraversal/tags.go. A Go map is written with its keys in order.
-/
import Verif.Model.Service

namespace Astra

/-! ### Generic parts of encoding/json -/

/-- The empty values of the `omitempty` option (false, 0, "", nil and empty slices and maps). The encoder that cache.go:46 and
outputs/json/generate.go:30 call. -/
def isZeroJson : Json → Bool
  | .null => true
  | .bool b => !b
  | .num t => decide (t = c!"0")
  | .str s => s.isEmpty
  | .arr xs => xs.isEmpty
  | .obj ms => ms.isEmpty

/-- One struct field: whether it has `omitempty`, its key and its value. The encoder that cache.go:46 and outputs/json/generate.go:30
call. -/
structure Member where
  omitempty : Bool
  key : Str
  value : Json

/-- The members that a struct is written with. The encoder that cache.go:46 and outputs/json/generate.go:30 call. -/
def members : List Member → List (Str × Json)
  | [] => []
  | m :: ms => if m.omitempty && isZeroJson m.value then members ms else (m.key, m.value) :: members ms

/-- The members of a Go map: sorted by key. The encoder that cache.go:46 and outputs/json/generate.go:30 call. -/
def sortedMembers (ms : List (Str × Json)) : List (Str × Json) := ms.foldl (fun acc e => mset acc e.1 e.2) []

/-- A character of a key without its letter case: besides the Latin letters, the long s and the Kelvin sign are taken for letters.
`foldRune` of the decoder that cache.go:96 calls. -/
def foldChar (c : Char) : Char :=
  if 'a' ≤ c ∧ c ≤ 'z' then Char.ofNat (c.toNat - 32)
  else if c.toNat = 0x17f then 'S' else if c.toNat = 0x212a then 'K' else c

/-- Keys that differ in letter case only are the same field: `foldName` of the decoder that cache.go:96 calls. -/
def foldKey (k : Str) : Str := k.map foldChar

/-- The last member of an object for a field, if any. The decoder that cache.go:96 calls. -/
def lastMember : List (Str × Json) → Str → Option Json
  | [], _ => none
  | (k', v) :: ms, k => match lastMember ms k with
    | some w => some w
    | none => if foldKey k' = foldKey k then some v else none

/-- The value of a field; an absent key reads as null, which leaves the zero value. Letter case does not matter. Simplification: of
keys that stand for one field the last counts (Go merges objects and lists of equal keys and still reports errors in the earlier
ones); written objects have distinct keys. The decoder that cache.go:96 calls. -/
def member (ms : List (Str × Json)) (k : Str) : Json := (lastMember ms k).getD .null

/-- Read a string. The decoder that cache.go:96 calls. -/
def readStr : Json → Option Str
  | .null => some []
  | .str s => some s
  | _ => none

/-- Read a boolean. The decoder that cache.go:96 calls. -/
def readBool : Json → Option Bool
  | .null => some false
  | .bool b => some b
  | _ => none

/-- Read an integer. The decoder that cache.go:96 calls. -/
def readInt : Json → Option Int
  | .null => some 0
  | .num t => atoi t
  | _ => none

/-- Read every element. The decoder that cache.go:96 calls. -/
def readAll {α β : Type} (f : α → Option β) : List α → Option (List β)
  | [] => some []
  | x :: xs => match f x with
    | none => none
    | some y => match readAll f xs with
      | none => none
      | some ys => some (y :: ys)

/-- Read a slice. The decoder that cache.go:96 calls. -/
def readArr {α : Type} (f : Json → Option α) : Json → Option (List α)
  | .null => some []
  | .arr xs => readAll f xs
  | _ => none

/-- Read one entry of a map with string keys. The decoder that cache.go:96 calls. -/
def readEntry {K α : Type} (key : Str → Option K) (f : Json → Option α) (e : Str × Json) : Option (K × α) :=
  match key e.1, f e.2 with
  | some k, some v => some (k, v)
  | _, _ => none

/-- Read a map. The decoder that cache.go:96 calls. -/
def readMap {K α : Type} (key : Str → Option K) (f : Json → Option α) : Json → Option (List (K × α))
  | .null => some []
  | .obj ms => readAll (readEntry key f) ms
  | _ => none

/-- Read a struct: null is the zero value. The decoder that cache.go:96 calls. -/
def readObj {α : Type} (f : List (Str × Json) → Option α) : Json → Option α
  | .null => f []
  | .obj ms => f ms
  | _ => none

/-! ### Writing -/

/-- An element of `EnumValues []any`. types.go:75. -/
def encEnum : EnumVal → Json
  | .str s => .str s
  | .int i => .num (itoa i)
  | .float t => .num t
  | .bool b => .bool b

/-- astTraversal/tags.go:22-26: the tags of `BindingTag`. -/
def encBindingTag (t : BindingTag) : Json :=
  .obj (members [⟨true, c!"name", .str t.name⟩, ⟨true, c!"not_shown", .bool t.notShown⟩,
    ⟨true, c!"return_optional", .bool t.returnOptional⟩])

/-- astTraversal/tags.go:40-42: the tags of `ValidationTag`. -/
def encValidationTag (required : Bool) : Json := .obj (members [⟨true, c!"is_required", .bool required⟩])

/-- types.go:70-94: the members of a `Field`; `fields` is the written map of struct fields. -/
def fieldMembers (package type name : Str) (enumValues : List EnumVal) (isRequired isEmbedded : Bool) (sliceType arrayType : Str)
    (arrayLength : Int) (mapKeyPackage mapKeyType mapValueType : Str) (fields : List (Str × Json))
    (bindingTags : List (BTag × BindingTag)) (validationTags : List (VTag × Bool)) (doc : Str) : List Member := [
  ⟨true, c!"package", .str package⟩,
  ⟨true, c!"type", .str type⟩,
  ⟨true, c!"name", .str name⟩,
  ⟨true, c!"enumValues", .arr (enumValues.map encEnum)⟩,
  ⟨true, c!"isRequired", .bool isRequired⟩,
  ⟨true, c!"isEmbedded", .bool isEmbedded⟩,
  ⟨true, c!"sliceType", .str sliceType⟩,
  ⟨true, c!"arrayType", .str arrayType⟩,
  ⟨true, c!"arrayLength", .num (itoa arrayLength)⟩,
  ⟨true, c!"mapKeyPackage", .str mapKeyPackage⟩,
  ⟨true, c!"mapKeyType", .str mapKeyType⟩,
  ⟨true, c!"mapValueType", .str mapValueType⟩,
  ⟨true, c!"structFields", .obj (sortedMembers fields)⟩,
  ⟨true, c!"structFieldBindingTags", .obj (sortedMembers (bindingTags.map (fun e => (e.1.toStr, encBindingTag e.2))))⟩,
  ⟨true, c!"structFieldValidationTags", .obj (sortedMembers (validationTags.map (fun e => (e.1.toStr, encValidationTag e.2))))⟩,
  ⟨true, c!"doc", .str doc⟩]

mutual
/-- types.go:70-94: a `Field`. -/
def encField : Field → Json
  | ⟨package, type, name, enumValues, isRequired, isEmbedded, sliceType, arrayType, arrayLength, mapKeyPackage, mapKeyType,
      mapValueType, structFields, bindingTags, validationTags, doc⟩ =>
    .obj (members (fieldMembers package type name enumValues isRequired isEmbedded sliceType arrayType arrayLength mapKeyPackage
      mapKeyType mapValueType (encFields structFields) bindingTags validationTags doc))
/-- types.go:89: the map of struct fields. -/
def encFields : List (Str × Field) → List (Str × Json)
  | [] => []
  | (k, f) :: fs => (k, encField f) :: encFields fs
end

/-- types.go:36-44: a `Param`. -/
def encParam (p : Param) : Json :=
  .obj (members [⟨true, c!"name", .str p.name⟩, ⟨false, c!"type", encField p.field⟩, ⟨true, c!"isRequired", .bool p.isRequired⟩,
    ⟨true, c!"isArray", .bool p.isArray⟩, ⟨true, c!"isMap", .bool p.isMap⟩, ⟨true, c!"isBound", .bool p.isBound⟩])

/-- types.go:46-55: a `BodyParam`. -/
def encBodyParam (p : BodyParam) : Json :=
  .obj (members [⟨true, c!"name", .str p.name⟩, ⟨false, c!"type", encField p.field⟩, ⟨true, c!"contentType", .str p.contentType⟩,
    ⟨true, c!"isRequired", .bool p.isRequired⟩, ⟨true, c!"isArray", .bool p.isArray⟩, ⟨true, c!"isMap", .bool p.isMap⟩,
    ⟨true, c!"isBound", .bool p.isBound⟩])

/-- types.go:27-31: a `ReturnType`. -/
def encReturnType (t : ReturnType) : Json :=
  .obj (members [⟨true, c!"statusCode", .num (itoa t.statusCode)⟩, ⟨true, c!"contentType", .str t.contentType⟩,
    ⟨false, c!"field", encField t.field⟩])

/-- types.go:8-23: a `Route`. -/
def encRoute (r : Route) : Json :=
  .obj (members [
    ⟨false, c!"handler", .str r.handler⟩,
    ⟨false, c!"file", .str r.file⟩,
    ⟨false, c!"lineNo", .num (itoa r.lineNo)⟩,
    ⟨false, c!"method", .str r.method⟩,
    ⟨false, c!"path", .str r.path⟩,
    ⟨true, c!"params", .arr (r.pathParams.map encParam)⟩,
    ⟨true, c!"queryParams", .arr (r.queryParams.map encParam)⟩,
    ⟨true, c!"body", .arr (r.body.map encBodyParam)⟩,
    ⟨true, c!"returnTypes", .arr (r.returnTypes.map encReturnType)⟩,
    ⟨true, c!"doc", .str r.doc⟩,
    ⟨true, c!"operationId", .str r.operationId⟩,
    ⟨true, c!"requestHeaders", .arr (r.requestHeaders.map encParam)⟩,
    ⟨true, c!"responseHeaders", .arr (r.responseHeaders.map encParam)⟩])

/-- config.go:5-27: a `Config`. -/
def encConfig (c : Config) : Json :=
  .obj (members [
    ⟨false, c!"title", .str c.title⟩,
    ⟨false, c!"description", .str c.description⟩,
    ⟨false, c!"version", .str c.version⟩,
    ⟨false, c!"contact", .obj (members [⟨false, c!"name", .str c.contact.name⟩, ⟨false, c!"url", .str c.contact.url⟩,
      ⟨false, c!"email", .str c.contact.email⟩])⟩,
    ⟨false, c!"license", .obj (members [⟨false, c!"name", .str c.license.name⟩, ⟨false, c!"url", .str c.license.url⟩])⟩,
    ⟨false, c!"secure", .bool c.secure⟩,
    ⟨false, c!"host", .str c.host⟩,
    ⟨false, c!"basePath", .str c.basePath⟩,
    ⟨false, c!"port", .num (itoa c.port)⟩])

/-- service.go:26: the config pointer. -/
def encConfigPtr : Option Config → Json
  | none => .null
  | some c => encConfig c

/-- input.go:4-8: an `Input`; the functions are not written. -/
def encInput (i : Input) : Json := .obj (members [⟨false, c!"mode", .str i.mode⟩])

/-- output.go:5-9: an `Output`; the function is not written. -/
def encOutput (o : Output) : Json :=
  .obj (members [⟨false, c!"mode", .str o.mode⟩, ⟨false, c!"configuration", .obj (sortedMembers o.configuration)⟩])

/-- formatTypes.go:6-9: a `TypeFormat`. -/
def encTypeFormat (t : TypeFormat) : Json :=
  .obj (members [⟨false, c!"Type", .str t.type⟩, ⟨false, c!"Format", .str t.format⟩])

/-- service.go:20-47: the members of the service in the cache. -/
def serviceMembers (s : Service) : List (Str × Json) :=
  members [
    ⟨false, c!"inputs", .arr (s.inputs.map encInput)⟩,
    ⟨false, c!"outputs", .arr (s.outputs.map encOutput)⟩,
    ⟨false, c!"config", encConfigPtr s.config⟩,
    ⟨false, c!"routes", .arr (s.routes.map encRoute)⟩,
    ⟨false, c!"components", .arr (s.components.map encField)⟩,
    ⟨false, c!"custom_type_mapping", .obj (sortedMembers (s.maps.custom.map (fun e => (e.1, encTypeFormat e.2))))⟩]

/-- service.go:20-47: the service as it is written to the cache. -/
def encService (s : Service) : Json := .obj (serviceMembers s)

/-- outputs/json/generate.go:14-17, 24-27: the JSON output. -/
def encJsonOutput (routes : List Route) (components : List Field) : Json :=
  .obj (members [⟨false, c!"routes", .arr (routes.map encRoute)⟩, ⟨false, c!"components", .arr (components.map encField)⟩])

/-! ### Reading

`f64` stands for reading a number into a Go `any`: it becomes a `float64`, described by the text it would be written with. -/

/-- An element of `EnumValues []any`. Simplification: nested arrays and objects do not occur. types.go:75. -/
def decEnum (f64 : Str → Str) : Json → Option EnumVal
  | .str s => some (.str s)
  | .num t => some (.float (f64 t))
  | .bool b => some (.bool b)
  | _ => none

/-- astTraversal/tags.go:10-18: the binding kind of a key. Simplification: the Go type is a string; other strings do not occur. -/
def bTagOf (k : Str) : Option BTag :=
  if k = c!"header" then some .header else if k = c!"form" then some .form else if k = c!"uri" then some .uri
  else if k = c!"json" then some .json else if k = c!"xml" then some .xml else if k = c!"yaml" then some .yaml
  else if k = [] then some .none else none

/-- astTraversal/tags.go:30-36: the validation kind of a key; same simplification. -/
def vTagOf (k : Str) : Option VTag :=
  if k = c!"binding" then some .binding else if k = c!"validate" then some .validate else if k = [] then some .none else none

/-- astTraversal/tags.go:22-26. -/
def decBindingTag : Json → Option BindingTag := readObj (fun ms => do
  let name ← readStr (member ms c!"name")
  let notShown ← readBool (member ms c!"not_shown")
  let returnOptional ← readBool (member ms c!"return_optional")
  pure { name := name, notShown := notShown, returnOptional := returnOptional })

/-- astTraversal/tags.go:40-42. -/
def decValidationTag : Json → Option Bool := readObj (fun ms => readBool (member ms c!"is_required"))

/-- types.go:70-94: a `Field` from its members, given its struct fields. -/
def decFieldWith (f64 : Str → Str) (ms : List (Str × Json)) (structFields : List (Str × Field)) : Option Field := do
  let package ← readStr (member ms c!"package")
  let type ← readStr (member ms c!"type")
  let name ← readStr (member ms c!"name")
  let enumValues ← readArr (decEnum f64) (member ms c!"enumValues")
  let isRequired ← readBool (member ms c!"isRequired")
  let isEmbedded ← readBool (member ms c!"isEmbedded")
  let sliceType ← readStr (member ms c!"sliceType")
  let arrayType ← readStr (member ms c!"arrayType")
  let arrayLength ← readInt (member ms c!"arrayLength")
  let mapKeyPackage ← readStr (member ms c!"mapKeyPackage")
  let mapKeyType ← readStr (member ms c!"mapKeyType")
  let mapValueType ← readStr (member ms c!"mapValueType")
  let bindingTags ← readMap bTagOf decBindingTag (member ms c!"structFieldBindingTags")
  let validationTags ← readMap vTagOf decValidationTag (member ms c!"structFieldValidationTags")
  let doc ← readStr (member ms c!"doc")
  pure ⟨package, type, name, enumValues, isRequired, isEmbedded, sliceType, arrayType, arrayLength, mapKeyPackage, mapKeyType,
    mapValueType, structFields, bindingTags, validationTags, doc⟩

mutual
/-- types.go:70-94: a `Field`. -/
def decField (f64 : Str → Str) : Json → Option Field
  | .null => decFieldWith f64 [] []
  | .obj ms => match decStructFields f64 ms with
    | none => none
    | some fs => decFieldWith f64 ms fs
  | _ => none
/-- The struct fields among the members of a field. types.go:89. -/
def decStructFields (f64 : Str → Str) : List (Str × Json) → Option (List (Str × Field))
  | [] => some []
  | (k, v) :: ms => if (lastMember ms c!"structFields").isSome then decStructFields f64 ms
    else if foldKey k = foldKey c!"structFields" then decFieldMap f64 v else some []
/-- types.go:89: the map of struct fields. -/
def decFieldMap (f64 : Str → Str) : Json → Option (List (Str × Field))
  | .null => some []
  | .obj ms => decFieldEntries f64 ms
  | _ => none
/-- types.go:89: its entries. -/
def decFieldEntries (f64 : Str → Str) : List (Str × Json) → Option (List (Str × Field))
  | [] => some []
  | (k, v) :: ms => match decField f64 v with
    | none => none
    | some f => match decFieldEntries f64 ms with
      | none => none
      | some fs => some ((k, f) :: fs)
end

/-- types.go:36-44. -/
def decParam (f64 : Str → Str) : Json → Option Param := readObj (fun ms => do
  let name ← readStr (member ms c!"name")
  let field ← decField f64 (member ms c!"type")
  let isRequired ← readBool (member ms c!"isRequired")
  let isArray ← readBool (member ms c!"isArray")
  let isMap ← readBool (member ms c!"isMap")
  let isBound ← readBool (member ms c!"isBound")
  pure { name := name, field := field, isRequired := isRequired, isArray := isArray, isMap := isMap, isBound := isBound })

/-- types.go:46-55. -/
def decBodyParam (f64 : Str → Str) : Json → Option BodyParam := readObj (fun ms => do
  let name ← readStr (member ms c!"name")
  let field ← decField f64 (member ms c!"type")
  let contentType ← readStr (member ms c!"contentType")
  let isRequired ← readBool (member ms c!"isRequired")
  let isArray ← readBool (member ms c!"isArray")
  let isMap ← readBool (member ms c!"isMap")
  let isBound ← readBool (member ms c!"isBound")
  pure { name := name, field := field, contentType := contentType, isRequired := isRequired, isArray := isArray, isMap := isMap,
         isBound := isBound })

/-- types.go:27-31. -/
def decReturnType (f64 : Str → Str) : Json → Option ReturnType := readObj (fun ms => do
  let statusCode ← readInt (member ms c!"statusCode")
  let contentType ← readStr (member ms c!"contentType")
  let field ← decField f64 (member ms c!"field")
  pure { statusCode := statusCode, contentType := contentType, field := field })

/-- types.go:8-23. -/
def decRoute (f64 : Str → Str) : Json → Option Route := readObj (fun ms => do
  let handler ← readStr (member ms c!"handler")
  let file ← readStr (member ms c!"file")
  let lineNo ← readInt (member ms c!"lineNo")
  let method ← readStr (member ms c!"method")
  let path ← readStr (member ms c!"path")
  let pathParams ← readArr (decParam f64) (member ms c!"params")
  let queryParams ← readArr (decParam f64) (member ms c!"queryParams")
  let body ← readArr (decBodyParam f64) (member ms c!"body")
  let returnTypes ← readArr (decReturnType f64) (member ms c!"returnTypes")
  let doc ← readStr (member ms c!"doc")
  let operationId ← readStr (member ms c!"operationId")
  let requestHeaders ← readArr (decParam f64) (member ms c!"requestHeaders")
  let responseHeaders ← readArr (decParam f64) (member ms c!"responseHeaders")
  pure { handler := handler, file := file, lineNo := lineNo, method := method, path := path, pathParams := pathParams,
         queryParams := queryParams, body := body, returnTypes := returnTypes, doc := doc, operationId := operationId,
         requestHeaders := requestHeaders, responseHeaders := responseHeaders })

/-- config.go:18-22. -/
def decContact : Json → Option Contact := readObj (fun ms => do
  let name ← readStr (member ms c!"name")
  let url ← readStr (member ms c!"url")
  let email ← readStr (member ms c!"email")
  pure { name := name, url := url, email := email })

/-- config.go:24-27. -/
def decLicense : Json → Option License := readObj (fun ms => do
  let name ← readStr (member ms c!"name")
  let url ← readStr (member ms c!"url")
  pure { name := name, url := url })

/-- config.go:5-16. -/
def decConfig : Json → Option Config := readObj (fun ms => do
  let title ← readStr (member ms c!"title")
  let description ← readStr (member ms c!"description")
  let version ← readStr (member ms c!"version")
  let contact ← decContact (member ms c!"contact")
  let license ← decLicense (member ms c!"license")
  let secure ← readBool (member ms c!"secure")
  let host ← readStr (member ms c!"host")
  let basePath ← readStr (member ms c!"basePath")
  let port ← readInt (member ms c!"port")
  pure { title := title, description := description, version := version, contact := contact, license := license, secure := secure,
         host := host, basePath := basePath, port := port })

/-- service.go:26: the config pointer; null is nil. -/
def decConfigPtr : Json → Option (Option Config)
  | .null => some none
  | j => (decConfig j).map some

/-- input.go:4-8. -/
def decInput : Json → Option Input := readObj (fun ms => do
  let mode ← readStr (member ms c!"mode")
  pure { mode := mode })

/-- output.go:5-9. -/
def decOutput : Json → Option Output := readObj (fun ms => do
  let mode ← readStr (member ms c!"mode")
  let configuration ← readMap some some (member ms c!"configuration")
  pure { mode := mode, configuration := configuration })

/-- formatTypes.go:6-9. -/
def decTypeFormat : Json → Option TypeFormat := readObj (fun ms => do
  let type ← readStr (member ms c!"Type")
  let format ← readStr (member ms c!"Format")
  pure { type := type, format := format })

/-- service.go:20-47, cache.go:94-96: what the decoder reads from the cache. -/
structure CacheData where
  inputs : List Input
  outputs : List Output
  config : Option Config
  routes : List Route
  components : List Field
  typeMapping : List (Str × TypeFormat)

/-- service.go:20-47: reading the cache. -/
def decService (f64 : Str → Str) : Json → Option CacheData := readObj (fun ms => do
  let inputs ← readArr decInput (member ms c!"inputs")
  let outputs ← readArr decOutput (member ms c!"outputs")
  let config ← decConfigPtr (member ms c!"config")
  let routes ← readArr (decRoute f64) (member ms c!"routes")
  let components ← readArr (decField f64) (member ms c!"components")
  let typeMapping ← readMap some decTypeFormat (member ms c!"custom_type_mapping")
  pure { inputs := inputs, outputs := outputs, config := config, routes := routes, components := components, typeMapping := typeMapping })

end Astra
