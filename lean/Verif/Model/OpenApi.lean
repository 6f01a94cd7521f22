/-
Model of the document built by outputs/openapi/generate.go:24-295 (writing the file is not part of this module).
-/
import Verif.Model.Schema
import Verif.Model.Paths

namespace Astra

/-- outputs/openapi/types.go:83-94 `Parameter`, the fields the generator sets. -/
structure OParam where
  name : Str := []
  loc : Str := []
  required : Bool := false
  style : Str := []
  explode : Bool := false
  schema : Schema := {}
  deriving Repr, DecidableEq, Inhabited

/-- outputs/openapi/types.go:117-124 `Header`. -/
structure OHeader where
  required : Bool := false
  schema : Schema := {}
  deriving Repr, DecidableEq, Inhabited

/-- outputs/openapi/types.go:130-135 `Response`. A media type (outputs/openapi/types.go:105-108) is its schema. -/
structure OResponse where
  headers : List (Str × OHeader) := []
  content : List (Str × Schema) := []
  deriving Repr, DecidableEq, Inhabited

/-- outputs/openapi/types.go:66-80 `Operation`; `requestBody = none` is the nil pointer, otherwise its content map. -/
structure Operation where
  description : Str := []
  operationId : Str := []
  parameters : List OParam := []
  requestBody : Option (List (Str × Schema)) := none
  responses : List (Str × OResponse) := []
  deriving Repr, DecidableEq, Inhabited

/-- outputs/openapi/types.go:49-63 `Path`. -/
structure PathItem where
  get : Option Operation := none
  post : Option Operation := none
  put : Option Operation := none
  patch : Option Operation := none
  delete : Option Operation := none
  head : Option Operation := none
  options : Option Operation := none
  deriving Repr, DecidableEq, Inhabited

/-- outputs/openapi/types.go:18-25 `Info`. -/
structure Info where
  title : Str := []
  description : Str := []
  contact : Contact := {}
  license : License := {}
  version : Str := []
  deriving Repr, DecidableEq, Inhabited

/-- outputs/openapi/types.go:4-15 `OpenAPISchema`; `servers` are the URLs. -/
structure Document where
  openapi : Str := []
  info : Info := {}
  servers : List Str := []
  paths : List (Str × PathItem) := []
  schemas : List (Str × Schema) := []
  deriving Repr, DecidableEq, Inhabited

/-- The choices the Go runtime makes for one route: how the unstable `sort.Slice` arranges the parameters and the order in
which the properties of the `n`-th query parameter are ranged over. outputs/openapi/generate.go:109-122, 215-218. -/
structure RouteChoice where
  sort : List OParam → List OParam
  iter : Nat → List (Str × Schema) → List (Str × Schema)

/-- outputs/openapi/generate.go:58-71. -/
def pathParameters (E : SchemaEnv) (ps : List Param) : List OParam :=
  ps.filterMap (fun p => (mapParamToSchema E .uri p).map (fun s =>
    { name := p.name, loc := c!"path", required := p.isRequired, schema := s }))

/-- outputs/openapi/generate.go:73-88. -/
def headerParameters (E : SchemaEnv) (ps : List Param) : List OParam :=
  ps.filterMap (fun p => (mapParamToSchema E .header p).map (fun s =>
    { name := p.name, loc := c!"header", required := p.isRequired, schema := s }))

/-- outputs/openapi/generate.go:110-121, 124-135: a query parameter. -/
def queryParameter (name : Str) (required : Bool) (s : Schema) : OParam :=
  { name := name, loc := c!"query", required := required, style := (queryParamStyle s).1, explode := (queryParamStyle s).2,
    schema := s }

/-- outputs/openapi/generate.go:92-136: the parameters one query parameter of the route gives. -/
def queryParametersOf (E : SchemaEnv) (components : List Field) (iter : List (Str × Schema) → List (Str × Schema))
    (p : Param) : List OParam :=
  match mapParamToSchema E .form p with
  | none => []
  | some s =>
    if p.isBound then
      match findComponent components p.field.package p.field.type with
      | none => []
      | some c =>
        match componentToSchema E .form c with
        | none => []
        | some comp => (iter comp.properties).map (fun x => queryParameter x.1 p.isRequired x.2)
    else [queryParameter p.name p.isRequired s]

/-- outputs/openapi/generate.go:90-137; `n` counts the query parameters. -/
def queryParameters (E : SchemaEnv) (components : List Field) (iter : Nat → List (Str × Schema) → List (Str × Schema)) :
    Nat → List Param → List OParam
  | _, [] => []
  | n, p :: ps => queryParametersOf E components (iter n) p ++ queryParameters E components iter (n + 1) ps

/-- outputs/openapi/generate.go:153-163: the schema a body parameter gives. -/
def bodySchema (bp : BodyParam) (s : Schema) : Schema :=
  if bp.name ≠ [] then { type := c!"object", properties := [(bp.name, s)] } else s

/-- outputs/openapi/generate.go:139-166: one body parameter. -/
def bodyStep (E : SchemaEnv) (rb : Option (List (Str × Schema))) (bp : BodyParam) : Option (List (Str × Schema)) :=
  match mapFieldToSchema E (contentTypeToBindingTag bp.contentType) bp.field with
  | none => rb
  | some s => some (mset (rb.getD []) bp.contentType (bodySchema bp s))

/-- outputs/openapi/generate.go:168-181. -/
def responseHeaders (E : SchemaEnv) (ps : List Param) : List (Str × OHeader) :=
  ps.foldl (fun m p => match mapParamToSchema E .header p with
    | some s => mset m p.name { required := p.isRequired, schema := s }
    | none => m) []

/-- outputs/openapi/generate.go:183-205: one recorded return type. `mediaType.Schema` stays zero when the field is not
bound; the content map is only written when the media type is not zero. -/
def responseStep (E : SchemaEnv) (headers : List (Str × OHeader)) (m : List (Str × OResponse)) (rt : ReturnType) :
    List (Str × OResponse) :=
  let s := (mapFieldToSchema E (contentTypeToBindingTag rt.contentType) rt.field).getD {}
  let m' := if (mget m (itoa rt.statusCode)).isSome then m else mset m (itoa rt.statusCode) { headers := headers }
  if s ≠ {} then
    let r := (mget m' (itoa rt.statusCode)).getD {}
    mset m' (itoa rt.statusCode) { r with content := mset r.content rt.contentType s }
  else m'

/-- outputs/openapi/generate.go:54-218: the operation of a route. -/
def operationOf (E : SchemaEnv) (components : List Field) (ch : RouteChoice) (r : Route) : Operation :=
  { description := r.doc, operationId := r.operationId,
    parameters := ch.sort (pathParameters E r.pathParams ++ headerParameters E r.requestHeaders
      ++ queryParameters E components ch.iter 0 r.queryParams),
    requestBody := r.body.foldl (bodyStep E) none,
    responses := r.returnTypes.foldl (responseStep E (responseHeaders E r.responseHeaders)) [] }

/-- outputs/openapi/generate.go:226-241: the switch on the method; any other method changes nothing. -/
def PathItem.set (p : PathItem) (method : Str) (op : Operation) : PathItem :=
  if method = c!"GET" then { p with get := some op }
  else if method = c!"POST" then { p with post := some op }
  else if method = c!"PUT" then { p with put := some op }
  else if method = c!"PATCH" then { p with patch := some op }
  else if method = c!"DELETE" then { p with delete := some op }
  else if method = c!"HEAD" then { p with head := some op }
  else if method = c!"OPTIONS" then { p with options := some op }
  else p

/-- outputs/openapi/generate.go:43-245: the loop over the routes; `n` counts them. -/
def addRoutes (E : SchemaEnv) (components : List Field) (ch : Nat → RouteChoice) :
    Nat → List Route → List (Str × PathItem) → List (Str × PathItem)
  | _, [], paths => paths
  | n, r :: rs, paths =>
    let item := (mget paths (openapiPath r.path)).getD {}
    addRoutes E components ch (n + 1) rs
      (mset paths (openapiPath r.path) (item.set r.method (operationOf E components (ch n) r)))

/-- outputs/openapi/generate.go:254-270: the loop over the binding kinds for one component. -/
def addComponentSchemas (E : SchemaEnv) (c : Field) : List BTag → List (Str × Schema) → List (Str × Schema)
  | [], m => m
  | b :: bs, m =>
    match componentToSchema E b c with
    | none => addComponentSchemas E c bs m
    | some s =>
      let s' := if c.doc ≠ [] then { s with description := c.doc } else s
      match refName E.names b c.name c.package with
      | some n => addComponentSchemas E c bs (mset m n s')
      | none => addComponentSchemas E c bs m

/-- outputs/openapi/generate.go:248-271: `components.schemas`. -/
def componentSchemas (E : SchemaEnv) (components : List Field) : List (Str × Schema) :=
  components.foldl (fun m c => addComponentSchemas E c bindingTags m) []

/-- outputs/openapi/generate.go:36-39, 290: the server URL. -/
def serverUrl (cfg : Config) : Str :=
  (if cfg.secure then c!"https" else c!"http") ++ c!"://" ++ cfg.host ++ c!":" ++ itoa cfg.port ++ cfg.basePath

/-- outputs/openapi/generate.go:274-287. -/
def infoOf (cfg : Config) : Info :=
  { title := cfg.title, description := if cfg.description = [] then c!"Generated by astra" else cfg.description,
    contact := cfg.contact, license := cfg.license, version := cfg.version }

/-- service.go: the parts of the service the OpenAPI output reads; `config = none` is the nil pointer. -/
structure OpenApiInput where
  config : Option Config := none
  routes : List Route := []
  components : List Field := []
  types : List (Str × TypeFormat) := mapsCopy [] predefinedTypeMap

/-- The choices of the Go runtime for one run of the generator: the order of the name groups, and the choices per route.
outputs/openapi/components.go:50, outputs/openapi/generate.go:109-122, 215-218. -/
structure Choices where
  groups : List (Str × List Field) → List (Str × List Field)
  route : Nat → RouteChoice

/-- outputs/openapi/generate.go:24-295 up to marshalling: the document, given the earlier contents of the global name
table. The write to `s.Config.Description` (line 275) is in `openApiGenerate`. -/
def generateDoc (ch : Choices) (table : List (Str × Str)) (s : OpenApiInput) : Res Document :=
  match s.config with
  | none => .err c!"config not found"
  | some cfg =>
    match makeNames ch.groups s.components table with
    | .err e => .err e
    | .panic m => .panic m
    | .ok names =>
      let E : SchemaEnv := { types := s.types, names := names }
      .ok {
        openapi := c!"3.0.0", info := infoOf cfg, servers := [serverUrl cfg],
        paths := addRoutes E s.components ch.route 0 s.routes [],
        schemas := componentSchemas E s.components }

end Astra
