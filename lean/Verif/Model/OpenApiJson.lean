/-
The JSON and YAML forms of an OpenAPI document: the struct tags of outputs/openapi/types.go, `yaml.Marshal` at outputs/openapi/generate.go:306
and `json.MarshalIndent` at outputs/openapi/generate.go:309. The json and yaml tags have the same names and options, but the libraries read
`omitempty` differently. A tree of the type `Json` stands for the values that the libraries print in both forms. Members that the generator never sets are left out; they all have `omitempty`.
-/
import Verif.Model.OpenApi
import Verif.Model.Codec

namespace Astra

/-- A member that is a pointer with `omitempty`: nothing for nil. As `Items` at outputs/openapi/types.go:191. -/
def pointerMember (k : Str) : Option Json → List Member
  | none => []
  | some v => [⟨false, k, v⟩]

mutual
/-- outputs/openapi/types.go:167-196: the tags of `Schema`. -/
def encSchema : Schema → Json
  | ⟨ref, type, format, maxLength, enum, allOf, items, properties, additionalProperties, description⟩ =>
    .obj (members ([⟨true, c!"$ref", .str ref⟩, ⟨true, c!"maxLength", .num (itoa maxLength)⟩, ⟨true, c!"enum", .arr (enum.map encEnum)⟩,
      ⟨true, c!"type", .str type⟩, ⟨true, c!"format", .str format⟩, ⟨true, c!"allOf", .arr (encSchemaList allOf)⟩]
      ++ pointerMember c!"items" (encSchemaPtr items) ++ [⟨true, c!"properties", .obj (encSchemaMap properties)⟩]
      ++ pointerMember c!"additionalProperties" (encSchemaPtr additionalProperties) ++ [⟨true, c!"description", .str description⟩]))
/-- outputs/openapi/types.go:187: a `[]Schema`. -/
def encSchemaList : List Schema → List Json
  | [] => []
  | s :: ss => encSchema s :: encSchemaList ss
/-- outputs/openapi/types.go:191, 194: a `*Schema`. -/
def encSchemaPtr : Option Schema → Option Json
  | none => none
  | some s => some (encSchema s)
/-- outputs/openapi/types.go:192: a `map[string]Schema`, which the model keeps sorted. -/
def encSchemaMap : List (Str × Schema) → List (Str × Json)
  | [] => []
  | (k, s) :: m => (k, encSchema s) :: encSchemaMap m
end

/-- A member that is a struct with `omitempty`. encoding/json never leaves it out, gopkg.in/yaml.v3 leaves it out if all its fields are empty.
As `Schema` at outputs/openapi/types.go:93 and `Components` at outputs/openapi/types.go:11. -/
def structMember (yaml : Bool) (k : Str) (v : Json) : Member := ⟨yaml, k, v⟩

/-- outputs/openapi/types.go:83-94: the tags of `Parameter`. -/
def encOParam (yaml : Bool) (p : OParam) : Json :=
  .obj (members [⟨true, c!"name", .str p.name⟩, ⟨true, c!"in", .str p.loc⟩, ⟨true, c!"required", .bool p.required⟩,
    ⟨true, c!"style", .str p.style⟩, ⟨true, c!"explode", .bool p.explode⟩, structMember yaml c!"schema" (encSchema p.schema)])

/-- outputs/openapi/types.go:105-108: the tags of `MediaType`. -/
def encMediaType (yaml : Bool) (s : Schema) : Json := .obj (members [structMember yaml c!"schema" (encSchema s)])

/-- outputs/openapi/types.go:99, 133: a `map[string]MediaType`, sorted. -/
def encContent (yaml : Bool) (m : List (Str × Schema)) : Json := .obj (m.map (fun e => (e.1, encMediaType yaml e.2)))

/-- outputs/openapi/types.go:97-102: the tags of `RequestBody`. -/
def encRequestBody (yaml : Bool) (content : List (Str × Schema)) : Json := .obj (members [⟨true, c!"content", encContent yaml content⟩])

/-- outputs/openapi/types.go:117-124: the tags of `Header`. -/
def encOHeader (yaml : Bool) (h : OHeader) : Json :=
  .obj (members [⟨true, c!"required", .bool h.required⟩, structMember yaml c!"schema" (encSchema h.schema)])

/-- outputs/openapi/types.go:130-135: the tags of `Response`. -/
def encOResponse (yaml : Bool) (r : OResponse) : Json :=
  .obj (members [⟨false, c!"description", .str []⟩, ⟨true, c!"headers", .obj (r.headers.map (fun e => (e.1, encOHeader yaml e.2)))⟩,
    ⟨true, c!"content", encContent yaml r.content⟩])

/-- outputs/openapi/types.go:66-80: the tags of `Operation`. -/
def encOperation (yaml : Bool) (o : Operation) : Json :=
  .obj (members ([⟨true, c!"description", .str o.description⟩, ⟨true, c!"operationId", .str o.operationId⟩,
    ⟨true, c!"parameters", .arr (o.parameters.map (encOParam yaml))⟩] ++ pointerMember c!"requestBody" (o.requestBody.map (encRequestBody yaml))
    ++ [⟨true, c!"responses", .obj (o.responses.map (fun e => (e.1, encOResponse yaml e.2)))⟩]))

/-- outputs/openapi/types.go:49-63: the tags of `Path`. -/
def encPathItem (yaml : Bool) (p : PathItem) : Json :=
  .obj (members (pointerMember c!"get" (p.get.map (encOperation yaml)) ++ pointerMember c!"put" (p.put.map (encOperation yaml))
    ++ pointerMember c!"post" (p.post.map (encOperation yaml)) ++ pointerMember c!"delete" (p.delete.map (encOperation yaml))
    ++ pointerMember c!"options" (p.options.map (encOperation yaml)) ++ pointerMember c!"head" (p.head.map (encOperation yaml))
    ++ pointerMember c!"patch" (p.patch.map (encOperation yaml))))

/-- outputs/openapi/types.go:18-39: the tags of `Info`, `Contact` and `License`. -/
def encInfo (i : Info) : Json :=
  .obj (members [⟨false, c!"title", .str i.title⟩, ⟨true, c!"description", .str i.description⟩,
    ⟨false, c!"contact", .obj (members [⟨true, c!"name", .str i.contact.name⟩, ⟨true, c!"url", .str i.contact.url⟩,
      ⟨true, c!"email", .str i.contact.email⟩])⟩,
    ⟨false, c!"license", .obj (members [⟨false, c!"name", .str i.license.name⟩, ⟨true, c!"url", .str i.license.url⟩])⟩,
    ⟨false, c!"version", .str i.version⟩])

/-- outputs/openapi/types.go:4-15, 41-44, 153-163: the tags of `OpenAPISchema`, `Server` and `Components`. -/
def encDocument (yaml : Bool) (d : Document) : Json :=
  .obj (members [⟨false, c!"openapi", .str d.openapi⟩, ⟨false, c!"info", encInfo d.info⟩,
    ⟨true, c!"servers", .arr (d.servers.map (fun u => .obj (members [⟨true, c!"url", .str u⟩])))⟩,
    ⟨true, c!"paths", .obj (d.paths.map (fun e => (e.1, encPathItem yaml e.2)))⟩,
    structMember yaml c!"components" (.obj (members [⟨true, c!"schemas", .obj (d.schemas.map (fun e => (e.1, encSchema e.2)))⟩]))])

/-- outputs/openapi/generate.go:309: the text of the document as JSON. -/
def docText (d : Document) : Str := marshalIndent (encDocument false d)

end Astra
