/-
What it means that a tree of values, as a JSON or YAML file holds it, is an OpenAPI document with a given content, key by key, with the key names
of the OpenAPI standard. The two forms of the file differ in one point: what is shown of a part that is empty.
-/
import Verif.Model.OpenApi
import Verif.Model.Json
import Verif.Spec.Json
import Verif.Spec.Cache

namespace Astra.Spec

/-- The value of a key of an object. -/
def keyOf : Json → Str → Option Json
  | .obj ms, k => aget ms k
  | _, _ => none

/-- An object with distinct keys, all of them among `ks`. -/
def ObjectWith (j : Json) (ks : List Str) : Prop := ∃ ms, j = .obj ms ∧ (ms.map (·.1)).Nodup ∧ ∀ e ∈ ms, e.1 ∈ ks

/-- The text `s` at a key. The empty text is shown by the absence of the key. -/
def ShowsText (v : Option Json) (s : Str) : Prop := v = if s = [] then none else some (.str s)

/-- A flag at a key, shown by its presence. -/
def ShowsFlag (v : Option Json) (b : Bool) : Prop := v = if b then some (.bool true) else none

/-- A number at a key; zero is shown by the absence of the key. -/
def ShowsNumber (v : Option Json) (n : Int) : Prop := v = if n = 0 then none else some (.num (itoa n))

/-- An optional part. -/
def ShowsOptional {α : Type} (P : α → Json → Prop) (x : Option α) (v : Option Json) : Prop :=
  match x with
  | none => v = none
  | some a => ∃ j, v = some j ∧ P a j

/-- A list, element by element; the empty list is shown by the absence of the key. -/
def ShowsList {α : Type} (P : α → Json → Prop) (l : List α) (v : Option Json) : Prop :=
  (l = [] ∧ v = none) ∨ (l ≠ [] ∧ ∃ js, v = some (.arr js) ∧ Each P l js)

/-- A map, entry by entry; the empty map is shown by the absence of the key. -/
def ShowsMap {α : Type} (P : α → Json → Prop) (m : List (Str × α)) (v : Option Json) : Prop :=
  (m = [] ∧ v = none) ∨ (m ≠ [] ∧ ∃ ms, v = some (.obj ms) ∧ Each (fun e f => f.1 = e.1 ∧ P e.2 f.2) m ms)

/-- An enum value. -/
def ShowsValue : EnumVal → Json → Prop
  | .str s, j => j = .str s
  | .int i, j => j = .num (itoa i)
  | .float t, j => j = .num t
  | .bool b, j => j = .bool b

mutual
/-- A schema. -/
def ShowsSchema : Schema → Json → Prop
  | ⟨ref, type, format, maxLength, enum, allOf, items, properties, additionalProperties, description⟩, j =>
    ObjectWith j [c!"$ref", c!"maxLength", c!"enum", c!"type", c!"format", c!"allOf", c!"items", c!"properties", c!"additionalProperties", c!"description"] ∧
    ShowsText (keyOf j c!"$ref") ref ∧ ShowsText (keyOf j c!"type") type ∧ ShowsText (keyOf j c!"format") format ∧
    ShowsText (keyOf j c!"description") description ∧ ShowsNumber (keyOf j c!"maxLength") maxLength ∧
    ShowsList ShowsValue enum (keyOf j c!"enum") ∧ ShowsSchemas allOf (keyOf j c!"allOf") ∧ ShowsItem items (keyOf j c!"items") ∧
    ShowsProperties properties (keyOf j c!"properties") ∧ ShowsItem additionalProperties (keyOf j c!"additionalProperties")
/-- A list of schemas, as in `ShowsList`. -/
def ShowsSchemas : List Schema → Option Json → Prop
  | [], v => v = none
  | s :: ss, v => ∃ j js, v = some (.arr (j :: js)) ∧ ShowsSchema s j ∧ ShowsRest ss js
/-- The remaining elements. -/
def ShowsRest : List Schema → List Json → Prop
  | [], js => js = []
  | s :: ss, js => ∃ j js', js = j :: js' ∧ ShowsSchema s j ∧ ShowsRest ss js'
/-- An optional schema, as in `ShowsOptional`. -/
def ShowsItem : Option Schema → Option Json → Prop
  | none, v => v = none
  | some s, v => ∃ j, v = some j ∧ ShowsSchema s j
/-- The properties, as in `ShowsMap`. -/
def ShowsProperties : List (Str × Schema) → Option Json → Prop
  | [], v => v = none
  | (k, s) :: m, v => ∃ j ms, v = some (.obj ((k, j) :: ms)) ∧ ShowsSchema s j ∧ ShowsEntries m ms
/-- The remaining properties. -/
def ShowsEntries : List (Str × Schema) → List (Str × Json) → Prop
  | [], ms => ms = []
  | (k, s) :: m, ms => ∃ j ms', ms = (k, j) :: ms' ∧ ShowsSchema s j ∧ ShowsEntries m ms'
end

/-- The schema of a parameter, a header or a media type. In JSON it is always shown. In YAML the empty schema, which allows every value, is
shown by the absence of the key. -/
def ShowsHeldSchema (yaml : Bool) (s : Schema) (v : Option Json) : Prop :=
  (yaml = true ∧ s = {} ∧ v = none) ∨ (¬ (yaml = true ∧ s = {}) ∧ ∃ j, v = some j ∧ ShowsSchema s j)

/-- A parameter object. -/
def ShowsParameter (yaml : Bool) (p : OParam) (j : Json) : Prop :=
  ObjectWith j [c!"name", c!"in", c!"required", c!"style", c!"explode", c!"schema"] ∧
  ShowsText (keyOf j c!"name") p.name ∧ ShowsText (keyOf j c!"in") p.loc ∧ ShowsFlag (keyOf j c!"required") p.required ∧
  ShowsText (keyOf j c!"style") p.style ∧ ShowsFlag (keyOf j c!"explode") p.explode ∧ ShowsHeldSchema yaml p.schema (keyOf j c!"schema")

/-- A media type object. -/
def ShowsMedia (yaml : Bool) (s : Schema) (j : Json) : Prop := ObjectWith j [c!"schema"] ∧ ShowsHeldSchema yaml s (keyOf j c!"schema")

/-- A request body object. -/
def ShowsBody (yaml : Bool) (content : List (Str × Schema)) (j : Json) : Prop :=
  ObjectWith j [c!"content"] ∧ ShowsMap (ShowsMedia yaml) content (keyOf j c!"content")

/-- A header object. -/
def ShowsHeader (yaml : Bool) (h : OHeader) (j : Json) : Prop :=
  ObjectWith j [c!"required", c!"schema"] ∧ ShowsFlag (keyOf j c!"required") h.required ∧ ShowsHeldSchema yaml h.schema (keyOf j c!"schema")

/-- A response object; its description, which the standard requires, is empty. -/
def ShowsResponse (yaml : Bool) (r : OResponse) (j : Json) : Prop :=
  ObjectWith j [c!"description", c!"headers", c!"content"] ∧ keyOf j c!"description" = some (.str []) ∧
  ShowsMap (ShowsHeader yaml) r.headers (keyOf j c!"headers") ∧ ShowsMap (ShowsMedia yaml) r.content (keyOf j c!"content")

/-- An operation object. -/
def ShowsOperation (yaml : Bool) (o : Operation) (j : Json) : Prop :=
  ObjectWith j [c!"description", c!"operationId", c!"parameters", c!"requestBody", c!"responses"] ∧
  ShowsText (keyOf j c!"description") o.description ∧ ShowsText (keyOf j c!"operationId") o.operationId ∧
  ShowsList (ShowsParameter yaml) o.parameters (keyOf j c!"parameters") ∧ ShowsOptional (ShowsBody yaml) o.requestBody (keyOf j c!"requestBody") ∧
  ShowsMap (ShowsResponse yaml) o.responses (keyOf j c!"responses")

/-- A path item object. -/
def ShowsPathItem (yaml : Bool) (p : PathItem) (j : Json) : Prop :=
  ObjectWith j [c!"get", c!"put", c!"post", c!"delete", c!"options", c!"head", c!"patch"] ∧
  ShowsOptional (ShowsOperation yaml) p.get (keyOf j c!"get") ∧ ShowsOptional (ShowsOperation yaml) p.put (keyOf j c!"put") ∧
  ShowsOptional (ShowsOperation yaml) p.post (keyOf j c!"post") ∧ ShowsOptional (ShowsOperation yaml) p.delete (keyOf j c!"delete") ∧
  ShowsOptional (ShowsOperation yaml) p.options (keyOf j c!"options") ∧ ShowsOptional (ShowsOperation yaml) p.head (keyOf j c!"head") ∧
  ShowsOptional (ShowsOperation yaml) p.patch (keyOf j c!"patch")

/-- A contact object. -/
def ShowsContact (c : Contact) (j : Json) : Prop :=
  ObjectWith j [c!"name", c!"url", c!"email"] ∧ ShowsText (keyOf j c!"name") c.name ∧ ShowsText (keyOf j c!"url") c.url ∧
  ShowsText (keyOf j c!"email") c.email

/-- A license object. -/
def ShowsLicense (l : License) (j : Json) : Prop :=
  ObjectWith j [c!"name", c!"url"] ∧ keyOf j c!"name" = some (.str l.name) ∧ ShowsText (keyOf j c!"url") l.url

/-- The info object. -/
def ShowsInfo (i : Info) (j : Json) : Prop :=
  ObjectWith j [c!"title", c!"description", c!"contact", c!"license", c!"version"] ∧ keyOf j c!"title" = some (.str i.title) ∧
  ShowsText (keyOf j c!"description") i.description ∧ ShowsOptional ShowsContact (some i.contact) (keyOf j c!"contact") ∧
  ShowsOptional ShowsLicense (some i.license) (keyOf j c!"license") ∧ keyOf j c!"version" = some (.str i.version)

/-- A server object. -/
def ShowsServer (url : Str) (j : Json) : Prop := ObjectWith j [c!"url"] ∧ ShowsText (keyOf j c!"url") url

/-- The components object. -/
def ShowsComponents (schemas : List (Str × Schema)) (j : Json) : Prop := ObjectWith j [c!"schemas"] ∧ ShowsMap ShowsSchema schemas (keyOf j c!"schemas")

/-- The components of a document. In JSON they are always shown. In YAML they are shown if there are any. -/
def ShowsHeldComponents (yaml : Bool) (schemas : List (Str × Schema)) (v : Option Json) : Prop :=
  (yaml = true ∧ schemas = [] ∧ v = none) ∨ (¬ (yaml = true ∧ schemas = []) ∧ ∃ j, v = some j ∧ ShowsComponents schemas j)

/-- The whole document. -/
def ShowsDocument (yaml : Bool) (d : Document) (j : Json) : Prop :=
  ObjectWith j [c!"openapi", c!"info", c!"servers", c!"paths", c!"components"] ∧ keyOf j c!"openapi" = some (.str d.openapi) ∧
  ShowsOptional ShowsInfo (some d.info) (keyOf j c!"info") ∧ ShowsList ShowsServer d.servers (keyOf j c!"servers") ∧
  ShowsMap (ShowsPathItem yaml) d.paths (keyOf j c!"paths") ∧ ShowsHeldComponents yaml d.schemas (keyOf j c!"components")

end Astra.Spec
