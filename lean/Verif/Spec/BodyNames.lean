/-
Specification vocabulary for C111: the names under which the fields of a struct stand in a JSON, XML or YAML body.
-/
import Verif.Spec.BoundQuery

namespace Astra.Spec

/-- The formats of bodies that are described by the tags of structs. -/
inductive BodyKind
  | json | xml | yaml
  deriving DecidableEq

/-- The key of the tags for a format. -/
def BodyKind.key : BodyKind → Str
  | .json => c!"json"
  | .xml => c!"xml"
  | .yaml => c!"yaml"

def BodyKind.contentType : BodyKind → Str
  | .json => c!"application/json"
  | .xml => c!"application/xml"
  | .yaml => c!"application/yaml"

/-- The context methods that send a value in the format, with the status code as first and the value as second argument. -/
def BodyKind.senders : BodyKind → List Str
  | .json => [c!"JSON", c!"AbortWithStatusJSON"]
  | .xml => [c!"XML"]
  | .yaml => [c!"YAML"]

/-- The context methods that read a body of the format into their argument. -/
def BodyKind.binders : BodyKind → List Str
  | .json => [c!"BindJSON", c!"ShouldBindJSON", c!"Bind", c!"ShouldBind"]
  | .xml => [c!"BindXML", c!"ShouldBindXML", c!"Bind", c!"ShouldBind"]
  | .yaml => [c!"BindYAML", c!"ShouldBindYAML", c!"Bind", c!"ShouldBind"]

/-! ### The encoders -/

/-- encoding/xml (`structFieldInfo`): the field stands as the content of an element of this name. Fields with the options `attr`, `chardata`, `cdata`,
`innerxml`, `comment` and `any`, with a name space or with a path of elements do not. -/
inductive XmlElement (f : StructField) : Str → Prop
  | untagged {pairs : List (Str × Str)} : TagText f.tag pairs → tagValue pairs c!"xml" = none → XmlElement f f.name
  | unnamed {pairs : List (Str × Str)} {v : Str} {opts : List Str} : TagText f.tag pairs → tagValue pairs c!"xml" = some v →
      split ',' v = [] :: opts → (∀ o ∈ opts, o = c!"omitempty") → XmlElement f f.name
  | tagged {pairs : List (Str × Str)} {v name : Str} {opts : List Str} : TagText f.tag pairs → tagValue pairs c!"xml" = some v → v ≠ c!"-" →
      split ',' v = name :: opts → name ≠ [] → ' ' ∉ name → '>' ∉ name → (∀ o ∈ opts, o = c!"omitempty") → XmlElement f name

/-- yaml.v3 (`getStructInfo`), which gin uses: the field is a member with this key, the name from the tag or else the name of the field in lower
case. (A tag without a colon would be taken as a name as well; it is left out, and so are names of fields with other letters than those of ASCII.) -/
inductive YamlKey (f : StructField) : Str → Prop
  | untagged {pairs : List (Str × Str)} : TagText f.tag pairs → f.tag = [] ∨ pairs ≠ [] → tagValue pairs c!"yaml" = none →
      (∀ c ∈ f.name, c.val < 128) → YamlKey f (f.name.map Char.toLower)
  | unnamed {pairs : List (Str × Str)} {v : Str} {opts : List Str} : TagText f.tag pairs → tagValue pairs c!"yaml" = some v →
      split ',' v = [] :: opts → (∀ o ∈ opts, o = c!"omitempty" ∨ o = c!"flow") → (∀ c ∈ f.name, c.val < 128) → YamlKey f (f.name.map Char.toLower)
  | tagged {pairs : List (Str × Str)} {v name : Str} {opts : List Str} : TagText f.tag pairs → tagValue pairs c!"yaml" = some v → v ≠ c!"-" →
      split ',' v = name :: opts → name ≠ [] → (∀ o ∈ opts, o = c!"omitempty" ∨ o = c!"flow") → YamlKey f name

/-- The name under which the field stands in a body of the format. -/
def MemberName : BodyKind → StructField → Str → Prop
  | .json, f, k => ∃ opts, JsonMember f k opts
  | .xml, f, k => XmlElement f k
  | .yaml, f, k => YamlKey f k

/-- The field has a tag with this key that gives it a name. -/
def TagNames (key : Str) (f : StructField) : Prop :=
  ∃ pairs v name opts, TagText f.tag pairs ∧ tagValue pairs key = some v ∧ v ≠ c!"-" ∧ split ',' v = name :: opts ∧ name ≠ []

/-- A struct that yaml.v3 encodes: the fields that are not left out have different keys. The names of exported fields begin with a capital letter of
ASCII. -/
structure YamlProper (fs : List (StructField × GoType)) : Prop where
  keys : ∀ e ∈ fs, e.1.exported = true → ∀ k, NamedBy c!"yaml" e.1 k → ∃ k', YamlKey e.1 k'
  distinct : ∀ e ∈ fs, ∀ e' ∈ fs, e.1.exported = true → e'.1.exported = true → ∀ k, YamlKey e.1 k → YamlKey e'.1 k → e = e'
  capital : ∀ e ∈ fs, e.1.exported = true → ∃ c ∈ e.1.name, c.isUpper = true

/-! ### The document -/

/-- What the document says about the members of a body that is made of a struct with these fields, with `s` as the schema of the body. -/
structure BodyTold (schemas : List (Str × Schema)) (kind : BodyKind) (fs : List (StructField × GoType)) (s : Schema) (n : Str) : Prop where
  /-- It refers to the schema of a name. -/
  ref : s = { ref := c!"#/components/schemas/" ++ n }
  found : ∃ e, (n, e) ∈ schemas
  /-- Each field is a property under the name it has in the body, with the schema of its type; in YAML, if its tag gives it a name. -/
  told : ∀ sch, (n, sch) ∈ schemas → ∀ e ∈ fs, e.1.exported = true → ∀ k, MemberName kind e.1 k → (kind = .yaml → TagNames c!"yaml" e.1) →
    ∃ u, (k, u) ∈ sch.properties ∧ TypeSchema (fun _ _ => none) e.2 u
  /-- Each field is a property under the name that its tags give it, whether it has this name in the body or not. -/
  named : ∀ sch, (n, sch) ∈ schemas → ∀ e ∈ fs, e.1.exported = true → ∀ k, NamedBy kind.key e.1 k →
    ∃ u, (k, u) ∈ sch.properties ∧ TypeSchema (fun _ _ => none) e.2 u
  /-- There are no other properties. -/
  only : ∀ sch, (n, sch) ∈ schemas → ∀ k u, (k, u) ∈ sch.properties →
    ∃ e ∈ fs, e.1.exported = true ∧ NamedBy kind.key e.1 k ∧ TypeSchema (fun _ _ => none) e.2 u
  /-- In YAML the others are not there under the key they have in the body. -/
  untold : kind = .yaml → YamlProper fs → ∀ sch, (n, sch) ∈ schemas → ∀ e ∈ fs, e.1.exported = true → ¬ TagNames c!"yaml" e.1 →
    ∀ k, YamlKey e.1 k → ∀ u, (k, u) ∉ sch.properties

/-! ### Structs that miss a format -/

/-- An exported field has a tag for some other binding and none with this key. -/
def Misses (key : Str) (fs : List (StructField × GoType)) : Prop :=
  ∃ e ∈ fs, e.1.exported = true ∧ ∃ pairs other, TagText e.1.tag pairs ∧ tagValue pairs key = none ∧ other ∈ bindingKeys ∧ tagValue pairs other ≠ none

/-- Every exported field has tags for some bindings, but none with this key. -/
def NeverTagged (key : Str) (fs : List (StructField × GoType)) : Prop :=
  ∀ e ∈ fs, e.1.exported = true → ∃ pairs, TagText e.1.tag pairs ∧ tagValue pairs key = none ∧ ∃ other ∈ bindingKeys, tagValue pairs other ≠ none

/-- Nothing is embedded, and the exported fields have simple types. -/
structure FlatStruct (fs : List (StructField × GoType)) : Prop where
  names : ((fs.filter (fun e => e.1.exported)).map (fun e => e.1.name)).Nodup
  flat : ∀ e ∈ fs, e.1.embedded = false
  types : ∀ e ∈ fs, e.1.exported = true → QueryType e.2

/-- The schema of the body is left out, or it is a reference to a schema that the document does not have or that was made for a binding which the
struct does not miss. -/
def Untold (schemas : List (Str × Schema)) (fs : List (StructField × GoType)) (body : Option Schema) : Prop :=
  body = none ∨ ∃ n, body = some { ref := c!"#/components/schemas/" ++ n } ∧
    ((∃ sch, (n, sch) ∈ schemas) → ∃ key ∈ bindingKeys, ¬ Misses key fs)

/-! ### The program -/

/-- The handler of an entry of the router sends a value of type `t` in the format, with this status code. -/
def HandlerSendsAs (E : RouteEnv) (handler file : Str) (line : Int) (kind : BodyKind) (code : Int) (t : GoType) : Prop :=
  ∃ fileId name f named ctx pkg m args a, HandlerIs E handler file line fileId name f named ∧ ContextParam E.prog f fileId ctx ∧
    Calls E.prog fileId ctx (E.prog.funcs f).body pkg m args ∧ m ∈ kind.senders ∧ IsStatus args 0 code ∧ args[1]? = some a ∧ a.type = .ok t

end Astra.Spec
