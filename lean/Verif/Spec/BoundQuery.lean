/-
Specification vocabulary for C110: how gin fills a struct from the query of a request, and how a client who has the document writes the values of
its fields.
-/
import Verif.Spec.Query
import Verif.Spec.Sent

namespace Astra.Spec

/-! ### gin (v1.10.0, binding/form_mapping.go) -/

/-- The name that a struct field has for a binding whose tags have this key: the first item of its tag, or the name of the field if there is none. A
field with the tag `-` has no name. For forms this is gin's rule (`tryToSetValue`). -/
inductive NamedBy (key : Str) (f : StructField) : Str → Prop
  | untagged {pairs : List (Str × Str)} : TagText f.tag pairs → tagValue pairs key = none → NamedBy key f f.name
  | unnamed {pairs : List (Str × Str)} {v : Str} {opts : List Str} : TagText f.tag pairs → tagValue pairs key = some v →
      split ',' v = [] :: opts → NamedBy key f f.name
  | tagged {pairs : List (Str × Str)} {v name : Str} {opts : List Str} : TagText f.tag pairs → tagValue pairs key = some v → v ≠ c!"-" →
      split ',' v = name :: opts → name ≠ [] → NamedBy key f name

/-- The name under which the value of a struct field is looked up. -/
abbrev FormName (f : StructField) : Str → Prop := NamedBy c!"form" f

/-- `SetBy n text v`: the text sets a value of the basic type `n` to the value whose JSON is `v` (`setWithProperType`). Only the texts that Go itself
would write are covered; numbers beyond the range of their type are left out. -/
inductive SetBy : Str → Str → Json → Prop
  | string (s : Str) : SetBy c!"string" s (.str s)
  | integer {n : Str} (i : Int) : n ∈ integerTypes → SetBy n (itoa i) (.num (itoa i))
  | float {n : Str} (text : Str) : n ∈ [c!"float32", c!"float64"] → SetBy n text (.num text)
  | yes : SetBy c!"bool" c!"true" (.bool true)
  | no : SetBy c!"bool" c!"false" (.bool false)

/-- The same for lists. -/
inductive AllSetBy (n : Str) : List Str → List Json → Prop
  | nil : AllSetBy n [] []
  | cons {text : Str} {v : Json} {texts : List Str} {vs : List Json} : SetBy n text v → AllSetBy n texts vs → AllSetBy n (text :: texts) (v :: vs)

/-- A field of this type and name is set to the value whose JSON is `v`: from the first value of the name, a slice from all of them
(`setByForm`); a pointer is set to point to a new value. -/
inductive FieldRead (query : List (Str × Str)) (name : Str) : GoType → Json → Prop
  | basic {k : BasicKind} {n text : Str} {v : Json} : (valuesOf query name).head? = some text → SetBy n text v →
      FieldRead query name (.basic k n) v
  | slice {k : BasicKind} {n : Str} {vs : List Json} : valuesOf query name ≠ [] → AllSetBy n (valuesOf query name) vs →
      FieldRead query name (.slice (.basic k n)) (.arr vs)
  | pointer {t : GoType} {v : Json} : FieldRead query name t v → FieldRead query name (.pointer t) v

/-! ### The client -/

/-- A plain value as a text. -/
inductive PlainText : Json → Str → Prop
  | str (s : Str) : PlainText (.str s) s
  | num (text : Str) : PlainText (.num text) text
  | yes : PlainText (.bool true) c!"true"
  | no : PlainText (.bool false) c!"false"

inductive PlainTexts : List Json → List Str → Prop
  | nil : PlainTexts [] []
  | cons {v : Json} {text : Str} {vs : List Json} {texts : List Str} : PlainText v text → PlainTexts vs texts → PlainTexts (v :: vs) (text :: texts)

/-- What a client wants to say with a value. -/
def SaysInQuery (v : Json) : QueryValue → Prop
  | .one text => PlainText v text
  | .many texts => ∃ vs, v = .arr vs ∧ PlainTexts vs texts
  | .table _ => False

/-- The schema of the parameter admits the value, a client who has the parameter object `j` can write it into a query, and whatever other names are in
the query, gin sets the field to this value and no other. -/
def FieldUnderstood (schemas : List (Str × Schema)) (o : OParam) (j : Json) (t : GoType) (v : Json) : Prop :=
  Admits schemas o.schema v ∧
  ∃ said pairs, SaysInQuery v said ∧ writtenBy j said = some pairs ∧
    ∀ before after : List (Str × Str), (∀ e ∈ before, e.1 ≠ o.name) → (∀ e ∈ after, e.1 ≠ o.name) →
      FieldRead (before ++ pairs ++ after) o.name t v ∧ ∀ v', FieldRead (before ++ pairs ++ after) o.name t v' → v' = v

/-! ### The structs -/

/-- The basic types of fields for the query. -/
def queryPrimitives : List Str := [c!"string", c!"bool", c!"int", c!"int8", c!"int16", c!"int32", c!"int64", c!"uint", c!"uint8", c!"uint16", c!"uint32",
  c!"uint64", c!"float32", c!"float64"]

/-- Basic types, slices of them (not of bytes), and pointers to these. -/
inductive QueryType : GoType → Prop
  | basic {k : BasicKind} {n : Str} : n ∈ queryPrimitives → QueryType (.basic k n)
  | slice {k : BasicKind} {n : Str} : n ∈ queryPrimitives → n ≠ c!"uint8" → QueryType (.slice (.basic k n))
  | pointer {t : GoType} : QueryType t → QueryType (.pointer t)

/-- The keys of tags that are used for binding. -/
def bindingKeys : List Str := [c!"json", c!"header", c!"form", c!"uri", c!"xml", c!"yaml"]

/-- The field has a tag with this key, or no tag for any binding. (The tag `-,` is left out: it names the field `-`.) -/
def TaggedFor (key : Str) (f : StructField) : Prop :=
  ∃ pairs, TagText f.tag pairs ∧
    ((∃ v, tagValue pairs key = some v ∧ (v = c!"-" ∨ v.takeWhile (· ≠ ',') ≠ c!"-")) ∨ ∀ key ∈ bindingKeys, tagValue pairs key = none)

/-- A struct for a binding: nothing is embedded, the exported fields have tags for it or no tags, different names and simple types. -/
structure KindStruct (key : Str) (fs : List (StructField × GoType)) : Prop where
  names : ((fs.filter (fun e => e.1.exported)).map (fun e => e.1.name)).Nodup
  named : ∀ e ∈ fs, e.1.exported = true → e.1.name ≠ []
  flat : ∀ e ∈ fs, e.1.embedded = false
  tags : ∀ e ∈ fs, e.1.exported = true → TaggedFor key e.1
  distinct : (fs.filter (fun e => e.1.exported)).Pairwise (fun e e' => ∀ k, NamedBy key e.1 k → ¬ NamedBy key e'.1 k)
  types : ∀ e ∈ fs, e.1.exported = true → QueryType e.2

/-- A struct for the query. -/
abbrev QueryStruct (fs : List (StructField × GoType)) : Prop := KindStruct c!"form" fs

/-- A struct as above, except that an exported field has a tag for some other binding and none for forms. -/
structure MixedStruct (fs : List (StructField × GoType)) : Prop where
  names : ((fs.filter (fun e => e.1.exported)).map (fun e => e.1.name)).Nodup
  flat : ∀ e ∈ fs, e.1.embedded = false
  types : ∀ e ∈ fs, e.1.exported = true → QueryType e.2
  other : ∃ e ∈ fs, e.1.exported = true ∧ ∃ pairs key, TagText e.1.tag pairs ∧ tagValue pairs c!"form" = none ∧ key ∈ bindingKeys ∧
    tagValue pairs key ≠ none

/-! ### The program -/

/-- A set of defined types that get different names in a document. -/
structure NamedApart (Γ : TypeEnv) (m : Str) (D : TName → Prop) : Prop where
  /-- With every type the types its definition uses. -/
  closed : ∀ x, D x → ∀ y, Uses Γ x y → D y
  names : ∀ x, D x → x.1 ≠ [] ∧ x.2.1 ≠ [] ∧ '.' ∉ x.2.1 ∧ x.2.1 ∉ reserved ∧ PlainPackage (finalPackage m x.1)
  /-- `time.Duration` is documented as a plain integer. -/
  duration : ∀ x, D x → ¬ (x.1 = c!"time" ∧ x.2.1 = c!"Duration")
  /-- No generic type with different arguments. -/
  instances : ∀ x, D x → ∀ y, D y → x.1 = y.1 → x.2.1 = y.2.1 → x = y
  /-- No package but the main package has the path main. -/
  main : ∀ x, D x → x.1 = c!"main" → m = c!"main"
  /-- Definitions that are recorded under their own name (C19). -/
  own : ∀ x, D x → OwnDefinition x.1 (Γ.underlying x.1 x.2.1 x.2.2)
  /-- Packages of the same name differ at one common depth (C30). -/
  separable : ∀ pkgs, (∀ q ∈ pkgs, ∃ x, D x ∧ q = finalPackage m x.1) → Separable pkgs

/-- The code calls one of these context methods with a value of type `t` as its first argument. -/
def CallsWith (P : Prog) (file : FileId) (ctx : Str) (nodes : List Node) (methods : List Str) (t : GoType) : Prop :=
  ∃ pkg m args a, Calls P file ctx nodes pkg m args ∧ m ∈ methods ∧ args[0]? = some a ∧ a.type = .ok t

/-- The handler of an entry of the router does. -/
def HandlerCallsWith (E : RouteEnv) (handler file : Str) (line : Int) (methods : List Str) (t : GoType) : Prop :=
  ∃ fileId name f named ctx, HandlerIs E handler file line fileId name f named ∧ ContextParam E.prog f fileId ctx ∧
    CallsWith E.prog fileId ctx (E.prog.funcs f).body methods t

/-- The handler of an entry of the router calls one of these context methods with this name as the first argument. -/
def HandlerNames (E : RouteEnv) (handler file : Str) (line : Int) (methods : List Str) (n : Str) : Prop :=
  ∃ fileId name f named ctx pkg m args, HandlerIs E handler file line fileId name f named ∧ ContextParam E.prog f fileId ctx ∧
    Calls E.prog fileId ctx (E.prog.funcs f).body pkg m args ∧ m ∈ methods ∧ IsName args 0 n

/-- The context methods that fill a struct from the query in a request with this method: gin's `Bind` takes the query for `GET`
(binding.Default). -/
def queryBinders (method : Str) : List Str :=
  [c!"BindQuery", c!"ShouldBindQuery"] ++ if method = c!"GET" then [c!"Bind", c!"ShouldBind"] else []

/-- A value of type `t` is, or points to, a struct with the fields `fs`, of a defined type that has no registered format. -/
def StructTarget (Γ : TypeEnv) (types : List (Str × TypeFormat)) (m : Str) (t : GoType) (fs : List (StructField × GoType)) : Prop :=
  ∃ x, Base t x ∧ x.2.1 ≠ c!"array" ∧ Γ.underlying x.1 x.2.1 x.2.2 = .struct fs ∧ registeredFormat types (finalPackage m x.1) x.2.1 = none

end Astra.Spec
