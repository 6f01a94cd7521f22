/-
What it means that a document describes the JSON a program sends: which JSON values a Go value of a type is encoded as (the rules
of the encoding/json package), and which JSON values a schema of the document admits (the rules of OpenAPI 3.0).
-/
import Verif.Spec.Types
import Verif.Spec.Tags
import Verif.Spec.Enums
import Verif.Spec.Shape
import Verif.Spec.OpenApi
import Verif.Model.Json

namespace Astra.Spec

/-! ### The JSON of a Go value -/

/-- The value of a key in a tag. -/
def tagValue (pairs : List (Str × Str)) (key : Str) : Option Str := (pairs.find? (fun p => p.1 = key)).map (·.2)

/-- A character that may occur in the name given by a json tag. (The rules of encoding/json also admit letters and digits outside of
ASCII; names with those are left out here.) -/
def TagChar (c : Char) : Prop := c.isAlphanum = true ∨ c ∈ c!"!#$%&()*+-./:;<=>?@[]^_{|}~ "

/-- The struct field is encoded as a member with this name, with these options: it has no json tag, or one that is not `-`. -/
inductive JsonMember (f : StructField) : Str → List Str → Prop
  | untagged {pairs : List (Str × Str)} : TagText f.tag pairs → tagValue pairs c!"json" = none → JsonMember f f.name []
  | tagged {pairs : List (Str × Str)} {v name : Str} {opts : List Str} : TagText f.tag pairs → tagValue pairs c!"json" = some v →
      v ≠ c!"-" → split ',' v = name :: opts → name ≠ [] → (∀ c ∈ name, TagChar c) → JsonMember f name opts
  | unnamed {pairs : List (Str × Str)} {v : Str} {opts : List Str} : TagText f.tag pairs → tagValue pairs c!"json" = some v →
      split ',' v = [] :: opts → JsonMember f f.name opts

/-- The struct field is given no name by a json tag. -/
def NoJsonName (f : StructField) : Prop :=
  ∃ pairs, TagText f.tag pairs ∧ ∀ v, tagValue pairs c!"json" = some v → ∃ opts, split ',' v = [] :: opts

/-- The type is the defined type `x`, or a pointer to it. -/
inductive Base : GoType → TName → Prop
  | value (p n a : Str) : Base (.named (some p) n a) (p, n, a)
  | pointer (p n a : Str) : Base (.pointer (.named (some p) n a)) (p, n, a)

/-- The field stands for the fields `gs`: it is embedded, a json tag gives it no name, and its type is a defined struct type with
these fields, or a pointer to one. -/
def Inlines (Γ : TypeEnv) (e : StructField × GoType) (gs : List (StructField × GoType)) : Prop :=
  e.1.embedded = true ∧ NoJsonName e.1 ∧ ∃ x, Base e.2 x ∧ Γ.underlying x.1 x.2.1 x.2.2 = .struct gs

/-- `Offers Γ fs path e`: the struct with the fields `fs` has the exported field `e`, itself or through embedded fields; `path` are the
positions of the embedded fields on the way, and of the field. -/
inductive Offers (Γ : TypeEnv) : List (StructField × GoType) → List Nat → StructField × GoType → Prop
  | own {fs : List (StructField × GoType)} {i : Nat} {e : StructField × GoType} : fs[i]? = some e → e.1.exported = true →
      (∀ gs, ¬ Inlines Γ e gs) → Offers Γ fs [i] e
  | inner {fs gs : List (StructField × GoType)} {i : Nat} {b e : StructField × GoType} {path : List Nat} : fs[i]? = some b →
      Inlines Γ b gs → Offers Γ gs path e → Offers Γ fs (i :: path) e

/-- The field `e`, at `path`, is the one that is encoded as the member `k`: all other fields of this name are deeper, or are at the same
depth and are, unlike this one, not given the name by a json tag. -/
structure Wins (Γ : TypeEnv) (fs : List (StructField × GoType)) (path : List Nat) (k : Str) (o : List Str) (e : StructField × GoType) :
    Prop where
  offered : Offers Γ fs path e
  member : JsonMember e.1 k o
  beats : ∀ path' e' o', path' ≠ path → Offers Γ fs path' e' → JsonMember e'.1 k o' →
    path.length < path'.length ∨ (path.length = path'.length ∧ ¬ NoJsonName e.1 ∧ NoJsonName e'.1)

/-- The names of Go's integer types. -/
def integerTypes : List Str := [c!"int", c!"int8", c!"int16", c!"int32", c!"int64", c!"uint", c!"uint8", c!"uint16", c!"uint32", c!"uint64",
  c!"byte", c!"rune"]

/-- Slices of these are encoded as base64 text. -/
def ByteLike (Γ : TypeEnv) : GoType → Prop
  | .basic _ n => n = c!"byte" ∨ n = c!"uint8"
  | .named (some p) n a => ∃ k, Γ.underlying p n a = .basic k c!"byte" ∨ Γ.underlying p n a = .basic k c!"uint8"
  | _ => False

/-- `Encodes Γ marshal nils t v`: the JSON value `v` is what encoding/json makes of some value of the Go type `t`. `marshal p n` gives,
for the types with a `MarshalJSON` method, what it returns, and for the types that are used with certain values only, the JSON of these;
`nils` says whether the value may contain nil pointers, slices and
maps. Numbers beyond the range of their type are left out. For a struct, `field`, `place` and `opts` say which field a member comes from
and which options it has: with the option omitempty it may be omitted, with the option string it is quoted. Members of structs that are
embedded by pointer are missing if the pointer is nil; the rule is more liberal and does not ask which of the inner fields come through a
pointer. The order of the members is left open. -/
inductive Encodes (Γ : TypeEnv) (marshal : Str → Str → Option (Json → Prop)) (nils : Bool) : GoType → Json → Prop
  | string {k : BasicKind} (s : Str) : Encodes Γ marshal nils (.basic k c!"string") (.str s)
  | bool {k : BasicKind} (b : Bool) : Encodes Γ marshal nils (.basic k c!"bool") (.bool b)
  | integer {k : BasicKind} {n : Str} (i : Int) : n ∈ integerTypes → Encodes Γ marshal nils (.basic k n) (.num (itoa i))
  | float {k : BasicKind} {n : Str} (text : Str) : n ∈ [c!"float32", c!"float64"] → Encodes Γ marshal nils (.basic k n) (.num text)
  | any (v : Json) : Encodes Γ marshal nils .interface v
  | named {p n a : Str} {v : Json} : marshal p n = none → Encodes Γ marshal nils (Γ.underlying p n a) v →
      Encodes Γ marshal nils (.named (some p) n a) v
  | custom {p n a : Str} {M : Json → Prop} {v : Json} : marshal p n = some M → M v → Encodes Γ marshal nils (.named (some p) n a) v
  | pointer {e : GoType} {v : Json} : Encodes Γ marshal nils e v → Encodes Γ marshal nils (.pointer e) v
  | slice {e : GoType} {xs : List Json} : ¬ ByteLike Γ e → (∀ x ∈ xs, Encodes Γ marshal nils e x) →
      Encodes Γ marshal nils (.slice e) (.arr xs)
  | bytes {e : GoType} (base64 : Str) : ByteLike Γ e → Encodes Γ marshal nils (.slice e) (.str base64)
  | array {l : Int} {e : GoType} {xs : List Json} : (xs.length : Int) = l → (∀ x ∈ xs, Encodes Γ marshal nils e x) →
      Encodes Γ marshal nils (.array l e) (.arr xs)
  | map {k e : GoType} {ms : List (Str × Json)} : (ms.map (·.1)).Nodup → (∀ x ∈ ms, Encodes Γ marshal nils e x.2) →
      Encodes Γ marshal nils (.map k e) (.obj ms)
  | struct {fs : List (StructField × GoType)} {ms : List (Str × Json)} (place : Str → List Nat) (opts : Str → List Str)
      (field : Str → StructField × GoType) : (ms.map (·.1)).Nodup →
      (∀ m ∈ ms, Wins Γ fs (place m.1) m.1 (opts m.1) (field m.1)) →
      (∀ path k o e, Wins Γ fs path k o e → k ∈ ms.map (·.1) ∨ c!"omitempty" ∈ o ∨ (nils = true ∧ 1 < path.length)) →
      (∀ m ∈ ms, c!"string" ∈ opts m.1 → ∃ text, m.2 = .str text) →
      (∀ m ∈ ms, c!"string" ∉ opts m.1 → Encodes Γ marshal nils (field m.1).2 m.2) →
      Encodes Γ marshal nils (.struct fs) (.obj ms)
  | nilPointer {e : GoType} : nils = true → Encodes Γ marshal nils (.pointer e) .null
  | nilSlice {e : GoType} : nils = true → Encodes Γ marshal nils (.slice e) .null
  | nilMap {k e : GoType} : nils = true → Encodes Γ marshal nils (.map k e) .null

/-! ### The JSON a schema admits -/

/-- The JSON value has the type a schema asks for; a schema without a type admits every value. -/
def HasJsonType (type : Str) (v : Json) : Prop :=
  type = [] ∨
  (type = c!"string" ∧ ∃ s, v = .str s) ∨ (type = c!"boolean" ∧ ∃ b, v = .bool b) ∨
  (type = c!"integer" ∧ ∃ i, v = .num (itoa i)) ∨ (type = c!"number" ∧ ∃ text, v = .num text) ∨
  (type = c!"array" ∧ ∃ xs, v = .arr xs) ∨ (type = c!"object" ∧ ∃ ms, v = .obj ms)

/-- The JSON of an enum value. -/
def enumJson : EnumVal → Json
  | .str s => .str s
  | .int i => .num (itoa i)
  | .float text => .num text
  | .bool b => .bool b

/-- The schema admits the JSON value; `schemas` are the entries of `components.schemas`. (A format is an annotation, and `maxLength`
only limits strings; the generator sets it on arrays only.) -/
inductive Admits (schemas : List (Str × Schema)) : Schema → Json → Prop
  | ref {s t : Schema} {n : Str} {v : Json} : s.ref = c!"#/components/schemas/" ++ n → (n, t) ∈ schemas → Admits schemas t v →
      Admits schemas s v
  | here {s : Schema} {v : Json} : s.ref = [] → HasJsonType s.type v →
      (s.enum = [] ∨ ∃ e ∈ s.enum, v = enumJson e) →
      (∀ i xs, s.items = some i → v = .arr xs → ∀ x ∈ xs, Admits schemas i x) →
      (∀ ms k x t, v = .obj ms → (k, x) ∈ ms → (k, t) ∈ s.properties → Admits schemas t x) →
      (∀ a ms k x, s.additionalProperties = some a → v = .obj ms → (k, x) ∈ ms → k ∉ s.properties.map (·.1) → Admits schemas a x) →
      (∀ t ∈ s.allOf, Admits schemas t v) → Admits schemas s v

/-! ### The schema a Go type calls for -/

/-- A type that a document can name: a primitive type (other than `byte` and `rune`), a defined type, an interface, or a pointer to
one of these. -/
inductive Single : GoType → Prop
  | basic {k : BasicKind} {n : Str} : n ∈ primitives.map (·.1) → n ∉ [c!"byte", c!"rune", c!"file"] → Single (.basic k n)
  | named {p n a : Str} : n ∉ reserved → n ≠ c!"array" → '.' ∉ n → n ≠ [] → p ≠ [] → Single (.named (some p) n a)
  | interface : Single .interface
  | pointer {e : GoType} : Single e → Single (.pointer e)

/-- A slice (not of bytes), a map, a struct type without a name, or a pointer to one of these. -/
inductive Composite (Γ : TypeEnv) : GoType → Prop
  | slice {e : GoType} : ¬ ByteLike Γ e → Composite Γ (.slice e)
  | map {k e : GoType} : Composite Γ (.map k e)
  | struct {fs : List (StructField × GoType)} : Composite Γ (.struct fs)
  | pointer {e : GoType} : Composite Γ e → Composite Γ (.pointer e)

/-- The types of struct fields and bodies that are covered: those a document can name, and slices, arrays and maps of them, and of
slices, maps and structs without a name; slices of bytes are not covered. -/
inductive Describable (Γ : TypeEnv) : GoType → Prop
  | single {t : GoType} : Single t → Describable Γ t
  | slice {e : GoType} : Single e → ¬ ByteLike Γ e → Describable Γ (.slice e)
  | array {l : Int} {e : GoType} : Single e → Describable Γ (.array l e)
  | map {k e : GoType} : Single e → Describable Γ (.map k e)
  | slices {e : GoType} : Composite Γ e → Describable Γ (.slice e)
  | arrays {l : Int} {e : GoType} : Composite Γ e → Describable Γ (.array l e)
  | maps {k e : GoType} : Composite Γ e → Describable Γ (.map k e)
  | pointer {e : GoType} : Describable Γ e → Describable Γ (.pointer e)

/-- A Go array, or a pointer to one. -/
def IsArray : GoType → Prop
  | .array _ _ => True
  | .pointer e => IsArray e
  | _ => False

/-- An interface type, or a pointer to one. -/
def IsInterface : GoType → Prop
  | .interface => True
  | .pointer e => IsInterface e
  | _ => False

/-- What the schema of a type says about the slices, maps and structs in it: only that they are arrays or objects. -/
inductive Outline : GoType → Schema → Prop
  | slice {e : GoType} : Outline (.slice e) { type := c!"array" }
  | map {k e : GoType} : Outline (.map k e) { type := c!"object" }
  | struct {fs : List (StructField × GoType)} : Outline (.struct fs) { type := c!"object" }
  | pointer {e : GoType} {s : Schema} : Outline e s → Outline (.pointer e) s

/-- The schema of a describable type; `target p n` is the name of the schema of the defined type `p.n`. -/
inductive TypeSchema (target : Str → Str → Option Str) : GoType → Schema → Prop
  | primitive {k : BasicKind} {n type format : Str} : (n, type, format) ∈ primitives →
      TypeSchema target (.basic k n) { type := type, format := format }
  | interface : TypeSchema target .interface {}
  | named {p n a s : Str} : target p n = some s → TypeSchema target (.named (some p) n a) { ref := c!"#/components/schemas/" ++ s }
  | pointer {e : GoType} {s : Schema} : TypeSchema target e s → TypeSchema target (.pointer e) s
  | slice {e : GoType} {s : Schema} : Single e → TypeSchema target e s → TypeSchema target (.slice e) { type := c!"array", items := some s }
  | array {l : Int} {e : GoType} {s : Schema} : Single e → TypeSchema target e s →
      TypeSchema target (.array l e) { type := c!"array", items := some s, maxLength := l }
  | map {k e : GoType} {s : Schema} : Single e → TypeSchema target e s →
      TypeSchema target (.map k e) { type := c!"object", additionalProperties := some s }
  | slices {e : GoType} {s : Schema} : Outline e s → TypeSchema target (.slice e) { type := c!"array", items := some s }
  | arrays {l : Int} {e : GoType} {s : Schema} : Outline e s → TypeSchema target (.array l e) { type := c!"array", items := some s, maxLength := l }
  | maps {k e : GoType} {s : Schema} : Outline e s → TypeSchema target (.map k e) { type := c!"object", additionalProperties := some s }

/-- The schema of a struct: an object with exactly one property for each exported field that is encoded and not embedded, under the name
it is encoded under and with the schema of its type, a reference to the type of each exported embedded field, and nothing else but a
description. (With embedded fields the references are in `allOf`, and so is the list of the properties.) -/
structure StructSchema (target : Str → Str → Option Str) (fs : List (StructField × GoType)) (s : Schema) : Prop where
  object : ∃ props parts description, s = { type := c!"object", properties := props, allOf := parts, description := description }
  parts : ∀ u ∈ s.allOf, (∃ e ∈ fs, e.1.exported = true ∧ e.1.embedded = true ∧ TypeSchema target e.2 u) ∨ ∃ props, u = { properties := props }
  bases : ∀ e ∈ fs, e.1.exported = true → e.1.embedded = true → ∃ u ∈ s.allOf, TypeSchema target e.2 u
  exact : ∀ k u, ((k, u) ∈ s.properties ∨ ∃ part ∈ s.allOf, (k, u) ∈ part.properties) ↔
    ∃ e ∈ fs, e.1.exported = true ∧ e.1.embedded = false ∧ (∃ opts, JsonMember e.1 k opts) ∧ TypeSchema target e.2 u

/-! ### Structs for JSON -/

/-- The struct field has no tag that matters but a `json` tag, if it has any: the text of the tag is conventional, none of the other
keys that are used for binding occurs, and the value for `json` is `-` or gives a valid name other than `-`, or no name. -/
def JsonTag (f : StructField) : Prop :=
  ∃ pairs, TagText f.tag pairs ∧ (∀ key ∈ [c!"header", c!"form", c!"uri", c!"xml", c!"yaml"], tagValue pairs key = none) ∧
    ∀ v, tagValue pairs c!"json" = some v → v = c!"-" ∨
      (v.takeWhile (· ≠ ',') ≠ c!"-" ∧ ∀ c ∈ v.takeWhile (· ≠ ','), TagChar c)

/-- The struct field has no `json` tag. -/
def NoJsonTag (f : StructField) : Prop := ∃ pairs, TagText f.tag pairs ∧ tagValue pairs c!"json" = none

/-- A struct that is meant for JSON, or for nothing in particular: its exported fields are tagged for JSON at most, are encoded under
different names, and have types that are covered; its embedded fields are exported, have no json tag and are of a defined type or a
pointer to one. -/
structure JsonStruct (Γ : TypeEnv) (fs : List (StructField × GoType)) : Prop where
  names : ((fs.filter (fun e => e.1.exported)).map (fun e => e.1.name)).Nodup
  named : ∀ e ∈ fs, e.1.exported = true → e.1.name ≠ []
  embeds : ∀ e ∈ fs, e.1.embedded = true → e.1.exported = true ∧ NoJsonTag e.1 ∧ ∃ x, Base e.2 x
  tags : ∀ e ∈ fs, e.1.exported = true → JsonTag e.1
  distinct : (fs.filter (fun e => e.1.exported && !e.1.embedded)).Pairwise (fun e e' => ∀ k o o', JsonMember e.1 k o → ¬ JsonMember e'.1 k o')
  types : ∀ e ∈ fs, e.1.exported = true → Describable Γ e.2

/-- Following embedded fields comes to an end: no struct embeds a pointer to itself, directly or not. -/
inductive EmbedsFinitely (Γ : TypeEnv) : List (StructField × GoType) → Prop
  | mk {fs : List (StructField × GoType)} : (∀ e ∈ fs, ∀ gs, Inlines Γ e gs → EmbedsFinitely Γ gs) → EmbedsFinitely Γ fs

/-- What is asked of embedded fields: following them comes to an end, they are of struct types without a `MarshalJSON` method, and a field
is hidden by another one of its name only if that has the same type. -/
structure Embeds (Γ : TypeEnv) (marshal : Str → Str → Option (Json → Prop)) (fs : List (StructField × GoType)) : Prop where
  finite : EmbedsFinitely Γ fs
  structs : ∀ e ∈ fs, e.1.embedded = true → ∀ x, Base e.2 x → marshal x.1 x.2.1 = none ∧ ∃ gs, Γ.underlying x.1 x.2.1 x.2.2 = .struct gs
  agree : ∀ path e path' e' k o o', Offers Γ fs path e → JsonMember e.1 k o → Wins Γ fs path' k o' e' → e'.2 = e.2

/-! ### The entry of a defined type -/

/-- The entry `e` of a document describes the defined type `x`: it is the registered format of a type with its own encoding, or it
is the schema of the definition; the entry of a type that is used with its declared values only may list them. `D` are the types that
have entries. -/
inductive Describes (Γ : TypeEnv) (marshal : Str → Str → Option (Json → Prop)) (target : Str → Str → Option Str) (D : TName → Prop)
    (x : TName) : Schema → Prop
  | custom {M : Json → Prop} {type format description : Str} : marshal x.1 x.2.1 = some M → (∀ v, M v → HasJsonType type v) →
      Describes Γ marshal target D x { type := type, format := format, description := description }
  | declared {M : Json → Prop} {type format description : Str} {values : List EnumVal} : marshal x.1 x.2.1 = some M →
      (∀ v, M v → HasJsonType type v ∧ ∃ e ∈ values, v = enumJson e) →
      Describes Γ marshal target D x { type := type, format := format, enum := values, description := description }
  | struct {fs : List (StructField × GoType)} {e : Schema} : marshal x.1 x.2.1 = none → Γ.underlying x.1 x.2.1 x.2.2 = .struct fs → StructSchema target fs e →
      Embeds Γ marshal fs → (∀ e ∈ fs, e.1.embedded = true → NoJsonName e.1 ∧ ∃ z, Base e.2 z ∧ D z) →
      (∀ path y, Offers Γ fs path y → Describable Γ y.2 ∧ (∀ z, Occurs y.2 z → D z) ∧ ∀ k o, JsonMember y.1 k o → c!"string" ∉ o) →
      Describes Γ marshal target D x e
  | other {s : Schema} {description : Str} : marshal x.1 x.2.1 = none → Describable Γ (Γ.underlying x.1 x.2.1 x.2.2) →
      TypeSchema target (Γ.underlying x.1 x.2.1 x.2.2) s → (∀ z, Occurs (Γ.underlying x.1 x.2.1 x.2.2) z → D z) →
      Describes Γ marshal target D x { s with description := description }

/-- The exported fields of a struct definition. -/
def exportedFields : GoType → List StructField
  | .struct fs => (fs.filter (fun e => e.1.exported)).map (·.1)
  | _ => []

/-- References to the type have the same target for all binding kinds: it is not a struct, or has no exported fields, or has an exported
field without a tag. -/
def KindFree (t : GoType) : Prop := exportedFields t = [] ∨ ∃ f ∈ exportedFields t, NoJsonTag f

/-- The package path under which the final service knows a package: the temporary main package is called main (C33). -/
def finalPackage (m p : Str) : Str := if p = m then c!"main" else p

/-- The format registered for a defined type. -/
def registeredFormat (types : List (Str × TypeFormat)) (p n : Str) : Option TypeFormat := mget types (p ++ '.' :: n)

/-- A defined type that a document can describe. `types` are the registered formats; `m` is the temporary main package. -/
inductive Fits (Γ : TypeEnv) (marshal : Str → Str → Option (Json → Prop)) (types : List (Str × TypeFormat)) (m : Str) (x : TName) : Prop
  /-- It has a registered format, which is what its own `MarshalJSON` method returns. -/
  | registered {M : Json → Prop} {f : TypeFormat} : marshal x.1 x.2.1 = some M →
      registeredFormat types (finalPackage m x.1) x.2.1 = some f → (∀ v, M v → HasJsonType f.type v) →
      exportedFields (Γ.underlying x.1 x.2.1 x.2.2) = [] → Fits Γ marshal types m x
  /-- It is defined as a primitive type, has constants that are written plainly (C23) and is used with these values only. -/
  | declared {M : Json → Prop} {k : BasicKind} {n type format : Str} : marshal x.1 x.2.1 = some M →
      registeredFormat types (finalPackage m x.1) x.2.1 = none → Γ.underlying x.1 x.2.1 x.2.2 = .basic k n →
      (n, type, format) ∈ primitives → (∀ d ∈ (Γ.files x.1).flatten, ∀ s ∈ constSpecs d, PlainConsts k x.2.1 s) →
      (∀ v, M v → HasJsonType type v ∧ ∃ e ∈ declaredConstants (Γ.files x.1) x.2.1, v = enumJson e) → Fits Γ marshal types m x
  /-- It is a struct for JSON. -/
  | tagged {fs : List (StructField × GoType)} : marshal x.1 x.2.1 = none → registeredFormat types (finalPackage m x.1) x.2.1 = none →
      Γ.underlying x.1 x.2.1 x.2.2 = .struct fs → JsonStruct Γ fs → Embeds Γ marshal fs →
      (∀ y ∈ fs, y.1.exported = true → ∀ k o, JsonMember y.1 k o → c!"string" ∉ o) →
      (∃ e ∈ fs, e.1.exported = true ∧ ¬ NoJsonTag e.1) → Fits Γ marshal types m x
  /-- It is a struct without tags. The definitions it uses must not depend on the binding kind. -/
  | untagged {fs : List (StructField × GoType)} : marshal x.1 x.2.1 = none → registeredFormat types (finalPackage m x.1) x.2.1 = none →
      Γ.underlying x.1 x.2.1 x.2.2 = .struct fs → JsonStruct Γ fs → Embeds Γ marshal fs → (∀ e ∈ fs, e.1.exported = true → NoJsonTag e.1) →
      (∀ y, Uses Γ x y → KindFree (Γ.underlying y.1 y.2.1 y.2.2)) → Fits Γ marshal types m x
  /-- It is defined as a type that is not a struct, and has no declared values. -/
  | other : marshal x.1 x.2.1 = none → registeredFormat types (finalPackage m x.1) x.2.1 = none →
      Describable Γ (Γ.underlying x.1 x.2.1 x.2.2) →
      (∀ k n, Γ.underlying x.1 x.2.1 x.2.2 = .basic k n → enumValuesOf Γ x.1 k x.2.1 = []) →
      (∀ y, Uses Γ x y → KindFree (Γ.underlying y.1 y.2.1 y.2.2)) → Fits Γ marshal types m x

/-- A set of defined types that a document can describe. -/
structure Documentable (Γ : TypeEnv) (marshal : Str → Str → Option (Json → Prop)) (types : List (Str × TypeFormat)) (m : Str)
    (D : TName → Prop) : Prop where
  /-- With every type the types its definition uses. -/
  closed : ∀ x, D x → ∀ y, Uses Γ x y → D y
  names : ∀ x, D x → x.1 ≠ [] ∧ x.2.1 ≠ [] ∧ '.' ∉ x.2.1 ∧ x.2.1 ∉ reserved ∧ PlainPackage (finalPackage m x.1)
  /-- `time.Duration` is documented as a plain integer. -/
  duration : ∀ x, D x → ¬ (x.1 = c!"time" ∧ x.2.1 = c!"Duration")
  /-- No generic type with different arguments. -/
  instances : ∀ x, D x → ∀ y, D y → x.1 = y.1 → x.2.1 = y.2.1 → x = y
  /-- No package but the main package has the path main. -/
  main : ∀ x, D x → x.1 = c!"main" → m = c!"main"
  /-- Definitions that are recorded under their own name (C19). -/
  own : ∀ x, D x → OwnDefinition x.1 (Γ.underlying x.1 x.2.1 x.2.2)
  fits : ∀ x, D x → Fits Γ marshal types m x
  /-- Formats are registered for types that have a name. -/
  formats : ∀ e ∈ types, e.1.getLast? ≠ some '.'
  /-- Packages of the same name differ at one common depth (C30). -/
  separable : ∀ pkgs, (∀ q ∈ pkgs, ∃ x, D x ∧ q = finalPackage m x.1) → Separable pkgs

end Astra.Spec
