/-
Specification vocabulary for C107: how a client fills in a form from a media type object of the OpenAPI standard, and how gin reads it. A form is
the list of its fields, in order, with the encoding undone.
-/
import Verif.Spec.Query

namespace Astra.Spec

/-- What a form holds under a name: a text, or a file with its content. -/
inductive FormItem
  | text (v : Str)
  | file (content : Str)
deriving DecidableEq

/-- What a client wants to say with a field of a form: a text, a list, a table, or a file. -/
inductive FieldValue
  | value (v : QueryValue)
  | file (content : Str)
deriving DecidableEq

/-- The value as JSON, for the schema; a file is its content. -/
def FieldValue.json : FieldValue → Json
  | .value v => v.json
  | .file content => .str content

def urlencodedForm : Str := c!"application/x-www-form-urlencoded"
def multipartForm : Str := c!"multipart/form-data"

/-! ### The standard (OpenAPI 3, Media Type Object and Encoding Object) -/

/-- The fields that the standard prescribes for a value of the property `name` with the schema `t`, in a form of the content type `ct`, if nothing
is said about the encoding: as a query parameter of the style `form`, exploded. Files are the strings of the format `binary`, and need a form of
several parts; there, tables would be parts in JSON. `none`: the standard does not say. -/
def filledIn (ct : Str) (t : Schema) (name : Str) : FieldValue → Option (List (Str × FormItem))
  | .file content =>
    if ct = multipartForm ∧ t.type = c!"string" ∧ t.format = c!"binary" then some [(name, .file content)] else none
  | .value v =>
    if t.format = c!"binary" then none
    else if ct = urlencodedForm then (written c!"form" true name v).map (fun l => l.map (fun e => (e.1, .text e.2)))
    else if ct = multipartForm then
      match v with
      | .table _ => none
      | v => (written c!"form" true name v).map (fun l => l.map (fun e => (e.1, .text e.2)))
    else none

/-- The fields that a client fills in who has the media type object `j`. -/
def filledBy (j : Json) (ct : Str) (t : Schema) (name : Str) (v : FieldValue) : Option (List (Str × FormItem)) :=
  match keyOf j c!"encoding" with
  | none => filledIn ct t name v
  | some _ => none

/-! ### gin (v1.10.0, context.go: PostForm, PostFormArray, PostFormMap, FormFile) -/

/-- The texts of a form. -/
def formTexts (form : List (Str × FormItem)) : List (Str × Str) :=
  form.filterMap (fun e => match e.2 with | .text v => some (e.1, v) | .file _ => none)

/-- The contents of the files with a name. -/
def formFiles (form : List (Str × FormItem)) (name : Str) : List Str :=
  form.filterMap (fun e => match e.2 with | .file c => if e.1 = name then some c else none | .text _ => none)

/-- What gin reads. `PostForm`, `PostFormArray` and `PostFormMap` read the texts as `Query`, `QueryArray` and `QueryMap` read the query; `FormFile`
gives the first file of the name. -/
def FormReads (form : List (Str × FormItem)) (name : Str) : FieldValue → Prop
  | .value v => Reads (formTexts form) name v
  | .file content => (formFiles form name).head? = some content

/-- Values of one kind. -/
def SameFieldKind : FieldValue → FieldValue → Prop
  | .value a, .value b => SameKind a b
  | .file _, .file _ => True
  | _, _ => False

/-- The same value. -/
def SameFieldValue : FieldValue → FieldValue → Prop
  | .value a, .value b => SameValue a b
  | a, b => a = b

/-! ### The calls -/

/-- The kind of value that a context method reads from a form. -/
def FormMethod (m : Str) : FieldValue → Prop
  | .value (.one _) => m ∈ [c!"PostForm", c!"GetPostForm"]
  | .value (.many _) => m ∈ [c!"PostFormArray", c!"GetPostFormArray"]
  | .value (.table _) => m ∈ [c!"PostFormMap", c!"GetPostFormMap"]
  | .file _ => m = c!"FormFile"

/-- The content type of the forms that a value of a kind is read from. -/
def formTypeOf : FieldValue → Str
  | .value _ => urlencodedForm
  | .file _ => multipartForm

/-- The methods that read texts of a form, and those that read files. `Bind` reads either. -/
def readsForm (ct : Str) : List Str :=
  if ct = urlencodedForm then
    [c!"PostForm", c!"GetPostForm", c!"PostFormArray", c!"GetPostFormArray", c!"PostFormMap", c!"GetPostFormMap", c!"Bind", c!"ShouldBind"]
  else if ct = multipartForm then [c!"FormFile", c!"Bind", c!"ShouldBind"]
  else []

/-- The media type object `j` of the content type `ct`, with the schema `s`, tells a client how to say `v` in the field `name`, and what the client
fills in is understood: the object has a property of this name, the schemas admit the value, and whatever other fields the form has, gin reads this
value and no other. -/
def FormUnderstood (schemas : List (Str × Schema)) (ct : Str) (s : Schema) (j : Json) (name : Str) (v : FieldValue) : Prop :=
  Admits schemas s (.obj [(name, v.json)]) ∧
  ∃ t, (name, t) ∈ s.properties ∧ Admits schemas t v.json ∧
    ∃ fields, filledBy j ct t name v = some fields ∧
      ∀ before after : List (Str × FormItem), (∀ e ∈ before, e.1 ≠ name) → (∀ e ∈ after, e.1 ≠ name) →
        FormReads (before ++ fields ++ after) name v ∧
        ∀ v', FormReads (before ++ fields ++ after) name v' → SameFieldKind v v' → SameFieldValue v v'

/-- An entry of a call that reads a field of a form by its name. -/
def IsFormEntry (bp : BodyParam) : Prop :=
  bp.name ≠ [] ∧
  ((bp.contentType = urlencodedForm ∧ bp.field = { type := c!"string" }) ∨ (bp.contentType = multipartForm ∧ bp.field = { type := c!"file" }))

/-- The last of the body entries of the calls with this content type. -/
def LastOfType (es : List Entry) (ct : Str) (bp : BodyParam) : Prop :=
  ∃ before after, es.flatMap (·.body) = before ++ bp :: after ∧ bp.contentType = ct ∧ ∀ x ∈ after, x.contentType ≠ ct

end Astra.Spec
