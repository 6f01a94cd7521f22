/-
Specification vocabulary for generated schemas: the references in a schema and in a document, equality of type descriptions
up to the order of Go maps, hidden fields.
-/
import Verif.Model.OpenApi
import Verif.Spec.OpenApi

namespace Astra.Spec

/-- The reference `r` occurs somewhere in the schema. -/
inductive HasRef : Schema → Str → Prop
  | here {s : Schema} : s.ref ≠ [] → HasRef s s.ref
  | allOf {s t : Schema} {r : Str} : t ∈ s.allOf → HasRef t r → HasRef s r
  | items {s t : Schema} {r : Str} : s.items = some t → HasRef t r → HasRef s r
  | properties {s t : Schema} {k r : Str} : (k, t) ∈ s.properties → HasRef t r → HasRef s r
  | additional {s t : Schema} {r : Str} : s.additionalProperties = some t → HasRef t r → HasRef s r

/-- The schema occurs in the operation: in a parameter, the request body, a response or a response header. -/
inductive InOperation : Operation → Schema → Prop
  | parameter {op : Operation} {p : OParam} : p ∈ op.parameters → InOperation op p.schema
  | body {op : Operation} {content : List (Str × Schema)} {ct : Str} {s : Schema} :
      op.requestBody = some content → (ct, s) ∈ content → InOperation op s
  | response {op : Operation} {code ct : Str} {resp : OResponse} {s : Schema} :
      (code, resp) ∈ op.responses → (ct, s) ∈ resp.content → InOperation op s
  | header {op : Operation} {code name : Str} {resp : OResponse} {h : OHeader} :
      (code, resp) ∈ op.responses → (name, h) ∈ resp.headers → InOperation op h.schema

/-- The operation is one of the operations of the path item. -/
def OfItem (i : PathItem) (op : Operation) : Prop :=
  i.get = some op ∨ i.post = some op ∨ i.put = some op ∨ i.patch = some op ∨ i.delete = some op ∨ i.head = some op ∨
    i.options = some op

/-- The schema occurs in the document. -/
inductive InDocument : Document → Schema → Prop
  | component {d : Document} {n : Str} {s : Schema} : (n, s) ∈ d.schemas → InDocument d s
  | operation {d : Document} {path : Str} {i : PathItem} {op : Operation} {s : Schema} :
      (path, i) ∈ d.paths → OfItem i op → InOperation op s → InDocument d s

/-- Two values of type `Field` that denote the same Go value: they differ only in the order in which maps are listed. -/
inductive SameField : Field → Field → Prop
  | refl (f : Field) : SameField f f
  | trans {f g h : Field} : SameField f g → SameField g h → SameField f h
  | tags (f : Field) {l : List (BTag × BindingTag)} : f.bindingTags.Perm l → SameField f { f with bindingTags := l }
  | validations (f : Field) {l : List (VTag × Bool)} : f.validationTags.Perm l → SameField f { f with validationTags := l }
  | fields (f : Field) {l : List (Str × Field)} : f.structFields.Perm l → SameField f { f with structFields := l }
  | inner (f : Field) {before after : List (Str × Field)} {k : Str} {g g' : Field} :
      f.structFields = before ++ (k, g) :: after → SameField g g' →
      SameField f { f with structFields := before ++ (k, g') :: after }

/-- The field is shown under the name `n` for the binding kind `b`: by its own tag for the kind or else by its kind-less tag. -/
def ShownAs (b : BTag) (f : Field) (n : Str) : Prop :=
  ∃ t, t.name = n ∧ t.notShown = false ∧ t ≠ {} ∧
    ((b, t) ∈ f.bindingTags ∨
      ((BTag.none, t) ∈ f.bindingTags ∧ ∀ t', (b, t') ∈ f.bindingTags → t' = {}))

/-- `f'` is `f` without one field that carries the tag `-` for the binding kind, at any depth; embedded fields excepted. -/
inductive DropHidden (b : BTag) : Field → Field → Prop
  | here (f : Field) {before after : List (Str × Field)} {k : Str} {g : Field} {t : BindingTag} :
      f.structFields = before ++ (k, g) :: after → g.isEmbedded = false → aget g.bindingTags b = some t → t.notShown = true →
      DropHidden b f { f with structFields := before ++ after }
  | inner (f : Field) {before after : List (Str × Field)} {k : Str} {g g' : Field} :
      f.structFields = before ++ (k, g) :: after → DropHidden b g g' →
      DropHidden b f { f with structFields := before ++ (k, g') :: after }

end Astra.Spec
