/-
What it means that a schema describes a type as one format encodes it.
-/
import Verif.Spec.Shape
import Verif.Spec.Schema

namespace Astra.Spec

/-- The schema is the one of the content type `ct` in the request body or in a response of the operation. -/
inductive OfContent (op : Operation) (ct : Str) (s : Schema) : Prop
  | body {content : List (Str × Schema)} : op.requestBody = some content → (ct, s) ∈ content → OfContent op ct s
  | response {code : Str} {resp : OResponse} : (code, resp) ∈ op.responses → (ct, s) ∈ resp.content → OfContent op ct s

/-- The schema has the property, itself or in one of its parts. -/
def PropertyOf (s : Schema) (n : Str) (t : Schema) : Prop := (n, t) ∈ s.properties ∨ ∃ a ∈ s.allOf, (n, t) ∈ a.properties

/-- `s` describes the struct `c` as the kind `b` encodes it, if `target` gives the schema names of the types for that kind: the properties are
the fields shown for the kind, under their names for the kind and with their schemas for the kind, and the parts are the embedded types. -/
structure DescribesStruct (target : Str → Str → Option Str) (b : BTag) (c : Field) (s : Schema) : Prop where
  shown : ∀ x ∈ c.structFields, x.2.isEmbedded = false → ∀ n t, ShownAs b x.2 n → FieldSchema target x.2 t → PropertyOf s n t
  noOther : ∀ n t, PropertyOf s n t → ∃ x ∈ c.structFields, x.2.isEmbedded = false ∧ ShownAs b x.2 n ∧ ∀ t', FieldSchema target x.2 t' → t' = t
  parts : ∀ x ∈ c.structFields, x.2.isEmbedded = true → ∀ n, target x.2.type x.2.package = some n →
    { ref := c!"#/components/schemas/" ++ n } ∈ s.allOf
  noOtherPart : ∀ r, r ≠ [] → { ref := r } ∈ s.allOf → ∃ x ∈ c.structFields, x.2.isEmbedded = true ∧ ∃ n,
    target x.2.type x.2.package = some n ∧ r = c!"#/components/schemas/" ++ n

/-- `s` describes the named type `c` as the kind `b` encodes it, with its comment. -/
def DescribesFor (target : Str → Str → Option Str) (b : BTag) (c : Field) (s : Schema) : Prop :=
  s.description = c.doc ∧ (c.type = c!"struct" → DescribesStruct target b c s) ∧
    (c.type ≠ c!"struct" → ∀ t, FieldSchema target c t → s = { t with description := c.doc })

/-- The type that a field of a type without fields names: the element of a slice, array or map, else the type itself. -/
def mentioned (f : Field) : Str :=
  if f.type = c!"slice" then f.sliceType else if f.type = c!"array" then f.arrayType else if f.type = c!"map" then f.mapValueType else f.type

end Astra.Spec
