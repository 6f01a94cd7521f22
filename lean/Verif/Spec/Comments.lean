/-
Specification vocabulary for C96: the comment of a type, the schemas inside a schema, and the comments of struct fields.
-/
import Verif.Spec.Enums
import Verif.Spec.Text
import Verif.Spec.Schema

namespace Astra.Spec

/-- The comment of a type in the files of its package: its own one, or else that of the declaration it is part of, or else none. A type
that is not declared at the top of one of the files has none. -/
inductive TypeComment (files : List (List Decl)) (name : Str) : Str → Prop
  | own {group : Option Str} {s : TypeSpec} {d text : Str} : (group, s) ∈ allTypeSpecs files → s.name = name → s.doc = some d → Says d text →
      TypeComment files name text
  | group {s : TypeSpec} {d text : Str} : (some d, s) ∈ allTypeSpecs files → s.name = name → s.doc = none → Says d text →
      TypeComment files name text
  | bare {s : TypeSpec} : (none, s) ∈ allTypeSpecs files → s.name = name → s.doc = none → TypeComment files name []
  | undeclared : (∀ e ∈ allTypeSpecs files, e.2.name ≠ name) → TypeComment files name []

/-- `t` is a direct part of the schema `s`. -/
def PartOf (t s : Schema) : Prop :=
  t ∈ s.allOf ∨ s.items = some t ∨ (∃ k, (k, t) ∈ s.properties) ∨ s.additionalProperties = some t

/-- `t` is the schema `s` or one inside it, at any depth. -/
inductive SubSchema : Schema → Schema → Prop
  | self (s : Schema) : SubSchema s s
  | part {t u s : Schema} : PartOf u s → SubSchema t u → SubSchema t s

/-- No description at any depth. -/
def Undescribed (s : Schema) : Prop := ∀ t, SubSchema t s → t.description = []

mutual
/-- A type description without the comments of the struct fields, at any depth. -/
def withoutFieldComments : Field → Field
  | ⟨package, type, name, enumValues, isRequired, isEmbedded, sliceType, arrayType, arrayLength, mapKeyPackage, mapKeyType,
      mapValueType, structFields, bindingTags, validationTags, doc⟩ =>
    ⟨package, type, name, enumValues, isRequired, isEmbedded, sliceType, arrayType, arrayLength, mapKeyPackage, mapKeyType,
      mapValueType, fieldsWithoutComments structFields, bindingTags, validationTags, doc⟩
/-- The fields of a struct without comments. -/
def fieldsWithoutComments : List (Str × Field) → List (Str × Field)
  | [] => []
  | (k, f) :: rest => (k, { withoutFieldComments f with doc := [] }) :: fieldsWithoutComments rest
end

end Astra.Spec
