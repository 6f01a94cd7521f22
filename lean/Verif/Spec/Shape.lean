/-
What the schema of a Go type is supposed to be.
-/
import Verif.Types
import Verif.Model.Schema

namespace Astra.Spec

/-- The schema type and format of every primitive Go type (and of uploaded files). -/
def primitives : List (Str × Str × Str) := [
  (c!"string", c!"string", []), (c!"bool", c!"boolean", []),
  (c!"int", c!"integer", c!"int32"), (c!"int8", c!"integer", c!"int8"), (c!"int16", c!"integer", c!"int16"),
  (c!"int32", c!"integer", c!"int32"), (c!"int64", c!"integer", c!"int64"),
  (c!"uint", c!"integer", c!"uint"), (c!"uint8", c!"integer", c!"uint8"), (c!"uint16", c!"integer", c!"uint16"),
  (c!"uint32", c!"integer", c!"uint32"), (c!"uint64", c!"integer", c!"uint64"),
  (c!"float32", c!"number", c!"float32"), (c!"float64", c!"number", c!"float64"),
  (c!"byte", c!"string", c!"byte"), (c!"rune", c!"string", c!"rune"), (c!"file", c!"string", c!"binary")]

/-- The words that are not names of user-defined types. -/
def reserved : List Str := primitives.map (·.1) ++ [c!"any", c!"nil", c!"float", c!"struct", c!"map", c!"slice"]

/-- The words for types without a name, and the schema type of each. -/
def composites : List (Str × Str) := [(c!"slice", c!"array"), (c!"map", c!"object"), (c!"struct", c!"object")]

/-- `s` is the schema of the type called `t` in package `pkg`; `target` gives the schema name a user-defined type has, if any. Of a
slice, map or struct inside of another type only the schema type is given. -/
inductive NamedSchema (target : Str → Str → Option Str) (pkg : Str) : Str → Schema → Prop
  | primitive {t ty fmt : Str} : (t, ty, fmt) ∈ primitives → NamedSchema target pkg t { type := ty, format := fmt }
  | anything : NamedSchema target pkg c!"any" {}
  | composite {t ty : Str} : (t, ty) ∈ composites → NamedSchema target pkg t { type := ty }
  | defined {t n : Str} : t ∉ reserved → target t pkg = some n →
      NamedSchema target pkg t { ref := c!"#/components/schemas/" ++ n }

/-- `s` is the schema of the (non-struct) field type `f`. -/
inductive FieldSchema (target : Str → Str → Option Str) (f : Field) : Schema → Prop
  | plain {s : Schema} : f.type ∉ [c!"slice", c!"array", c!"map", c!"struct"] → f.enumValues = [] → NamedSchema target f.package f.type s →
      FieldSchema target f s
  | enum {ty fmt : Str} : (f.type, ty, fmt) ∈ primitives → FieldSchema target f { type := ty, format := fmt, enum := f.enumValues }
  | slice {s : Schema} : f.type = c!"slice" → NamedSchema target f.package f.sliceType s →
      FieldSchema target f { type := c!"array", items := some s }
  | array {s : Schema} : f.type = c!"array" → NamedSchema target f.package f.arrayType s →
      FieldSchema target f { type := c!"array", items := some s, maxLength := f.arrayLength }
  | map {s : Schema} : f.type = c!"map" → NamedSchema target f.package f.mapValueType s →
      FieldSchema target f { type := c!"object", additionalProperties := some s }

/-- A schema without its format. -/
def dropFormat (s : Schema) : Schema := { s with format := [] }

end Astra.Spec
