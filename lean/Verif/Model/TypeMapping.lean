/-
Model of accepted.go and formatTypes.go.
-/
import Verif.Types

namespace Astra

/-- accepted.go:7-31 `AcceptedTypes`. -/
def acceptedTypes : List Str := [
  c!"nil", c!"string", c!"int", c!"int8", c!"int16", c!"int32", c!"int64", c!"uint", c!"uint8", c!"uint16", c!"uint32",
  c!"uint64", c!"float", c!"float32", c!"float64", c!"bool", c!"byte", c!"rune", c!"struct", c!"map", c!"slice",
  c!"any", c!"file"]

/-- accepted.go:33-35 `IsAcceptedType`. -/
def isAcceptedType (t : Str) : Bool := elemB acceptedTypes t

/-- formatTypes.go:13-107 `PredefinedTypeMap`. -/
def predefinedTypeMap : List (Str × TypeFormat) := [
  (c!"string", ⟨c!"string", []⟩),
  (c!"int", ⟨c!"integer", c!"int32"⟩),
  (c!"int8", ⟨c!"integer", c!"int8"⟩),
  (c!"int16", ⟨c!"integer", c!"int16"⟩),
  (c!"int32", ⟨c!"integer", c!"int32"⟩),
  (c!"int64", ⟨c!"integer", c!"int64"⟩),
  (c!"uint", ⟨c!"integer", c!"uint"⟩),
  (c!"uint8", ⟨c!"integer", c!"uint8"⟩),
  (c!"uint16", ⟨c!"integer", c!"uint16"⟩),
  (c!"uint32", ⟨c!"integer", c!"uint32"⟩),
  (c!"uint64", ⟨c!"integer", c!"uint64"⟩),
  (c!"float32", ⟨c!"number", c!"float32"⟩),
  (c!"float64", ⟨c!"number", c!"float64"⟩),
  (c!"bool", ⟨c!"boolean", []⟩),
  (c!"byte", ⟨c!"string", c!"byte"⟩),
  (c!"rune", ⟨c!"string", c!"rune"⟩),
  (c!"struct", ⟨c!"object", []⟩),
  (c!"map", ⟨c!"object", []⟩),
  (c!"slice", ⟨c!"array", []⟩),
  (c!"any", ⟨[], []⟩),
  (c!"nil", ⟨[], []⟩),
  (c!"time.Time", ⟨c!"string", c!"date-time"⟩),
  (c!"github.com/google/uuid.UUID", ⟨c!"string", c!"uuid"⟩),
  (c!"file", ⟨c!"string", c!"binary"⟩)]

/-- service.go:45-48: the two type mapping fields of the service; `full = none` is the nil map. -/
structure TypeMaps where
  custom : List (Str × TypeFormat) := []
  full : Option (List (Str × TypeFormat)) := none
  deriving Repr, DecidableEq

/-- formatTypes.go:110-126: the effect of a custom mapping option: entries written into `CustomTypeMapping`. The entries
of one `WithCustomTypeMapping` map are given in iteration order. -/
def TypeMaps.addCustom (m : TypeMaps) (entries : List (Str × TypeFormat)) : TypeMaps :=
  { m with custom := entries.foldl (fun acc e => mset acc e.1 e.2) m.custom }

/-- `maps.Copy(dst, src)`. Called at formatTypes.go:132, 133. -/
def mapsCopy {V : Type} (dst src : List (Str × V)) : List (Str × V) := src.foldl (fun acc e => mset acc e.1 e.2) dst

/-- formatTypes.go:136-138: the key a type is looked up under. -/
def typeMappingKey (key pkg : Str) : Str := if isAcceptedType key then key else pkg ++ '.' :: key

/-- formatTypes.go:129-143 `GetTypeMapping`: the merged map is built on first use and kept. -/
def TypeMaps.get (m : TypeMaps) (key pkg : Str) : TypeMaps × Option TypeFormat :=
  let full := match m.full with
    | some f => f
    | none => mapsCopy (mapsCopy [] predefinedTypeMap) m.custom
  ({ m with full := some full }, mget full (typeMappingKey key pkg))

end Astra
