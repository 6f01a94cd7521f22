/-
Specification for C98: which members of a JSON object stand for a setting. Written against the model of JSON values only.
-/
import Verif.Model.Json

namespace Astra.Spec

/-- The same letter in upper or lower case. The long s (U+017F) is taken for an s and the Kelvin sign (U+212A) for a k, as in
simple Unicode case folding. -/
def SameLetter (a b : Char) : Prop :=
  a.toUpper = b.toUpper ∨ (a ∈ ['s', 'S', Char.ofNat 0x17f] ∧ b ∈ ['s', 'S', Char.ofNat 0x17f]) ∨
    (a ∈ ['k', 'K', Char.ofNat 0x212a] ∧ b ∈ ['k', 'K', Char.ofNat 0x212a])

/-- The same key up to letter case. -/
def SameKeyUpToCase (a b : Str) : Prop := a.length = b.length ∧ ∀ (i : Nat) x y, a[i]? = some x → b[i]? = some y → SameLetter x y

/-- A setting of an object: under `key`, in whatever letter case, the last member has the value `v`. -/
def SetTo (ms : List (Str × Json)) (key : Str) (v : Json) : Prop :=
  ∃ pre k post, ms = pre ++ (k, v) :: post ∧ SameKeyUpToCase k key ∧ ∀ e ∈ post, ¬ SameKeyUpToCase e.1 key

/-- Two objects with the same settings for these keys. They may differ in other members, in the order of the members and in the
letter case of the keys. -/
def SameSettings (keys : List Str) (ms ms' : List (Str × Json)) : Prop := ∀ key ∈ keys, ∀ v, SetTo ms key v ↔ SetTo ms' key v

/-- What a cache file holds. -/
def cacheKeys : List Str := [c!"inputs", c!"outputs", c!"config", c!"routes", c!"components", c!"custom_type_mapping"]

/-- What the configuration of the service, a route and a described type hold in the file. -/
def configKeys : List Str :=
  [c!"title", c!"description", c!"version", c!"contact", c!"license", c!"secure", c!"host", c!"basePath", c!"port"]

def routeKeys : List Str := [c!"handler", c!"file", c!"lineNo", c!"method", c!"path", c!"params", c!"queryParams", c!"body",
  c!"returnTypes", c!"doc", c!"operationId", c!"requestHeaders", c!"responseHeaders"]

def fieldKeys : List Str := [c!"package", c!"type", c!"name", c!"enumValues", c!"isRequired", c!"isEmbedded", c!"sliceType", c!"arrayType",
  c!"arrayLength", c!"mapKeyPackage", c!"mapKeyType", c!"mapValueType", c!"structFields", c!"structFieldBindingTags",
  c!"structFieldValidationTags", c!"doc"]

end Astra.Spec
