/-
Specification vocabulary for C108: how the OpenAPI standard writes the value of a header parameter into a request, and how gin reads it. The header
of a request is the list of its fields as the server receives them, in order; values are texts that need no encoding and have no blanks around them.
-/
import Verif.Spec.Query

namespace Astra.Spec

/-- Two names of one header field: letter case does not count. -/
def SameHeader (a b : Str) : Prop := a.map Char.toLower = b.map Char.toLower

instance (a b : Str) : Decidable (SameHeader a b) := inferInstanceAs (Decidable (_ = _))

/-- A name of a header field (RFC 9110, token). -/
def HeaderName (n : Str) : Prop := n ≠ [] ∧ ∀ c ∈ n, c.isAlphanum ∨ c ∈ "!#$%&'*+-.^_`|~".toList

/-! ### The standard (OpenAPI 3, Parameter Object and Response Object) -/

/-- Parameters in the header with these names are ignored: the standard has other means for them. -/
def ignoredHeaders : List Str := [c!"accept", c!"content-type", c!"authorization"]

/-- The fields that a client writes who has the parameter object `j`, for a text `v`. `none`: the standard does not say, or says to ignore `j`. -/
def headerWritten (j : Json) (v : Str) : Option (List (Str × Str)) :=
  match keyOf j c!"name", keyOf j c!"in", keyOf j c!"style" with
  | some (.str name), some (.str loc), none =>
    if loc = c!"header" ∧ name.map Char.toLower ∉ ignoredHeaders then some [(name, v)] else none
  | _, _, _ => none

/-- A response object tells of a header: it has an entry for the name, which is not `Content-Type`, as the standard ignores that. -/
def TellsHeader (r : OResponse) (n : Str) (h : OHeader) : Prop := mget r.headers n = some h ∧ n.map Char.toLower ≠ c!"content-type"

/-! ### gin (v1.10.0, context.go: GetHeader) and net/http -/

/-- Fields that the server of net/http takes out of the header of a request. -/
def takenOut : List Str := [c!"host", c!"transfer-encoding", c!"trailer"]

/-- `GetHeader`: the first value of the field, or the empty text. -/
def headerRead (fields : List (Str × Str)) (name : Str) : Str :=
  if name.map Char.toLower ∈ takenOut then [] else ((fields.find? (fun e => SameHeader e.1 name)).map (·.2)).getD []

/-- A client who has the parameter object `j` can say `v`, the schema admits it, and whatever other fields the header has, gin reads this value. -/
def HeaderUnderstood (schemas : List (Str × Schema)) (o : OParam) (j : Json) (v : Str) : Prop :=
  Admits schemas o.schema (.str v) ∧
  ∃ fields, headerWritten j v = some fields ∧ ∀ before after, (∀ e ∈ before, ¬ SameHeader e.1 o.name) → (∀ e ∈ after, ¬ SameHeader e.1 o.name) →
    headerRead (before ++ fields ++ after) o.name = v

end Astra.Spec
