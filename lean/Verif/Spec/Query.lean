/-
Specification vocabulary for C100: how the OpenAPI standard writes the value of a query parameter into a query, and how gin reads it from there.
A query is the list of its pairs, in order, percent-encoding undone.
-/
import Verif.Spec.OpenApiFile
import Verif.Spec.HandlerDoc
import Verif.Spec.JsonDoc

namespace Astra.Spec

/-- What a client wants to say with a query parameter: a text, a list of texts, or a table from names to texts. -/
inductive QueryValue
  | one (v : Str)
  | many (vs : List Str)
  | table (kvs : List (Str × Str))
deriving DecidableEq

/-- The value as JSON, for the schema. -/
def QueryValue.json : QueryValue → Json
  | .one v => .str v
  | .many vs => .arr (vs.map .str)
  | .table kvs => .obj (kvs.map (fun e => (e.1, .str e.2)))

/-! ### The standard (OpenAPI 3, Parameter Object) -/

/-- The style of a parameter object in the query; the default is `form`. -/
def styleOf (j : Json) : Str :=
  match keyOf j c!"style" with
  | some (.str s) => s
  | _ => c!"form"

/-- Whether a parameter object is exploded; the default is true for the style `form` and false for the others. -/
def explodeOf (j : Json) : Bool :=
  match keyOf j c!"explode" with
  | some (.bool b) => b
  | _ => styleOf j = c!"form"

/-- Texts with commas between them. -/
def commaJoined : List Str → Str
  | [] => []
  | [v] => v
  | v :: vs => v ++ ',' :: commaJoined vs

/-- The key `name[k]`. -/
def inBrackets (name k : Str) : Str := name ++ '[' :: k ++ [']']

/-- The pairs that the standard prescribes for a value of the parameter with this name. `none`: the standard does not say. -/
def written (style : Str) (explode : Bool) (name : Str) : QueryValue → Option (List (Str × Str))
  | .one v => if style = c!"form" then some [(name, v)] else none
  | .many vs =>
    if style = c!"form" then some (if explode then vs.map (fun v => (name, v)) else [(name, commaJoined vs)]) else none
  | .table kvs =>
    if style = c!"form" then some (if explode then kvs else [(name, commaJoined (kvs.flatMap (fun e => [e.1, e.2])))])
    else if style = c!"deepObject" ∧ explode = true then some (kvs.map (fun e => (inBrackets name e.1, e.2)))
    else none

/-- The pairs that a client writes who has the parameter object `j`. -/
def writtenBy (j : Json) (v : QueryValue) : Option (List (Str × Str)) :=
  match keyOf j c!"name" with
  | some (.str name) => written (styleOf j) (explodeOf j) name v
  | _ => none

/-! ### gin (v1.10.0, context.go: Query, QueryArray, QueryMap and get) -/

/-- All values of a key. -/
def valuesOf (query : List (Str × Str)) (key : Str) : List Str := (query.filter (fun e => e.1 = key)).map (·.2)

/-- The first `[` of the key comes after `name`, which is not empty; `k` is what stands between it and the next `]`, and is not empty. -/
def EntryKey (name k key : Str) : Prop :=
  name ≠ [] ∧ '[' ∉ name ∧ k ≠ [] ∧ ']' ∉ k ∧ inBrackets name k <+: key

/-- What gin reads. `Query` gives the first value, or the empty text; `QueryArray` all values; `QueryMap` a map that has an entry for `k` if there is
a key for it, with the first value of one such key. -/
def Reads (query : List (Str × Str)) (name : Str) : QueryValue → Prop
  | .one v => (valuesOf query name).head?.getD [] = v
  | .many vs => valuesOf query name = vs
  | .table kvs => (kvs.map (·.1)).Nodup ∧
      (∀ k, k ∈ kvs.map (·.1) ↔ ∃ e ∈ query, EntryKey name k e.1) ∧
      ∀ e ∈ kvs, ∃ key, EntryKey name e.1 key ∧ (valuesOf query key).head? = some e.2

/-- Values of the same kind. -/
def SameKind : QueryValue → QueryValue → Prop
  | .one _, .one _ => True
  | .many _, .many _ => True
  | .table _, .table _ => True
  | _, _ => False

/-- Two tables with the same entries, or two equal values. -/
def SameValue : QueryValue → QueryValue → Prop
  | .table a, .table b => ∀ e, e ∈ a ↔ e ∈ b
  | a, b => a = b

/-! ### The calls -/

/-- The kind of value that a query parameter of an entry is read as. -/
def ReadAs (p : Param) : QueryValue → Prop
  | .one _ => p.isArray = false ∧ p.isMap = false
  | .many _ => p.isArray = true
  | .table _ => p.isArray = false ∧ p.isMap = true

/-- The kind of value that a context method reads from the query. -/
def MethodKind (m : Str) : QueryValue → Prop
  | .one _ => m ∈ [c!"Query", c!"GetQuery"]
  | .many _ => m ∈ [c!"QueryArray", c!"GetQueryArray"]
  | .table _ => m ∈ [c!"QueryMap", c!"GetQueryMap"]

/-- The value can be written: a table has distinct keys, which are not empty and have no `]`. -/
def Writable : QueryValue → Prop
  | .table kvs => (kvs.map (·.1)).Nodup ∧ ∀ e ∈ kvs, e.1 ≠ [] ∧ ']' ∉ e.1
  | _ => True

/-- Pairs of other parameters. -/
def OtherPairs (name : Str) (query : List (Str × Str)) : Prop := ∀ e ∈ query, e.1 ≠ name ∧ ¬ name ++ ['['] <+: e.1

/-- A name of a parameter. -/
def ParameterName (name : Str) : Prop := name ≠ [] ∧ '[' ∉ name

/-- A client who has the parameter object `j` can write each value of the kind into a query, the schema of the object admits it, and whatever
else is in the query, gin reads this value from it and no other. -/
def Understood (schemas : List (Str × Schema)) (o : OParam) (j : Json) (v : QueryValue) : Prop :=
  Admits schemas o.schema v.json ∧
  ∃ pairs, writtenBy j v = some pairs ∧ ∀ before after, OtherPairs o.name before → OtherPairs o.name after →
    Reads (before ++ pairs ++ after) o.name v ∧
    ∀ v', Reads (before ++ pairs ++ after) o.name v' → SameKind v v' → SameValue v v'

end Astra.Spec
