/-
Specification vocabulary for C99: the addresses that a document gives and those at which the service answers.
-/
import Verif.Spec.Paths
import Verif.Types

namespace Astra.Spec

/-- Reads a template: `cur` is the name being read, reversed. -/
def expandAux (v : Str → Str) : Option Str → Str → Str
  | none, [] => []
  | some cur, [] => '{' :: cur.reverse
  | none, c :: cs => if c = '{' then expandAux v (some []) cs else c :: expandAux v none cs
  | some cur, c :: cs => if c = '}' then v cur.reverse ++ expandAux v none cs else expandAux v (some (c :: cur)) cs

/-- A path template of OpenAPI with the value `v name` in the place of each `{name}`. -/
def expand (v : Str → Str) (template : Str) : Str := expandAux v none template

/-- The path of a request for an entry of the router, with the value `v name` in the place of each `:name` and `*name`. -/
def requestPath (v : Str → Str) (path : Str) : Str := mapPath (fun _ name => v name) path

/-- Scheme, host and port. -/
def originOf (c : Config) : Str := (if c.secure = true then c!"https" else c!"http") ++ c!"://" ++ c.host ++ c!":" ++ itoa c.port

/-- The prefix that a base path stands for: each of its parts with a slash before it, so none for `/`. -/
def basePrefix (b : Str) : Str := ((split '/' b).filter (fun s => s ≠ [])).flatMap (fun s => '/' :: s)

/-- The address at which the service answers a request with the path `request`. -/
def servedAt (c : Config) (request : Str) : Str := originOf c ++ basePrefix c.basePath ++ request

/-- The address that a document gives, by the rules of OpenAPI: the path is appended to the URL of the server. -/
def documentedAt (server path : Str) : Str := server ++ path

/-- A base path that is empty or begins with a slash, does not end in one and has no two slashes in a row. -/
def CleanBase (b : Str) : Prop := ∃ parts : List Str, (∀ s ∈ parts, s ≠ [] ∧ '/' ∉ s) ∧ b = parts.flatMap (fun s => '/' :: s)

end Astra.Spec
