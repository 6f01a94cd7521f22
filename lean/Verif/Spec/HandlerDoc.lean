/-
Specification vocabulary for C83: the code of a handler and the operation in the OpenAPI document.
-/
import Verif.Spec.Handler
import Verif.Spec.Paths
import Verif.Model.OpenApi

namespace Astra.Spec

mutual
/-- The function literals at a line: the outermost ones. -/
def litAt (line : Int) : Lit → List FuncId
  | .mk l f inner => if line = l then [f] else litsAt line inner
def litsAt (line : Int) : List Lit → List FuncId
  | [] => []
  | l :: ls => litAt line l ++ litsAt line ls
end

/-- The functions that stand at a line of the declarations with a given name: the declaration itself (`true`) or function
literals in it (`false`). -/
def functionsAt (name : Str) (line : Int) (ds : List FuncDecl) : List (FuncId × Bool) :=
  ds.flatMap (fun d => if d.name = name then (if line = d.line then [(d.func, true)] else (litsAt line d.lits).map (fun f => (f, false))) else [])

/-- The handler of an entry of the router is the function `f` of the file, and no other function is at its line. `named` tells whether
it is a declared function or a function literal in `name`. -/
structure HandlerIs (E : RouteEnv) (handler file : Str) (line : Int) (fileId : FileId) (name : Str) (f : FuncId) (named : Bool) : Prop where
  inFile : ∃ pkg, GoFunctionName handler pkg name ∧ E.fileOf pkg file = some fileId
  only : functionsAt name line (E.decls fileId) = [(f, named)]

/-- What the analysis sees of the handler of an entry: its comment, its operation id and what its context calls do. A function literal has
no name, so no operation id. -/
def HandlerView (E : RouteEnv) (handler file : Str) (line : Int) (comment id : Str) (es : List Entry) : Prop :=
  ∃ fileId name f named ctx, HandlerIs E handler file line fileId name f named ∧ ContextParam E.prog f fileId ctx ∧
    Analysed E.prog fileId ctx (E.prog.funcs f).body es ∧ comment = docOf E.prog f [] ∧ id = (if named then E.lowerCamel name else [])

/-- The schema of a parameter that is read by name: one string, a list of strings or a map of strings. -/
def stringSchema (p : Param) : Schema :=
  if p.isArray then { type := c!"array", items := some { type := c!"string" } }
  else if p.isMap then { type := c!"object", additionalProperties := some { type := c!"string" } }
  else { type := c!"string" }

/-- The operation shows what a context call does: the status codes it sends; the query parameters and request headers it reads by name,
with their schemas; the content types of the body it reads by name; the response headers it sets, in every response. -/
structure Shows (op : Operation) (e : Entry) : Prop where
  responses : ∀ rt ∈ e.responses, itoa rt.statusCode ∈ mkeys op.responses
  query : ∀ p ∈ e.queryParams, p.isBound = false →
    ∃ o ∈ op.parameters, o.name = p.name ∧ o.loc = c!"query" ∧ o.schema = stringSchema p
  header : ∀ p ∈ e.requestHeaders, p.isBound = false →
    ∃ o ∈ op.parameters, o.name = p.name ∧ o.loc = c!"header" ∧ o.schema = stringSchema p
  body : ∀ bp ∈ e.body, bp.isBound = false → ∃ content, op.requestBody = some content ∧ bp.contentType ∈ mkeys content
  responseHeader : ∀ p ∈ e.responseHeaders, p.isBound = false → ∀ code resp, mget op.responses code = some resp → p.name ∈ mkeys resp.headers

/-- The operation shows nothing else than the parameters of the path and what these context calls do. A struct that is bound to the
query or the path can give parameters of any name. -/
structure ShowsOnly (op : Operation) (path : Str) (es : List Entry) : Prop where
  responses : ∀ code ∈ mkeys op.responses, ∃ e ∈ es, ∃ rt ∈ e.responses, itoa rt.statusCode = code
  header : ∀ o ∈ op.parameters, o.loc = c!"header" → ∃ e ∈ es, ∃ p ∈ e.requestHeaders, p.name = o.name
  pathParam : ∀ o ∈ op.parameters, o.loc = c!"path" → (∃ w ∈ wildcards path, w.2 = o.name) ∨ ∃ e ∈ es, ∃ p ∈ e.pathParams, p.name = o.name
  query : ∀ o ∈ op.parameters, o.loc = c!"query" → ∃ e ∈ es, ∃ p ∈ e.queryParams, p.isBound = true ∨ p.name = o.name
  location : ∀ o ∈ op.parameters, o.loc ∈ [c!"path", c!"header", c!"query"]
  body : ∀ content, op.requestBody = some content → ∀ ct ∈ mkeys content, ∃ e ∈ es, ∃ bp ∈ e.body, bp.contentType = ct
  responseHeader : ∀ code resp, mget op.responses code = some resp → ∀ n ∈ mkeys resp.headers, ∃ e ∈ es, ∃ p ∈ e.responseHeaders, p.name = n

end Astra.Spec
