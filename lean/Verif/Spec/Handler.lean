/-
Vocabulary for the analysis of handlers: what a context call is documented to contribute, and the calls of a handler in
source order.
-/
import Verif.Model.Handler
import Verif.Spec.Types

namespace Astra.Spec

/-- The value a step of a context function chain finds in the argument it reads. `none` as argument means that the call
has no such argument. -/
inductive StepValue (Γ : TypeEnv) (pkg : Str) : Op → Option ArgView → ParamVal → Prop
  | ignored (a) : StepValue Γ pkg .ignored a .nil
  | statusCode {a s n} : a.value = .ok s → atoi s = some n → StepValue Γ pkg .statusCode (some a) (.int n)
  | value {a s} : a.value = .ok s → StepValue Γ pkg .value (some a) (.str s)
  | expressionResult {a t c c' r} : a.type = .ok t → Translates Γ c (some pkg) t (c', .ok r) →
      StepValue Γ pkg .expressionResult (some a) (.result r)

/-- What one context call adds to a route. -/
structure Entry where
  responses : List ReturnType := []
  pathParams : List Param := []
  queryParams : List Param := []
  requestHeaders : List Param := []
  body : List BodyParam := []
  responseHeaders : List Param := []

/-- Two responses that are told apart neither by type nor by status nor by content type. -/
def SameResponse (a b : ReturnType) : Prop :=
  a.field.type = b.field.type ∧ a.field.package = b.field.package ∧ a.statusCode = b.statusCode ∧ a.contentType = b.contentType

instance (a b : ReturnType) : Decidable (SameResponse a b) := inferInstanceAs (Decidable (_ ∧ _))

/-- A response is recorded unless all that is recorded so far is the same response (C10: a repeated response is left out only then). -/
def recordResponse (old : List ReturnType) (new : ReturnType) : List ReturnType :=
  if old ≠ [] ∧ ∀ e ∈ old, SameResponse e new then old else old ++ [new]

/-- Adding an entry: responses are recorded one after the other, everything else is appended. -/
def Entry.addTo (e : Entry) (r : Route) : Route := { r with
  returnTypes := e.responses.foldl recordResponse r.returnTypes
  pathParams := r.pathParams ++ e.pathParams
  queryParams := r.queryParams ++ e.queryParams
  requestHeaders := r.requestHeaders ++ e.requestHeaders
  body := r.body ++ e.body
  responseHeaders := r.responseHeaders ++ e.responseHeaders }

/-- A status code argument. -/
def IsStatus (args : List ArgView) (i : Nat) (code : Int) : Prop := ∃ a s, args[i]? = some a ∧ a.value = .ok s ∧ atoi s = some code

/-- A name argument. -/
def IsName (args : List ArgView) (i : Nat) (name : Str) : Prop := ∃ a, args[i]? = some a ∧ a.value = .ok name

/-- An argument whose type translates to a field (the conversion of the result to a field copies its attributes, C22). -/
def IsField (Γ : TypeEnv) (pkg : Str) (args : List ArgView) (i : Nat) (f : Field) : Prop :=
  ∃ a t c c' r, args[i]? = some a ∧ a.type = .ok t ∧ Translates Γ c (some pkg) t (c', .ok r) ∧ f = parseResultToField r

/-- The content types of `Bind` and `ShouldBind`, form first, then JSON, XML and YAML. -/
def bindContentTypes : List Str :=
  [c!"application/x-www-form-urlencoded", c!"multipart/form-data", c!"application/json", c!"application/xml", c!"application/yaml"]

/-- The documented contribution of a call of a context method. -/
inductive Documented (Γ : TypeEnv) (pkg : Str) (args : List ArgView) : Str → Entry → Prop
  | json {m code f} : m ∈ [c!"JSON", c!"AbortWithStatusJSON"] → IsStatus args 0 code → IsField Γ pkg args 1 f →
      Documented Γ pkg args m { responses := [{ statusCode := code, contentType := c!"application/json", field := f }] }
  | xml {code f} : IsStatus args 0 code → IsField Γ pkg args 1 f →
      Documented Γ pkg args c!"XML" { responses := [{ statusCode := code, contentType := c!"application/xml", field := f }] }
  | yaml {code f} : IsStatus args 0 code → IsField Γ pkg args 1 f →
      Documented Γ pkg args c!"YAML" { responses := [{ statusCode := code, contentType := c!"application/yaml", field := f }] }
  | protobuf {code f} : IsStatus args 0 code → IsField Γ pkg args 1 f →
      Documented Γ pkg args c!"ProtoBuf" { responses := [{ statusCode := code, contentType := c!"application/protobuf", field := f }] }
  | string {code} : IsStatus args 0 code →
      Documented Γ pkg args c!"String" { responses := [{ statusCode := code, contentType := c!"text/plain", field := { type := c!"string" } }] }
  | status {m code} : m ∈ [c!"Status", c!"AbortWithStatus", c!"AbortWithError"] → IsStatus args 0 code →
      Documented Γ pkg args m { responses := [{ statusCode := code, field := { type := c!"nil" } }] }
  | query {m n} : m ∈ [c!"Query", c!"GetQuery"] → IsName args 0 n →
      Documented Γ pkg args m { queryParams := [{ name := n, field := { type := c!"string" } }] }
  | queryArray {m n} : m ∈ [c!"QueryArray", c!"GetQueryArray"] → IsName args 0 n →
      Documented Γ pkg args m { queryParams := [{ name := n, field := { type := c!"string" }, isArray := true }] }
  | queryMap {m n} : m ∈ [c!"QueryMap", c!"GetQueryMap"] → IsName args 0 n →
      Documented Γ pkg args m { queryParams := [{ name := n, field := { type := c!"string" }, isMap := true }] }
  | bindQuery {m f} : m ∈ [c!"BindQuery", c!"ShouldBindQuery"] → IsField Γ pkg args 0 f →
      Documented Γ pkg args m { queryParams := [{ field := f, isBound := true }] }
  | bind {m f} : m ∈ [c!"Bind", c!"ShouldBind"] → IsField Γ pkg args 0 f →
      Documented Γ pkg args m {
        pathParams := [{ field := f, isBound := true }]
        queryParams := [{ field := f, isBound := true }]
        requestHeaders := [{ field := f, isBound := true }]
        body := bindContentTypes.map (fun ct => { contentType := ct, field := f, isBound := true }) }
  | bindJSON {m f} : m ∈ [c!"BindJSON", c!"ShouldBindJSON"] → IsField Γ pkg args 0 f →
      Documented Γ pkg args m { body := [{ contentType := c!"application/json", field := f, isBound := true }] }
  | bindXML {m f} : m ∈ [c!"BindXML", c!"ShouldBindXML"] → IsField Γ pkg args 0 f →
      Documented Γ pkg args m { body := [{ contentType := c!"application/xml", field := f, isBound := true }] }
  | bindYAML {m f} : m ∈ [c!"BindYAML", c!"ShouldBindYAML"] → IsField Γ pkg args 0 f →
      Documented Γ pkg args m { body := [{ contentType := c!"application/yaml", field := f, isBound := true }] }
  | postForm {m n} : m ∈ [c!"PostForm", c!"GetPostForm"] → IsName args 0 n →
      Documented Γ pkg args m { body := [{ name := n, contentType := c!"application/x-www-form-urlencoded", field := { type := c!"string" } }] }
  | postFormArray {m n} : m ∈ [c!"PostFormArray", c!"GetPostFormArray"] → IsName args 0 n →
      Documented Γ pkg args m { body := [{ name := n, contentType := c!"application/x-www-form-urlencoded", field := { type := c!"string" }, isArray := true }] }
  | postFormMap {m n} : m ∈ [c!"PostFormMap", c!"GetPostFormMap"] → IsName args 0 n →
      Documented Γ pkg args m { body := [{ name := n, contentType := c!"application/x-www-form-urlencoded", field := { type := c!"string" }, isMap := true }] }
  | formFile {n} : IsName args 0 n →
      Documented Γ pkg args c!"FormFile" { body := [{ name := n, contentType := c!"multipart/form-data", field := { type := c!"file" } }] }
  | getHeader {n} : IsName args 0 n →
      Documented Γ pkg args c!"GetHeader" { requestHeaders := [{ name := n, field := { type := c!"string" } }] }
  | bindHeader {m f} : m ∈ [c!"BindHeader", c!"ShouldBindHeader"] → IsField Γ pkg args 0 f →
      Documented Γ pkg args m { requestHeaders := [{ field := f, isBound := true }] }
  | header {n} : IsName args 0 n →
      Documented Γ pkg args c!"Header" { responseHeaders := [{ name := n, field := { type := c!"string" } }] }

/-- The supported methods. -/
def supportedMethods : List Str :=
  [c!"JSON", c!"AbortWithStatusJSON", c!"XML", c!"YAML", c!"ProtoBuf", c!"Data", c!"String", c!"Status", c!"AbortWithStatus",
   c!"AbortWithError", c!"Query", c!"GetQuery", c!"QueryArray", c!"GetQueryArray", c!"QueryMap", c!"GetQueryMap", c!"BindQuery",
   c!"ShouldBindQuery", c!"Bind", c!"ShouldBind", c!"BindJSON", c!"ShouldBindJSON", c!"BindXML", c!"ShouldBindXML", c!"BindYAML",
   c!"ShouldBindYAML", c!"PostForm", c!"GetPostForm", c!"PostFormArray", c!"GetPostFormArray", c!"PostFormMap", c!"GetPostFormMap",
   c!"FormFile", c!"GetHeader", c!"BindHeader", c!"ShouldBindHeader", c!"Header"]

/-- The call passes the context variable on. -/
def PassesContext (view : CallView) (ctx : Str) : Prop := ∃ a ∈ view.args, a.ident = some ctx

/-- The type `*gin.Context`. (The second case is there because the code compares the name of basic types too; no basic type
of Go has this name.) -/
def IsGinContext (t : ParamTy) : Prop := t = .named (some c!"github.com/gin-gonic/gin") c!"Context" ∨ t = .basic c!"Context"

/-- `ctx` is the name of the context parameter of the function, as seen in the file: the first name of the first parameter of
type `*gin.Context`. No parameter before it is a pointer to a predeclared named type such as `*error`. -/
def ContextParam (P : Prog) (f : FuncId) (file : FileId) (ctx : Str) : Prop :=
  ctx ≠ [] ∧ ∃ pre t names post, (P.funcs f).params file = pre ++ (t, ctx :: names) :: post ∧ IsGinContext t ∧
    ∀ p ∈ pre, ¬ IsGinContext p.1 ∧ ∀ n, p.1 ≠ .named none n

/-- The custom function does not recognise the call: it returns nil and changes nothing. -/
def Leaves (f : CustomFunc) (ctx : Str) (call : CallView) : Prop :=
  ∀ r comps, f ctx call (some r) [] comps = ⟨r, [], comps, .ok .nil⟩

/-- The custom function recognises the call: it changes the given route by `e`, whatever it is, and returns it. Components may be added
while it translates types. -/
def Takes (f : CustomFunc) (ctx : Str) (call : CallView) (e : Route → Route) : Prop :=
  ∀ r comps, ∃ ops comps', comps <+: comps' ∧ f ctx call (some r) [] comps = ⟨e r, ops, comps', .ok .given⟩

/-- No registered custom function recognises the call. -/
def AllLeave (P : Prog) (ctx : Str) (call : CallView) : Prop := ∀ f ∈ P.customs, Leaves f ctx call

/-- The first registered custom function that recognises the call changes the route by `e`. -/
def FirstTakes (P : Prog) (ctx : Str) (call : CallView) (e : Route → Route) : Prop :=
  ∃ before f after, P.customs = before ++ f :: after ∧ (∀ g ∈ before, Leaves g ctx call) ∧ Takes f ctx call e

/-- No parameter of the function, as seen in the file, has the type of the context. None is a pointer to a predeclared named type such as
`*error`, either. -/
def NoContextParam (P : Prog) (f : FuncId) (file : FileId) : Prop :=
  ∀ p ∈ (P.funcs f).params file, ¬ IsGinContext p.1 ∧ ∀ n, p.1 ≠ .named none n

/-- `ChangesTo P file ctx b nodes es b'`: `es` are the changes to the route in the nodes of a function of `file` whose context variable is
`ctx`, in source order: at each call those of the first custom function that recognises it, or else the documented contribution of the context
method, or else what the helper that gets the context does. A call that a custom function recognises need not be resolvable and is not
followed as a helper.

The analysis goes no further into a call whose function is not known, so what is in its arguments is not among the changes: a call of a
builtin function, of a function value or a conversion (`unresolved`); a call that passes the context on to a function that is not found, such as
a method (`lost`), to one without a parameter of its type (`noContext`), or to a helper that itself ends with such a call (`brokenHelper`).
`b'` says whether the last node is something else than such a call, and `b` whether the node before these nodes is. A call of the last three
kinds makes the analysis go on in the file that it last looked at; here that is the same file. -/
inductive ChangesTo (P : Prog) : FileId → Str → Bool → List Node → List (Route → Route) → Bool → Prop
  | nil {file ctx b} : ChangesTo P file ctx b [] [] b
  | other {file ctx b b1 b2 children rest es es'} : ChangesTo P file ctx true children es b1 → ChangesTo P file ctx b1 rest es' b2 →
      ChangesTo P file ctx b (.other children :: rest) (es ++ es') b2
  | custom {file ctx b b1 b2 id children rest e es es'} : FirstTakes P ctx (P.view file id) e → 
      ChangesTo P file ctx true children es b1 → ChangesTo P file ctx b1 rest es' b2 → ChangesTo P file ctx b (.call id children :: rest) (e :: (es ++ es')) b2
  | helper {file ctx b b1 b2 id children rest f ctx' es0 es es'} : AllLeave P ctx (P.view file id) →
      PassesContext (P.view file id) ctx → (P.view file id).target = .ok f →
      ContextParam P f (P.view file id).targetFile ctx' → ChangesTo P (P.view file id).targetFile ctx' true (P.funcs f).body es0 true →
      ChangesTo P file ctx true children es b1 → ChangesTo P file ctx b1 rest es' b2 →
      ChangesTo P file ctx b (.call id children :: rest) (es0 ++ (es ++ es')) b2
  | plain {file ctx b b1 b2 id children rest n es es'} : AllLeave P ctx (P.view file id) →
      ¬ PassesContext (P.view file id) ctx → (P.view file id).func = .ok (false, n) →
      ChangesTo P file ctx true children es b1 → ChangesTo P file ctx b1 rest es' b2 → ChangesTo P file ctx b (.call id children :: rest) (es ++ es') b2
  | unsupported {file ctx b b1 b2 id children rest m es es'} : AllLeave P ctx (P.view file id) →
      ¬ PassesContext (P.view file id) ctx → (P.view file id).func = .ok (true, m) → m ∉ supportedMethods →
      ChangesTo P file ctx true children es b1 → ChangesTo P file ctx b1 rest es' b2 → ChangesTo P file ctx b (.call id children :: rest) (es ++ es') b2
  | context {file ctx b b1 b2 id children rest m e es es'} : AllLeave P ctx (P.view file id) →
      ¬ PassesContext (P.view file id) ctx → (P.view file id).func = .ok (true, m) →
      Documented P.types (P.filePkg file) (P.view file id).args m e →
      ChangesTo P file ctx true children es b1 → ChangesTo P file ctx b1 rest es' b2 →
      ChangesTo P file ctx b (.call id children :: rest) (e.addTo :: (es ++ es')) b2
  | unresolved {file ctx b b2 id children rest m es'} : AllLeave P ctx (P.view file id) →
      ¬ PassesContext (P.view file id) ctx → (P.view file id).func = .err m →
      ChangesTo P file ctx false rest es' b2 → ChangesTo P file ctx b (.call id children :: rest) es' b2
  | lost {file ctx b b2 id children rest m es'} : AllLeave P ctx (P.view file id) →
      PassesContext (P.view file id) ctx → (P.view file id).target = .err m → (P.view file id).targetFile = file →
      ChangesTo P file ctx false rest es' b2 → ChangesTo P file ctx b (.call id children :: rest) es' b2
  | noContext {file ctx b b2 id children rest f es'} : AllLeave P ctx (P.view file id) →
      PassesContext (P.view file id) ctx → (P.view file id).target = .ok f → (P.view file id).targetFile = file →
      NoContextParam P f file → ChangesTo P file ctx false rest es' b2 → ChangesTo P file ctx b (.call id children :: rest) es' b2
  | brokenHelper {file ctx b b2 id children rest f ctx' es0 es'} : AllLeave P ctx (P.view file id) →
      PassesContext (P.view file id) ctx → (P.view file id).target = .ok f → (P.view file id).targetFile = file →
      ContextParam P f file ctx' → ChangesTo P file ctx' true (P.funcs f).body es0 false →
      ChangesTo P file ctx false rest es' b2 → ChangesTo P file ctx b (.call id children :: rest) (es0 ++ es') b2

/-- The changes to the route in the nodes of a function. -/
def Changes (P : Prog) (file : FileId) (ctx : Str) (nodes : List Node) (es : List (Route → Route)) : Prop := ∃ b, ChangesTo P file ctx true nodes es b

/-- What a call of a custom function reads by name is a string (or, in a body, a file), as for the methods of the context. -/
structure ReadsStrings (e : Entry) : Prop where
  query : ∀ p ∈ e.queryParams, p.isBound = false → p.field = { type := c!"string" }
  header : ∀ p ∈ e.requestHeaders, p.isBound = false → p.field = { type := c!"string" }
  responseHeader : ∀ p ∈ e.responseHeaders, p.isBound = false → p.field = { type := c!"string" }
  body : ∀ p ∈ e.body, p.isBound = false → p.field = { type := c!"string" } ∨ p.field = { type := c!"file" }

/-- `AnalysedTo P file ctx b nodes es b'`: as `ChangesTo`, with the contributions of the calls instead of the changes: that of the first custom
function that recognises the call, or else the documented one of the context method, or else those of the helper that gets the context. -/
inductive AnalysedTo (P : Prog) : FileId → Str → Bool → List Node → List Entry → Bool → Prop
  | nil {file ctx b} : AnalysedTo P file ctx b [] [] b
  | other {file ctx b b1 b2 children rest es es'} : AnalysedTo P file ctx true children es b1 → AnalysedTo P file ctx b1 rest es' b2 →
      AnalysedTo P file ctx b (.other children :: rest) (es ++ es') b2
  | custom {file ctx b b1 b2 id children rest e es es'} : FirstTakes P ctx (P.view file id) (Entry.addTo e) → ReadsStrings e →
      AnalysedTo P file ctx true children es b1 → AnalysedTo P file ctx b1 rest es' b2 → AnalysedTo P file ctx b (.call id children :: rest) (e :: (es ++ es')) b2
  | helper {file ctx b b1 b2 id children rest f ctx' es0 es es'} : AllLeave P ctx (P.view file id) →
      PassesContext (P.view file id) ctx → (P.view file id).target = .ok f →
      ContextParam P f (P.view file id).targetFile ctx' → AnalysedTo P (P.view file id).targetFile ctx' true (P.funcs f).body es0 true →
      AnalysedTo P file ctx true children es b1 → AnalysedTo P file ctx b1 rest es' b2 →
      AnalysedTo P file ctx b (.call id children :: rest) (es0 ++ (es ++ es')) b2
  | plain {file ctx b b1 b2 id children rest n es es'} : AllLeave P ctx (P.view file id) →
      ¬ PassesContext (P.view file id) ctx → (P.view file id).func = .ok (false, n) →
      AnalysedTo P file ctx true children es b1 → AnalysedTo P file ctx b1 rest es' b2 → AnalysedTo P file ctx b (.call id children :: rest) (es ++ es') b2
  | unsupported {file ctx b b1 b2 id children rest m es es'} : AllLeave P ctx (P.view file id) →
      ¬ PassesContext (P.view file id) ctx → (P.view file id).func = .ok (true, m) → m ∉ supportedMethods →
      AnalysedTo P file ctx true children es b1 → AnalysedTo P file ctx b1 rest es' b2 → AnalysedTo P file ctx b (.call id children :: rest) (es ++ es') b2
  | context {file ctx b b1 b2 id children rest m e es es'} : AllLeave P ctx (P.view file id) →
      ¬ PassesContext (P.view file id) ctx → (P.view file id).func = .ok (true, m) →
      Documented P.types (P.filePkg file) (P.view file id).args m e →
      AnalysedTo P file ctx true children es b1 → AnalysedTo P file ctx b1 rest es' b2 →
      AnalysedTo P file ctx b (.call id children :: rest) (e :: (es ++ es')) b2
  | unresolved {file ctx b b2 id children rest m es'} : AllLeave P ctx (P.view file id) →
      ¬ PassesContext (P.view file id) ctx → (P.view file id).func = .err m →
      AnalysedTo P file ctx false rest es' b2 → AnalysedTo P file ctx b (.call id children :: rest) es' b2
  | lost {file ctx b b2 id children rest m es'} : AllLeave P ctx (P.view file id) →
      PassesContext (P.view file id) ctx → (P.view file id).target = .err m → (P.view file id).targetFile = file →
      AnalysedTo P file ctx false rest es' b2 → AnalysedTo P file ctx b (.call id children :: rest) es' b2
  | noContext {file ctx b b2 id children rest f es'} : AllLeave P ctx (P.view file id) →
      PassesContext (P.view file id) ctx → (P.view file id).target = .ok f → (P.view file id).targetFile = file →
      NoContextParam P f file → AnalysedTo P file ctx false rest es' b2 → AnalysedTo P file ctx b (.call id children :: rest) es' b2
  | brokenHelper {file ctx b b2 id children rest f ctx' es0 es'} : AllLeave P ctx (P.view file id) →
      PassesContext (P.view file id) ctx → (P.view file id).target = .ok f → (P.view file id).targetFile = file →
      ContextParam P f file ctx' → AnalysedTo P file ctx' true (P.funcs f).body es0 false →
      AnalysedTo P file ctx false rest es' b2 → AnalysedTo P file ctx b (.call id children :: rest) (es0 ++ es') b2

/-- `es` are the contributions of the nodes of a function. -/
def Analysed (P : Prog) (file : FileId) (ctx : Str) (nodes : List Node) (es : List Entry) : Prop := ∃ b, AnalysedTo P file ctx true nodes es b

/-- The arguments of a call are looked at: a custom function recognises the call, or the function is known, and if it gets the context, it is a
helper with a parameter for it whose analysis comes to its end. -/
def Followed (P : Prog) (file : FileId) (ctx : Str) (id : Nat) : Prop :=
  (∃ e, FirstTakes P ctx (P.view file id) e) ∨ (¬ PassesContext (P.view file id) ctx ∧ ∃ x, (P.view file id).func = .ok x) ∨
  (PassesContext (P.view file id) ctx ∧ ∃ f ctx' es, (P.view file id).target = .ok f ∧ ContextParam P f (P.view file id).targetFile ctx' ∧
    AnalysedTo P (P.view file id).targetFile ctx' true (P.funcs f).body es true)

/-- `Calls P file ctx nodes pkg m args`: in the nodes of a function of `file` whose context variable is `ctx`, or in a function that gets
the context from there, the context method `m` is called with these arguments, in a file of package `pkg`. Calls in the arguments of a call are
meant only if that call is followed. -/
inductive Calls (P : Prog) : FileId → Str → List Node → Str → Str → List ArgView → Prop
  | here {file ctx id children rest m} : ¬ PassesContext (P.view file id) ctx → (P.view file id).func = .ok (true, m) →
      Calls P file ctx (.call id children :: rest) (P.filePkg file) m (P.view file id).args
  | helper {file ctx id children rest f ctx' pkg m args} : PassesContext (P.view file id) ctx → (P.view file id).target = .ok f →
      ContextParam P f (P.view file id).targetFile ctx' → Calls P (P.view file id).targetFile ctx' (P.funcs f).body pkg m args →
      Calls P file ctx (.call id children :: rest) pkg m args
  | inside {file ctx id children rest pkg m args} : Followed P file ctx id → Calls P file ctx children pkg m args →
      Calls P file ctx (.call id children :: rest) pkg m args
  | under {file ctx children rest pkg m args} : Calls P file ctx children pkg m args → Calls P file ctx (.other children :: rest) pkg m args
  | later {file ctx n rest pkg m args} : Calls P file ctx rest pkg m args → Calls P file ctx (n :: rest) pkg m args

/-- A custom function that does not recognise any call: it returns nil and touches nothing. -/
def Inert (f : CustomFunc) : Prop := ∀ ctx view r ops comps, f ctx view (some r) ops comps = ⟨r, ops, comps, .ok .nil⟩

/-- Two routes that are for the same entry of the router. -/
def SameIdentity (a b : Route) : Prop := a.handler = b.handler ∧ a.file = b.file ∧ a.lineNo = b.lineNo ∧ a.path = b.path ∧ a.method = b.method

/-- A custom function whose outcome does not depend on the components collected so far. -/
def IgnoresComponents (f : CustomFunc) : Prop := ∀ ctx view r ops c1 c2,
  (f ctx view r ops c1).route = (f ctx view r ops c2).route ∧ (f ctx view r ops c1).ops = (f ctx view r ops c2).ops ∧
  (f ctx view r ops c1).res = (f ctx view r ops c2).res

/-- A custom function that is a function of the call and the route, and does not move the route to another handler or path. -/
structure StaysOnRoute (f : CustomFunc) : Prop where
  ignores : IgnoresComponents f
  keeps : ∀ ctx view r ops comps, SameIdentity (f ctx view (some r) ops comps).route r

/-- The analysis of a function ends with this outcome. -/
def Ends (P : Prog) (components : List Field) (route : Route) (f : FuncId) (file : FileId) (o : HState × Res Unit) : Prop :=
  ∃ fuel, parseFunction P fuel components route f file = some o

mutual
/-- The call expression is among the nodes below this one. -/
def Node.hasCall (id : Nat) : Node → Prop
  | .call i children => i = id ∨ Node.hasCallIn id children
  | .other children => Node.hasCallIn id children
def Node.hasCallIn (id : Nat) : List Node → Prop
  | [] => False
  | n :: ns => Node.hasCall id n ∨ Node.hasCallIn id ns
end

mutual
/-- The call expression is among the nodes below this one, and not inside another call. -/
def Node.outerCall (id : Nat) : Node → Prop
  | .call i _ => i = id
  | .other children => Node.outerCallIn id children
def Node.outerCallIn (id : Nat) : List Node → Prop
  | [] => False
  | n :: ns => Node.outerCall id n ∨ Node.outerCallIn id ns
end

/-- A group of functions of which each one passes the context on to another one of the group (or to itself), in a call that is not inside another call
and whose target is found. -/
def CallEachOther (P : Prog) (C : FuncId → Prop) : Prop :=
  ∀ f, C f → ∀ file, ∃ ctx id, ContextParam P f file ctx ∧ Node.outerCallIn id (P.funcs f).body ∧
    ∀ file', PassesContext (P.view file' id) ctx ∧ ∃ g, C g ∧ (P.view file' id).target = .ok g

/-- `g` is a helper of `f`: seen from some file, a call in the body of `f` passes on the context to `g`. -/
def HelperOf (P : Prog) (g f : FuncId) : Prop :=
  ∃ file file' id ctx, ContextParam P f file ctx ∧ Node.hasCallIn id (P.funcs f).body ∧ PassesContext (P.view file' id) ctx ∧
    (P.view file' id).target = .ok g

/-- The text of a comment: without a leading `//` and without the space around it. -/
def commentText (d : Str) : Str := trimSpace (trimPrefix d c!"//")

/-- The documentation of a route after its handler was found: the comment of the handler, if it has one that says something. -/
def docOf (P : Prog) (f : FuncId) (before : Str) : Str :=
  match (P.funcs f).doc with
  | none => before
  | some d => if commentText d = [] then before else commentText d

end Astra.Spec
