/-
Vocabulary for C101: handlers as they are written. What is called and with which arguments is read off the syntax, by the rules of Go.
-/
import Verif.Spec.Expr
import Verif.Spec.HandlerDoc

namespace Astra.Spec

/-- The call expressions of a program as they are written: the function and the arguments. -/
abbrev CallTexts := Nat → GoExpr × List GoExpr

/-- The analysis knows the calls of the program from their text: what it knows of a call is what `viewOf` gives, where the depth to which
variables are looked up is no limit. There are no custom functions. -/
structure ReadFrom (P : Prog) (X : ExprEnv) (src : CallTexts) : Prop where
  calls : ∀ file id, ∃ d0, ∀ d, d0 ≤ d → P.view file id = viewOf X file d (src id).1 (src id).2
  packages : P.filePkg = X.pkgOf
  customs : P.customs = []

/-- One of the arguments is the context variable. -/
def GetsContext (ctx : Str) (args : List GoExpr) : Prop := ∃ id, .ident id ctx ∈ args

/-- The identifier that names what is called: `f` in `f(…)`, `M` in `x.M(…)`. -/
inductive CalleeName : GoExpr → NodeId → Prop
  | plain {id name} : CalleeName (.ident id name) id
  | selected {x id sel} : CalleeName (.selector x id sel) id

/-- The call is one of the method `m` of the gin context. -/
def CallsMethod (X : ExprEnv) (file : FileId) (fn : GoExpr) (m : Str) : Prop :=
  ∃ id o sig, CalleeName fn id ∧ BoundTo X file id o ∧ o.kind = .func sig ∧ sig.recv = some c!"*github.com/gin-gonic/gin.Context" ∧ o.name = m

/-- The call is one of another function or method. -/
def CallsFunction (X : ExprEnv) (file : FileId) (fn : GoExpr) : Prop :=
  ∃ id o sig, CalleeName fn id ∧ BoundTo X file id o ∧ o.kind = .func sig ∧ sig.recv ≠ some c!"*github.com/gin-gonic/gin.Context"

/-- What is called is a builtin function, a type, a variable, or something without a name such as a function literal. -/
def CallsOther (X : ExprEnv) (file : FileId) (fn : GoExpr) : Prop :=
  (∃ id o, CalleeName fn id ∧ BoundTo X file id o ∧ ∀ sig, o.kind ≠ .func sig) ∨ ∀ id, ¬ CalleeName fn id

/-- What is called is the declared function `f` of the file `file'`: of the same file (the parser knows it), of another file of the package, or
of an imported package. -/
inductive CallsDeclared (X : ExprEnv) (file : FileId) : GoExpr → FuncId → FileId → Prop
  | sameFile {id name f} : X.astObj id = some (some (.func f)) → CallsDeclared X file (.ident id name) f file
  | samePackage {id name f file'} : X.astObj id = none → DeclaresFunc X (X.pkgOf file) name f file' → CallsDeclared X file (.ident id name) f file'
  | imported {id x p id' name f file'} : X.imports file x = some p → DeclaresFunc X p name f file' →
      CallsDeclared X file (.selector (.ident id x) id' name) f file'

/-- What is called is not a declared function: a method, a function in a field, a local function value, or a function literal. -/
inductive CallsUndeclared (X : ExprEnv) (file : FileId) : GoExpr → Prop
  | member {id x id' name} : X.imports file x = none → CallsUndeclared X file (.selector (.ident id x) id' name)
  | deep {x id name} : (∀ id' n, x ≠ .ident id' n) → CallsUndeclared X file (.selector x id name)
  | localValue {id name d} : X.astObj id = some (some d) → (∀ f, d ≠ .func f) → CallsUndeclared X file (.ident id name)
  | literal {id} : CallsUndeclared X file (.other id)

/-- `WrittenTo P X src file ctx b nodes es b'`: as `AnalysedTo`, for the text of the calls: the nodes of a function of `file` with the context
variable `ctx` are, in source order,
calls of methods of the context, with arguments of the supported kinds (`context`) or not supported (`unsupported`), calls of functions that do not
get the context (`plain`) or get it (`helper`, `brokenHelper`, `noContext`, `lost`), calls of something else (`unresolved`), and other nodes. `es` are
the contributions that the methods are documented to have for the values and types that the arguments have in Go. Of `P` the functions, their
parameters and the types are used, not what it knows of calls. -/
inductive WrittenTo (P : Prog) (X : ExprEnv) (src : CallTexts) : FileId → Str → Bool → List Node → List Entry → Bool → Prop
  | nil {file ctx b} : WrittenTo P X src file ctx b [] [] b
  | other {file ctx b b1 b2 children rest es es'} : WrittenTo P X src file ctx true children es b1 → WrittenTo P X src file ctx b1 rest es' b2 →
      WrittenTo P X src file ctx b (.other children :: rest) (es ++ es') b2
  | helper {file ctx b b1 b2 id children rest f file' ctx' es0 es es'} : GetsContext ctx (src id).2 → CallsDeclared X file (src id).1 f file' →
      ContextParam P f file' ctx' → WrittenTo P X src file' ctx' true (P.funcs f).body es0 true →
      WrittenTo P X src file ctx true children es b1 → WrittenTo P X src file ctx b1 rest es' b2 →
      WrittenTo P X src file ctx b (.call id children :: rest) (es0 ++ (es ++ es')) b2
  | plain {file ctx b b1 b2 id children rest es es'} : ¬ GetsContext ctx (src id).2 → CallsFunction X file (src id).1 →
      WrittenTo P X src file ctx true children es b1 → WrittenTo P X src file ctx b1 rest es' b2 →
      WrittenTo P X src file ctx b (.call id children :: rest) (es ++ es') b2
  | unsupported {file ctx b b1 b2 id children rest m es es'} : ¬ GetsContext ctx (src id).2 → CallsMethod X file (src id).1 m →
      m ∉ supportedMethods → WrittenTo P X src file ctx true children es b1 → WrittenTo P X src file ctx b1 rest es' b2 →
      WrittenTo P X src file ctx b (.call id children :: rest) (es ++ es') b2
  | context {file ctx b b1 b2 id children rest m truths e es es'} : ¬ GetsContext ctx (src id).2 → CallsMethod X file (src id).1 m →
      AllHold X file (src id).2 truths → Documented P.types (X.pkgOf file) (truths.map Truth.view) m e →
      WrittenTo P X src file ctx true children es b1 → WrittenTo P X src file ctx b1 rest es' b2 →
      WrittenTo P X src file ctx b (.call id children :: rest) (e :: (es ++ es')) b2
  | unresolved {file ctx b b2 id children rest es'} : ¬ GetsContext ctx (src id).2 → CallsOther X file (src id).1 →
      WrittenTo P X src file ctx false rest es' b2 → WrittenTo P X src file ctx b (.call id children :: rest) es' b2
  | lost {file ctx b b2 id children rest es'} : GetsContext ctx (src id).2 → CallsUndeclared X file (src id).1 →
      WrittenTo P X src file ctx false rest es' b2 → WrittenTo P X src file ctx b (.call id children :: rest) es' b2
  | noContext {file ctx b b2 id children rest f es'} : GetsContext ctx (src id).2 → CallsDeclared X file (src id).1 f file →
      NoContextParam P f file → WrittenTo P X src file ctx false rest es' b2 → WrittenTo P X src file ctx b (.call id children :: rest) es' b2
  | brokenHelper {file ctx b b2 id children rest f ctx' es0 es'} : GetsContext ctx (src id).2 → CallsDeclared X file (src id).1 f file →
      ContextParam P f file ctx' → WrittenTo P X src file ctx' true (P.funcs f).body es0 false →
      WrittenTo P X src file ctx false rest es' b2 → WrittenTo P X src file ctx b (.call id children :: rest) (es0 ++ es') b2

/-- The handler of an entry as it is written: its comment, its operation id and the contributions of its calls. -/
def WrittenHandler (E : RouteEnv) (X : ExprEnv) (src : CallTexts) (handler file : Str) (line : Int) (comment id : Str) (es : List Entry) : Prop :=
  ∃ fileId name f named ctx b, HandlerIs E handler file line fileId name f named ∧ ContextParam E.prog f fileId ctx ∧
    WrittenTo E.prog X src fileId ctx true (E.prog.funcs f).body es b ∧ comment = docOf E.prog f [] ∧ id = (if named then E.lowerCamel name else [])

end Astra.Spec
