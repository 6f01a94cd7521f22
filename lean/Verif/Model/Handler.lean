/-
Model of inputs/gin/parseFunction.go and inputs/gin/parseRoute.go.
-/
import Verif.Model.ContextFunc
import Verif.Model.Paths
import Verif.Model.Routes

namespace Astra

/-- An AST as `ast.Inspect` walks it: call expressions are numbered, all other nodes are the same to parseFunction.
inputs/gin/parseFunction.go:51-697. -/
inductive Node where
  | call (id : Nat) (children : List Node)
  | other (children : List Node)

/-- A file of the analysed program (`*FileNode`), by number. inputs/gin/parseFunction.go:28. -/
abbrev FileId := Nat
/-- A function declaration or literal of the analysed program, by number. inputs/gin/parseFunction.go:28. -/
abbrev FuncId := Nat

/-- What the traversal finds for a call expression with a given active file: the arguments; `func`:
`callExpr.Type()` (callExpression.go:60-87), whether the function is a method of `*gin.Context` and its name; `target`:
`callExpr.Function()` (callExpression.go:27-39), the declared function; `targetFile`: the active file after
`callExpr.Function()`, whether it succeeds or not (traverser.go:106, 126). -/
structure CallView where
  args : List ArgView := []
  func : Res (Bool × Str) := .ok (false, [])
  target : Res FuncId := .err c!"unsupported type"
  targetFile : FileId := 0

/-- function.go:53-76: what `FindArgumentNameByType` finds for a parameter type expression: unknown type or not a pointer,
a pointer to a named type (with package path, none for the predeclared ones), a pointer to a basic type, or a pointer to
something else. -/
inductive ParamTy where
  | notPointer
  | named (pkg : Option Str) (name : Str)
  | basic (name : Str)
  | other
  deriving Repr, DecidableEq

/-- A function of the analysed program: its parameters as seen with a given active file (type and names of each
`ast.Field`), its comment and the nodes of its body. Simplification: every function has a body. astTraversal/function.go:9-13,
53-84. -/
structure FuncInfo where
  params : FileId → List (ParamTy × List Str) := fun _ => []
  doc : Option Str := none
  body : List Node := []

/-- What a custom function returns: nil, the route that its builder has (contextFuncBuilder.go:5-9), or another route, such as a copy.
Simplification: another route is one that nothing else points to. contextFuncBuilder.go:81. -/
inductive Returned where
  | nil
  | given
  | fresh (r : Route)

/-- contextFuncBuilder.go:81 `CustomFunc`, as parseFunction.go:72-83 uses it. Input: context name, call, current route (none
if nil), steps already on the shared builder, components. Output: the given route after the call (of no interest if it was nil), the
steps on the builder, the components, and what is returned. -/
structure CustomOut where
  route : Route
  ops : Builder
  components : List Field
  res : Res Returned
/-- contextFuncBuilder.go:81. -/
abbrev CustomFunc := Str → CallView → Option Route → Builder → List Field → CustomOut

/-- The analysed program and the custom functions. inputs/gin/parseFunction.go:28-50, 72. -/
structure Prog where
  types : TypeEnv
  filePkg : FileId → Str
  funcs : FuncId → FuncInfo
  view : FileId → Nat → CallView
  customs : List CustomFunc := []

/-- The state shared by all activations of parseFunction: the current route (mutated in place), the components of the service and
the active file of the traverser. inputs/gin/parseFunction.go:28-50. -/
structure HState where
  route : Route
  components : List Field
  active : FileId

/-- The local variables of an activation: is `currRoute` nil, and `err`. The parameter `currRoute` is overwritten when a custom function
returns another route (parseFunction.go:79); then `HState.route` is that route and `saved` is the one that the caller passed, which only the
caller still has. inputs/gin/parseFunction.go:28-50. -/
structure Local where
  nilRoute : Bool := false
  err : Option Str := none
  saved : Option Route := none

/-- The route that the caller passed, if the current one is `current`. inputs/gin/parseFunction.go:28, 79. -/
def Local.given (loc : Local) (current : Route) : Route := loc.saved.getD current

/-- Outcome: `none` when the helper calls or named types nest deeper than the fuel. inputs/gin/parseFunction.go:28-50. -/
abbrev HOut (α : Type) := Option (HState × Res α)

/-- parseFunction.go:15, 17. -/
def ginPackage : Str := c!"github.com/gin-gonic/gin"
/-- inputs/gin/parseFunction.go:17. -/
def ginContextType : Str := c!"Context"

/-- function.go:53-76 `FindArgumentNameByType` with the arguments of parseFunction.go:44 (a pointer type). -/
def findContextName : List (ParamTy × List Str) → Res Str
  | [] => .ok []
  | (.notPointer, _) :: ps => findContextName ps
  | (.other, _) :: ps => findContextName ps
  | (.named none _, _) :: _ => .panic c!"nil pointer dereference"
  | (.named (some p) n, names) :: ps =>
    if p = ginPackage ∧ n = ginContextType then
      match names with
      | [] => .panic c!"index out of range"
      | x :: _ => .ok x
    else findContextName ps
  | (.basic n, names) :: ps =>
    if n = ginContextType then
      match names with
      | [] => .panic c!"index out of range"
      | x :: _ => .ok x
    else findContextName ps

/-- parseFunction.go:72-83: the loop over the custom functions. The result says which route one of them returned; `nil` if none did. A
builder without a route gives nil back. -/
def runCustoms (ctx : Str) (view : CallView) (nilRoute : Bool) : List CustomFunc → Builder → HState → HState × Builder × Res Returned
  | [], ops, st => (st, ops, .ok .nil)
  | f :: fs, ops, st =>
    match f ctx view (if nilRoute then none else some st.route) ops st.components with
    | ⟨route, ops', components, res⟩ =>
      let st' : HState := { st with route := if nilRoute then st.route else route, components := components }
      match res with
      | .err e => (st', ops', .err e)
      | .panic m => (st', ops', .panic m)
      | .ok .nil => runCustoms ctx view nilRoute fs ops' st'
      | .ok .given => if nilRoute then runCustoms ctx view nilRoute fs ops' st' else (st', ops', .ok .given)
      | .ok (.fresh r) => (st', ops', .ok (.fresh r))

/-- parseFunction.go:123-693: a call of a method of the context. The Boolean of the result says whether the children are
visited. -/
def contextCall (P : Prog) (fuel : Nat) (pkg : Str) (view : CallView) (ops : Builder) (name : Str) (st : HState) (loc : Local) :
    HOut (Local × Bool) :=
  match ctxCase name with
  | none => some (st, .ok ({ loc with err := none }, true))
  | some c =>
    match build P.types fuel pkg view.args (ops.chain c.ops) c.mapper (if loc.nilRoute then none else some st.route) st.components with
    | none => none
    | some (comps, .ok route) => some ({ st with route := route, components := comps }, .ok ({ loc with nilRoute := false, err := none }, true))
    | some (comps, .err e) => some ({ st with components := comps }, .ok ({ loc with nilRoute := true, err := some e }, !c.stops))
    | some (comps, .panic m) => some ({ st with components := comps }, .panic m)

/-- A callback for the recursive call of parseFunction: state, is the route nil, function, active file.
inputs/gin/parseFunction.go:28. -/
abbrev HRec := HState → Bool → FuncId → FileId → HOut Unit

/-- parseFunction.go:57-696: what happens at a call expression. `file` is the parameter `activeFile`. -/
def callStep (P : Prog) (fuel : Nat) (rec : HRec) (ctx : Str) (file : FileId) (id : Nat) (st : HState) (loc : Local) :
    HOut (Local × Bool) :=
  match runCustoms ctx (P.view st.active id) loc.nilRoute P.customs [] st with
  | (st', _, .err e) => some (st', .ok ({ loc with err := some e }, false))
  | (st', _, .panic m) => some (st', .panic m)
  | (st', _, .ok .given) => some (st', .ok ({ loc with nilRoute := false, err := none }, true))
  | (st', _, .ok (.fresh r)) =>
    some ({ st' with route := r }, .ok ({ nilRoute := false, err := none, saved := some (loc.given st'.route) }, true))
  | (st', ops, .ok .nil) =>
    let view := P.view st.active id
    if view.args.any (fun a => decide (a.ident = some ctx)) then
      match view.target with
      | .err e => some ({ st' with active := view.targetFile }, .ok ({ loc with err := some e }, false))
      | .panic m => some (st', .panic m)
      | .ok f =>
        match rec { st' with active := view.targetFile } loc.nilRoute f view.targetFile with
        | none => none
        | some (st'', .err e) => some (st'', .ok ({ loc with err := some e }, false))
        | some (st'', .panic m) => some (st'', .panic m)
        | some (st'', .ok ()) => some ({ st'' with active := file }, .ok ({ loc with err := none }, true))
    else
      match view.func with
      | .err e => some (st', .ok ({ loc with err := some e }, false))
      | .panic m => some (st', .panic m)
      | .ok (false, _) => some (st', .ok ({ loc with err := none }, true))
      | .ok (true, name) => contextCall P fuel (P.filePkg st.active) view ops name st' loc

mutual
/-- parseFunction.go:51-697: `ast.Inspect` with the callback, at one node. -/
def inspectNode (P : Prog) (fuel : Nat) (rec : HRec) (ctx : Str) (file : FileId) : Node → HState → Local → HOut Local
  | .other children, st, loc => inspectNodes P fuel rec ctx file children st { loc with err := none }
  | .call id children, st, loc =>
    match callStep P fuel rec ctx file id st loc with
    | none => none
    | some (st', .err e) => some (st', .err e)
    | some (st', .panic m) => some (st', .panic m)
    | some (st', .ok (loc', true)) => inspectNodes P fuel rec ctx file children st' loc'
    | some (st', .ok (loc', false)) => some (st', .ok loc')
/-- The nodes of a list, in order. inputs/gin/parseFunction.go:51-697. -/
def inspectNodes (P : Prog) (fuel : Nat) (rec : HRec) (ctx : Str) (file : FileId) : List Node → HState → Local → HOut Local
  | [], st, loc => some (st, .ok loc)
  | n :: ns, st, loc =>
    match inspectNode P fuel rec ctx file n st loc with
    | none => none
    | some (st', .err e) => some (st', .err e)
    | some (st', .panic m) => some (st', .panic m)
    | some (st', .ok loc') => inspectNodes P fuel rec ctx file ns st' loc'
end

/-- function.go:78-84 `Doc`. -/
def funcDoc (P : Prog) (f : FuncId) : Str :=
  match (P.funcs f).doc with
  | none => []
  | some d => formatDoc d

/-- parseFunction.go:28-708 `parseFunction`. `top` is `level == 0`. The route in the state that it ends with is the one that was passed. -/
def parseFunctionWith (P : Prog) (fuel : Nat) (rec : HRec) (top : Bool) (st : HState) (nilRoute : Bool) (f : FuncId) (file : FileId) :
    HOut Unit :=
  let st : HState := { st with
    active := file
    route := if top = true ∧ funcDoc P f ≠ [] then { st.route with doc := trimSpace (funcDoc P f) } else st.route }
  match findContextName ((P.funcs f).params file) with
  | .panic m => some (st, .panic m)
  | .err e => some (st, .err e)
  | .ok [] => some (st, .err c!"failed to find context variable name")
  | .ok ctx =>
    match inspectNode P fuel rec ctx file (.other (P.funcs f).body) st { nilRoute := nilRoute, err := none } with
    | none => none
    | some (st', .err e) => some (st', .err e)
    | some (st', .panic m) => some (st', .panic m)
    | some (st', .ok loc) =>
      let done : HState := { st' with route := loc.given st'.route }
      match loc.err with
      | some e => some (done, .err e)
      | none =>
        if loc.nilRoute then some (done, .panic c!"nil pointer dereference")
        else if st'.route.returnTypes = [] ∧ top = true then some (done, .err c!"return type not found")
        else some (done, .ok ())

/-- parseFunction.go:98: the recursive calls (`level > 0`) with at most `fuel` nested helper calls. -/
def parseHelper (P : Prog) : Nat → HRec
  | 0 => fun _ _ _ _ => none
  | fuel + 1 => parseFunctionWith P fuel (parseHelper P fuel) false

/-- parseFunction.go:28-708 at level 0, with at most `fuel` nested helper calls and named types. -/
def parseFunction (P : Prog) (fuel : Nat) (components : List Field) (route : Route) (f : FuncId) (file : FileId) : HOut Unit :=
  parseFunctionWith P fuel (parseHelper P fuel) true { route := route, components := components, active := file } false f file

/-- The function literals of a declaration, as `ast.Inspect` meets them (parseRoute.go:95-127). -/
inductive Lit where
  | mk (line : Int) (func : FuncId) (inner : List Lit)

/-- A function declaration of a file: name, line, number and the literals in it (parseRoute.go:79-154). -/
structure FuncDecl where
  name : Str
  line : Int
  func : FuncId
  lits : List Lit := []

/-- The parts of the environment that parseRoute uses: `loadable` is `Packages.Get` for the handler's package, `fileOf`
finds the file of the handler in it (`findFile` in Model/RelPath, C103), `decls` are the function declarations of a file in order and `lowerCamel` is
`strcase.ToLowerCamel`. inputs/gin/parseRoute.go:46-94. -/
structure RouteEnv where
  prog : Prog
  loadable : Str → Bool
  fileOf : Str → Str → Option FileId
  decls : FileId → List FuncDecl
  lowerCamel : Str → Str

/-- Outcome of the analysis of a route: components and the route or panic; errors are logged only. inputs/gin/parseRoute.go:21-161. -/
abbrev ROut := Option (List Field × Res Route)

/-- parseRoute.go:114-118, 142-146: the route is mutated in place and the error of parseFunction is dropped. -/
def analyse (E : RouteEnv) (fuel : Nat) (file : FileId) (f : FuncId) (components : List Field) (route : Route) : ROut :=
  match parseFunction E.prog fuel components route f file with
  | none => none
  | some (st, .ok ()) => some (st.components, .ok st.route)
  | some (st, .err _) => some (st.components, .ok st.route)
  | some (st, .panic m) => some (st.components, .panic m)

mutual
/-- parseRoute.go:95-127: the literals at the line of the route. -/
def analyseLit (E : RouteEnv) (fuel : Nat) (file : FileId) : Lit → List Field → Route → ROut
  | .mk line f inner, comps, route =>
    if route.lineNo = line then analyse E fuel file f comps route
    else analyseLits E fuel file inner comps route
/-- inputs/gin/parseRoute.go:95-127. -/
def analyseLits (E : RouteEnv) (fuel : Nat) (file : FileId) : List Lit → List Field → Route → ROut
  | [], comps, route => some (comps, .ok route)
  | l :: ls, comps, route =>
    match analyseLit E fuel file l comps route with
    | none => none
    | some (comps', .err e) => some (comps', .err e)
    | some (comps', .panic m) => some (comps', .panic m)
    | some (comps', .ok route') => analyseLits E fuel file ls comps' route'
end

/-- parseRoute.go:84-153: one function declaration. -/
def analyseDecl (E : RouteEnv) (fuel : Nat) (file : FileId) (funcName : Str) (d : FuncDecl) (comps : List Field) (route : Route) : ROut :=
  if d.name = funcName then
    if route.lineNo ≠ d.line then analyseLits E fuel file d.lits comps route
    else analyse E fuel file d.func comps { route with operationId := E.lowerCamel funcName }
  else some (comps, .ok route)

/-- parseRoute.go:79-154: all declarations of the file. Simplification: when the analysis of a helper fails, the code leaves the helper's file active;
the model goes on with the file of the route. That matters only if a second function literal or declaration stands at the line of the route. -/
def analyseDecls (E : RouteEnv) (fuel : Nat) (file : FileId) (funcName : Str) : List FuncDecl → List Field → Route → ROut
  | [], comps, route => some (comps, .ok route)
  | d :: ds, comps, route =>
    match analyseDecl E fuel file funcName d comps route with
    | none => none
    | some (comps', .err e) => some (comps', .err e)
    | some (comps', .panic m) => some (comps', .panic m)
    | some (comps', .ok route') => analyseDecls E fuel file funcName ds comps' route'

/-- parseRoute.go:21-161 `parseRoute`. -/
def parseRoute (E : RouteEnv) (fuel : Nat) (comps : List Field) (route : Route) : ROut :=
  let handler := splitHandlerPath route.handler
  match handler.packageName with
  | .panic m => some (comps, .panic m)
  | .err e => some (comps, .err e)
  | .ok _ =>
    if handler.handlerParts.length < 1 then some (comps, .err c!"invalid handler name for file")
    else match handler.funcName with
      | .panic m => some (comps, .panic m)
      | .err e => some (comps, .err e)
      | .ok funcName =>
        if E.loadable handler.packagePath = false then some (comps, .err c!"failed to get package")
        else match E.fileOf handler.packagePath route.file with
          | none => some (comps, .err c!"could not find file")
          | some file =>
            analyseDecls E fuel file funcName (E.decls file) comps { route with pathParams := extractParams route.path }

/-- inputs/gin/parseRoutes.go:14-25 with `parseRoute`: the loop from index `i` for `n` more iterations. The outcome: the
components and the route table, and success, the error that ended the loop or a panic. -/
def parseRoutesFrom (E : RouteEnv) (fuel : Nat) : Nat → Nat → List Field → List Route → Option ((List Field × List Route) × Res Unit)
  | 0, _, comps, routes => some ((comps, routes), .ok ())
  | n + 1, i, comps, routes =>
    match routes[i]? with
    | none => some ((comps, routes), .ok ())
    | some route =>
      match parseRoute E fuel comps route with
      | none => none
      | some (comps', .err e) => some ((comps', routes), .err e)
      | some (comps', .panic m) => some ((comps', routes), .panic m)
      | some (comps', .ok route') => parseRoutesFrom E fuel n (i + 1) comps' (replaceRoute routes route')

/-- inputs/gin/parseRoutes.go:11-30 `ParseRoutes`. -/
def parseRoutes (E : RouteEnv) (fuel : Nat) (comps : List Field) (routes : List Route) : Option ((List Field × List Route) × Res Unit) :=
  parseRoutesFrom E fuel routes.length 0 comps routes

end Astra
