/-
Model of contextFuncBuilder.go and of the method table of inputs/gin/parseFunction.go.
-/
import Verif.Model.TypeTraversal
import Verif.Model.BindingTags

namespace Astra

/-- What the traversal can find out about one call argument, with a given active file: `ident` is its name when it is an
identifier, `value` is `Expression(arg).Value()` (expression.go:48-133) and `type` is `Expression(arg).Type()`
(expression.go:135-180). The Go type checker and the constant evaluation behind them are oracles here. -/
structure ArgView where
  ident : Option Str := none
  value : Res Str := .err c!"value not retrievable"
  type : Res GoType := .err c!"unsupported expression type"

/-- contextFuncBuilder.go:24-65: the steps of a chain. -/
inductive Op where
  | ignored | statusCode | expressionResult | value
  deriving Repr, DecidableEq

/-- The dynamic values in `results []any` (contextFuncBuilder.go:68). -/
inductive ParamVal where
  | nil
  | int (i : Int)
  | str (s : Str)
  | result (r : Result)
  deriving Repr

/-- astTraversal/extractStatusCode.go:9-28 `ExtractStatusCode`. Every call argument is an `ast.Expr`. -/
def extractStatusCode (a : ArgView) : Res Int :=
  match a.value with
  | .ok s =>
    match atoi s with
    | some i => .ok i
    | none => .err c!"invalid syntax"
  | .err e => .err e
  | .panic m => .panic m

/-- contextFuncBuilder.go:24-65: running a step that reads argument `i`. State: the components.
`pkg` is the package of the call's file. `fuel` bounds the nesting of named types. -/
def runOp (Γ : TypeEnv) (fuel : Nat) (pkg : Str) (args : List ArgView) (i : Nat) (op : Op) (st : List Field) : TOut ParamVal :=
  match op with
  | .ignored => some (st, .ok .nil)
  | .statusCode =>
    match args[i]? with
    | none => some (st, .panic c!"index out of range")
    | some a =>
      match extractStatusCode a with
      | .ok n => some (st, .ok (.int n))
      | .err e => some (st, .err e)
      | .panic m => some (st, .panic m)
  | .expressionResult =>
    match args[i]? with
    | none => some (st, .panic c!"index out of range")
    | some a =>
      match a.type with
      | .err e => some (st, .err e)
      | .panic m => some (st, .panic m)
      | .ok t =>
        match typeResult Γ true fuel st (some pkg) [] t with
        | none => none
        | some (st', .ok r) => some (st', .ok (.result r))
        | some (st', .err e) => some (st', .err e)
        | some (st', .panic m) => some (st', .panic m)
  | .value =>
    match args[i]? with
    | none => some (st, .panic c!"index out of range")
    | some a =>
      match a.value with
      | .ok s => some (st, .ok (.str s))
      | .err e => some (st, .err e)
      | .panic m => some (st, .panic m)

/-- contextFuncBuilder.go:5-9: `paramOperations`. Each step is a closure over the argument index it reads. -/
abbrev Builder := List (Nat × Op)

/-- contextFuncBuilder.go:20-22, 24-65: adding a step, with `getCurrentParamIndex` as its argument index. -/
def Builder.add (b : Builder) (op : Op) : Builder := b ++ [(b.length, op)]

/-- A chain of steps, as in `funcBuilder.StatusCode().ExpressionResult()`. contextFuncBuilder.go:24-65. -/
def Builder.chain (b : Builder) (ops : List Op) : Builder := ops.foldl Builder.add b

/-- contextFuncBuilder.go:68-76: the loop of `Build`. -/
def runOps (Γ : TypeEnv) (fuel : Nat) (pkg : Str) (args : List ArgView) : Builder → List Field → TOut (List ParamVal)
  | [], st => some (st, .ok [])
  | (i, op) :: ops, st =>
    match runOp Γ fuel pkg args i op st with
    | none => none
    | some (st', .err e) => some (st', .err e)
    | some (st', .panic m) => some (st', .panic m)
    | some (st', .ok v) =>
      match runOps Γ fuel pkg args ops st' with
      | none => none
      | some (st'', .ok vs) => some (st'', .ok (v :: vs))
      | some (st'', .err e) => some (st'', .err e)
      | some (st'', .panic m) => some (st'', .panic m)

/-- A mapper of parseFunction.go: check the dynamic types of the parameters (`none`: the mapper returns an error), then
update the route. -/
abbrev Mapper := List ParamVal → Option (Route → Route)

/-- contextFuncBuilder.go:67-79 `Build`. `route` is none for a nil route pointer: the mappers check the parameters first
and then dereference the route. -/
def build (Γ : TypeEnv) (fuel : Nat) (pkg : Str) (args : List ArgView) (ops : Builder) (mapper : Mapper) (route : Option Route)
    (st : List Field) : TOut Route :=
  match runOps Γ fuel pkg args ops st with
  | none => none
  | some (st', .err e) => some (st', .err e)
  | some (st', .panic m) => some (st', .panic m)
  | some (st', .ok params) =>
    match mapper params, route with
    | none, _ => some (st', .err c!"failed to parse parameter")
    | some _, none => some (st', .panic c!"nil pointer dereference")
    | some f, some r => some (st', .ok (f r))

/-- parseFunction.go:126-146, 151-171, 176-196, 201-221, 226-245, 668-688: a return type with status code and result. -/
def returnMapper (contentType : Str) : Mapper := fun params =>
  match params with
  | .int code :: .result r :: _ => some (fun route => { route with
      returnTypes := addReturnType route.returnTypes [{ statusCode := code, contentType := contentType, field := parseResultToField r }] })
  | _ => none

/-- parseFunction.go:250-267, 272-288, 626-642, 647-663: a return type with status code and a fixed type. -/
def statusMapper (contentType type : Str) : Mapper := fun params =>
  match params with
  | .int code :: _ => some (fun route => { route with
      returnTypes := addReturnType route.returnTypes [{ statusCode := code, contentType := contentType, field := { type := type } }] })
  | _ => none

/-- parseFunction.go:291-307, 312-329, 334-351: a query parameter. -/
def queryMapper (isArray isMap : Bool) : Mapper := fun params =>
  match params with
  | .str name :: _ => some (fun route => { route with
      queryParams := route.queryParams ++ [{ field := { type := c!"string" }, name := name, isArray := isArray, isMap := isMap }] })
  | _ => none

/-- parseFunction.go:356-370: bound query parameters. -/
def bindQueryMapper : Mapper := fun params =>
  match params with
  | .result r :: _ => some (fun route => { route with
      queryParams := route.queryParams ++ [{ isBound := true, field := parseResultToField r }] })
  | _ => none

/-- parseFunction.go:400: the binding tags of the bodies added by `Bind`. -/
def bindBodyTags : List BTag := [.form, .json, .xml, .yaml]

/-- parseFunction.go:377-413: `Bind` and `ShouldBind`. Simplification: the code builds the field once, so that the entries share its maps; here each
has its own copy (see `cleanRoute` for the one place that writes to such a map). -/
def bindMapper : Mapper := fun params =>
  match params with
  | .result r :: _ => some (fun route => { route with
      pathParams := route.pathParams ++ [{ isBound := true, field := parseResultToField r }]
      queryParams := route.queryParams ++ [{ isBound := true, field := parseResultToField r }]
      requestHeaders := route.requestHeaders ++ [{ isBound := true, field := parseResultToField r }]
      body := route.body ++ (bindBodyTags.map bindingTagToContentTypes).flatten.map (fun ct =>
        { contentType := ct, isBound := true, field := parseResultToField r }) })
  | _ => none

/-- parseFunction.go:418-433, 438-453, 458-473: a bound body. -/
def bindBodyMapper (contentType : Str) : Mapper := fun params =>
  match params with
  | .result r :: _ => some (fun route => { route with
      body := route.body ++ [{ contentType := contentType, isBound := true, field := parseResultToField r }] })
  | _ => none

/-- parseFunction.go:478-495, 500-518, 523-541, 546-563: a form value or file. -/
def formMapper (contentType type : Str) (isArray isMap : Bool) : Mapper := fun params =>
  match params with
  | .str name :: _ => some (fun route => { route with
      body := route.body ++ [{ contentType := contentType, field := { type := type }, name := name, isArray := isArray, isMap := isMap }] })
  | _ => none

/-- parseFunction.go:568-584: a request header. -/
def requestHeaderMapper : Mapper := fun params =>
  match params with
  | .str name :: _ => some (fun route => { route with
      requestHeaders := route.requestHeaders ++ [{ field := { type := c!"string" }, name := name }] })
  | _ => none

/-- parseFunction.go:589-603: bound request headers. -/
def bindHeaderMapper : Mapper := fun params =>
  match params with
  | .result r :: _ => some (fun route => { route with
      requestHeaders := route.requestHeaders ++ [{ isBound := true, field := parseResultToField r }] })
  | _ => none

/-- parseFunction.go:608-624: a response header. -/
def responseHeaderMapper : Mapper := fun params =>
  match params with
  | .str name :: _ => some (fun route => { route with
      responseHeaders := route.responseHeaders ++ [{ field := { type := c!"string" }, name := name }] })
  | _ => none

/-- One case of the switch at parseFunction.go:124-692: the steps, the mapper, and whether an error makes the callback
return false (`stops`; the cases Status and Header fall through to `return true`). -/
structure CtxCase where
  ops : List Op
  mapper : Mapper
  stops : Bool := true

/-- parseFunction.go:124-692: the switch over the method name. -/
def ctxCase (name : Str) : Option CtxCase :=
  if name = c!"JSON" then some { ops := [.statusCode, .expressionResult], mapper := returnMapper c!"application/json" }
  else if name = c!"XML" then some { ops := [.statusCode, .expressionResult], mapper := returnMapper c!"application/xml" }
  else if name = c!"YAML" then some { ops := [.statusCode, .expressionResult], mapper := returnMapper c!"application/yaml" }
  else if name = c!"ProtoBuf" then some { ops := [.statusCode, .expressionResult], mapper := returnMapper c!"application/protobuf" }
  else if name = c!"Data" then some { ops := [.statusCode, .ignored, .expressionResult], mapper := returnMapper [] }
  else if name = c!"String" then some { ops := [.statusCode, .ignored], mapper := statusMapper c!"text/plain" c!"string" }
  else if name = c!"Status" then some { ops := [.statusCode], mapper := statusMapper [] c!"nil", stops := false }
  else if name = c!"GetQuery" ∨ name = c!"Query" then some { ops := [.value], mapper := queryMapper false false }
  else if name = c!"GetQueryArray" ∨ name = c!"QueryArray" then some { ops := [.value], mapper := queryMapper true false }
  else if name = c!"GetQueryMap" ∨ name = c!"QueryMap" then some { ops := [.value], mapper := queryMapper false true }
  else if name = c!"ShouldBindQuery" ∨ name = c!"BindQuery" then some { ops := [.expressionResult], mapper := bindQueryMapper }
  else if name = c!"ShouldBind" ∨ name = c!"Bind" then some { ops := [.expressionResult], mapper := bindMapper }
  else if name = c!"ShouldBindJSON" ∨ name = c!"BindJSON" then some { ops := [.expressionResult], mapper := bindBodyMapper c!"application/json" }
  else if name = c!"ShouldBindXML" ∨ name = c!"BindXML" then some { ops := [.expressionResult], mapper := bindBodyMapper c!"application/xml" }
  else if name = c!"ShouldBindYAML" ∨ name = c!"BindYAML" then some { ops := [.expressionResult], mapper := bindBodyMapper c!"application/yaml" }
  else if name = c!"GetPostForm" ∨ name = c!"PostForm" then
    some { ops := [.value], mapper := formMapper c!"application/x-www-form-urlencoded" c!"string" false false }
  else if name = c!"GetPostFormArray" ∨ name = c!"PostFormArray" then
    some { ops := [.value], mapper := formMapper c!"application/x-www-form-urlencoded" c!"string" true false }
  else if name = c!"GetPostFormMap" ∨ name = c!"PostFormMap" then
    some { ops := [.value], mapper := formMapper c!"application/x-www-form-urlencoded" c!"string" false true }
  else if name = c!"FormFile" then some { ops := [.value], mapper := formMapper c!"multipart/form-data" c!"file" false false }
  else if name = c!"GetHeader" then some { ops := [.value], mapper := requestHeaderMapper }
  else if name = c!"ShouldBindHeader" ∨ name = c!"BindHeader" then some { ops := [.expressionResult], mapper := bindHeaderMapper }
  else if name = c!"Header" then some { ops := [.value], mapper := responseHeaderMapper, stops := false }
  else if name = c!"AbortWithError" then some { ops := [.statusCode, .ignored], mapper := statusMapper [] c!"nil" }
  else if name = c!"AbortWithStatus" then some { ops := [.statusCode], mapper := statusMapper [] c!"nil" }
  else if name = c!"AbortWithStatusJSON" then some { ops := [.statusCode, .expressionResult], mapper := returnMapper c!"application/json" }
  else none

end Astra
