/-
Model of utils/pathParams.go, utils/splitHandlerPath.go, the path template of outputs/openapi/generate.go and
outputs/azureFunctions/convertRoute.go.
-/
import Verif.Types

namespace Astra

/-- One piece of a path as seen by the regular expression: an unmatched character or a whole match. utils/pathParams.go:12-14. -/
inductive PathTok where
  | lit (c : Char)
  | wild (text : Str)
  deriving Repr, DecidableEq

/-- Does a match of the regular expression start here? The next character must be one that `[^\/]` accepts. utils/pathParams.go:12-14. -/
def startsWild (c : Char) (rest : Str) : Bool :=
  (c = ':' || c = '*') && match rest with
    | [] => false
    | d :: _ => decide (d ≠ '/')

/-- utils/pathParams.go:12-14: the leftmost, greedy, non-overlapping matches of `:[^\/]+|\*[^\/]+`, as a scanner.
The state is the match being read (in reverse), if any. -/
def scanPath : Option Str → Str → List PathTok
  | none, [] => []
  | some acc, [] => [.wild acc.reverse]
  | none, c :: cs => if startsWild c cs then scanPath (some [c]) cs else .lit c :: scanPath none cs
  | some acc, c :: cs =>
    if c = '/' then .wild acc.reverse :: .lit c :: scanPath none cs else scanPath (some (c :: acc)) cs

/-- The text of a match. utils/pathParams.go:12-14. -/
def PathTok.wildText : PathTok → Option Str
  | .lit _ => none
  | .wild w => some w

/-- utils/pathParams.go:23 `FindAllString(path, -1)`. -/
def findAllWild (path : Str) : List Str := (scanPath none path).filterMap PathTok.wildText

/-- The text a token stands for when matches are rewritten by `repl`. utils/pathParams.go:39-41. -/
def PathTok.render (repl : Str → Str) : PathTok → Str
  | .lit c => [c]
  | .wild w => repl w

/-- utils/pathParams.go:17-35 `ExtractParamsFromPath`. `param[0]` and `param[1:]` never fail since matches are non-empty. -/
def extractParams (path : Str) : List Param :=
  (findAllWild path).map (fun w =>
    { name := w.tail, field := { type := c!"string" }, isRequired := w.head? = some ':' })

/-- utils/pathParams.go:39-41 `MapPathParams` (`ReplaceAllStringFunc`). -/
def mapPathParams (path : Str) (repl : Str → Str) : Str :=
  (scanPath none path).flatMap (PathTok.render repl)

/-- outputs/openapi/generate.go:46-52: the replacement function used for OpenAPI path templates. -/
def openapiRepl (param : Str) : Str :=
  if param.head? = some ':' then '{' :: param.tail ++ c!"}" else '{' :: param.tail ++ c!"*}"

/-- outputs/openapi/generate.go:46-52: the OpenAPI path of an endpoint. -/
def openapiPath (path : Str) : Str := mapPathParams path openapiRepl

/-- outputs/azureFunctions/convertRoute.go:10-26 `acceptedTypeMap`. -/
def azureTypeMap : List (Str × Str) := [
  (c!"string", c!"alpha"), (c!"int", c!"long"), (c!"int32", c!"int"), (c!"int64", c!"long"), (c!"uint", c!"long"),
  (c!"uint32", c!"int"), (c!"uint64", c!"long"), (c!"float", c!"double"), (c!"float32", c!"float"),
  (c!"float64", c!"double"), (c!"bool", c!"bool"), (c!"time.Time", c!"datetime"),
  (c!"github.com/google/uuid.UUID", c!"guid")]

/-- outputs/azureFunctions/convertRoute.go:31-43: the loop over the path parameters. The early `return ""` for an empty
azure type is kept although no entry has one. -/
def convertRouteLoop (routeString : Str) : List Param → Str
  | [] => routeString
  | p :: ps =>
    match aget azureTypeMap p.field.type with
    | none => convertRouteLoop routeString ps
    | some azureType =>
      if azureType = [] then []
      else if p.isRequired then
        convertRouteLoop (replaceFirst routeString (':' :: p.name) ('{' :: p.name ++ ':' :: azureType ++ c!"}")) ps
      else
        convertRouteLoop (replaceFirst routeString ('*' :: p.name) ('{' :: p.name ++ ':' :: azureType ++ c!"?}")) ps

/-- outputs/azureFunctions/convertRoute.go:28-46 `convertRoute`. -/
def convertRoute (route : Route) : Str := convertRouteLoop route.path route.pathParams

/-- utils/splitHandlerPath.go:5-8 `HandlerPath`. -/
structure HandlerPath where
  pathParts : List Str
  handlerParts : List Str
  deriving Repr, DecidableEq

/-- utils/splitHandlerPath.go:10-28 `SplitHandlerPath`. `strings.Split` is never empty, so the index expressions
`pathParts[len-1]`, `handlerParts[0]` and `handlerParts[1:]` never fail: `getLastD`, `headD` and `tail` are exact. -/
def splitHandlerPath (handlerPath : Str) : HandlerPath :=
  let pathParts := split '/' handlerPath
  let handlerParts := split '.' (pathParts.getLastD [])
  { pathParts := pathParts.dropLast ++ [handlerParts.headD []], handlerParts := handlerParts.tail }

/-- utils/splitHandlerPath.go:30-32 `PackagePath`. -/
def HandlerPath.packagePath (h : HandlerPath) : Str := join c!"/" h.pathParts

/-- utils/splitHandlerPath.go:34-36 `PackageName`; index out of range panics. -/
def HandlerPath.packageName (h : HandlerPath) : Res Str :=
  match h.pathParts.getLast? with
  | some x => .ok x
  | none => .panic c!"index out of range"

/-- utils/splitHandlerPath.go:38-40 `Handler`. -/
def HandlerPath.handler (h : HandlerPath) : Str := join c!"." h.handlerParts

/-- utils/splitHandlerPath.go:42-44 `FuncName`; index out of range panics. -/
def HandlerPath.funcName (h : HandlerPath) : Res Str :=
  match h.handlerParts with
  | x :: _ => .ok x
  | [] => .panic c!"index out of range"

end Astra
