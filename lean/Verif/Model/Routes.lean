/-
Model of routes.go, listing.go, inputs/gin/createRoute.go, inputs/gin/createRoutes.go, inputs/gin/parseRoutes.go.
-/
import Verif.Types

namespace Astra

/-- routes.go:4-6 `AddRoute`. -/
def addRoute (routes : List Route) (route : Route) : List Route := routes ++ [route]

/-- routes.go:9-16 `ReplaceRoute`. -/
def replaceRoute : List Route → Route → List Route
  | [], _ => []
  | r :: rs, route =>
    if r.path = route.path ∧ r.method = route.method then route :: rs else r :: replaceRoute rs route

/-- listing.go:5-25: the deny options. A regular expression is an arbitrary predicate (`regex.MatchString`). -/
inductive DenyOption where
  | exact (path : Str)
  | regex (matchString : Str → Bool)
  | func (f : Str → Bool)

/-- listing.go:7-9, 15-17, 24: the predicate each option appends. -/
def DenyOption.pred : DenyOption → Str → Bool
  | .exact p => fun path => decide (path = p)
  | .regex f => f
  | .func f => f

/-- What `router.Routes()` and `runtime.FuncForPC` report about one route (gin's `RouteInfo` and the file and line of the handler).
inputs/gin/createRoutes.go:19, 34-35. -/
structure RouteInfo where
  method : Str
  path : Str
  handler : Str
  file : Str
  line : Int
  deriving Repr, DecidableEq

/-- inputs/gin/createRoute.go:30-40: the base route. -/
def baseRoute (info : RouteInfo) (relativePath : Str) : Route :=
  { handler := info.handler, file := relativePath, lineNo := info.line, path := info.path, method := info.method }

/-- inputs/gin/createRoutes.go:16-50 `CreateRoutes` with createRoute.go:15-47 inlined. `rel` stands for
`os.Getwd` + `filepath.Rel` (lines 18-28), which may fail. Returns the route table and the error, if any. -/
def createRoutes (deny : List (Str → Bool)) (rel : Str → Except Str Str) :
    List RouteInfo → List Route → List Route × Option Str
  | [], routes => (routes, none)
  | info :: infos, routes =>
    if deny.any (fun f => f info.path) then createRoutes deny rel infos routes
    else match rel info.file with
      | .error e => (routes, some e)
      | .ok relativePath => createRoutes deny rel infos (addRoute routes (baseRoute info relativePath))

/-- inputs/gin/parseRoutes.go:14-25: the loop of `ParseRoutes` from index `i` for `n` more iterations. `range s.Routes`
fixes the number of iterations but reads each element when it is reached, and `ReplaceRoute` writes into the same
array. `parse` stands for `parseRoute`, which updates a copy of the route and shared state `σ` (components). -/
def parseRoutesLoop {σ : Type} (parse : σ → Route → σ × Except Str Route) :
    Nat → Nat → σ → List Route → σ × List Route × Option Str
  | 0, _, st, routes => (st, routes, none)
  | n + 1, i, st, routes =>
    match routes[i]? with
    | none => (st, routes, none)
    | some route =>
      match parse st route with
      | (st', .error e) => (st', routes, some e)
      | (st', .ok route') => parseRoutesLoop parse n (i + 1) st' (replaceRoute routes route')

/-- inputs/gin/parseRoutes.go:11-30 `ParseRoutes`. -/
def ginParseRoutes {σ : Type} (parse : σ → Route → σ × Except Str Route) (st : σ) (routes : List Route) :
    σ × List Route × Option Str :=
  parseRoutesLoop parse routes.length 0 st routes

end Astra
