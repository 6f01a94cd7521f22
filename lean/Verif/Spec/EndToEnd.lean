/-
Specification vocabulary for a whole run, from the router to the output file.
-/
import Verif.Spec.Cache
import Verif.Spec.Footprint

namespace Astra.Spec

/-- The route that stands for an entry of the router: its method, path and handler, and where the handler is. -/
def Found (rel : Str → Except Str Str) (i : RouteInfo) (r : Route) : Prop :=
  ∃ file, rel i.file = .ok file ∧ r = { handler := i.handler, file := file, lineNo := i.line, path := i.path, method := i.method }

/-- The entries of the router that no deny option matches, in the order of the router. -/
def allowed (deny : List (Str → Bool)) (infos : List RouteInfo) : List RouteInfo := infos.filter (fun i => ¬ ∃ f ∈ deny, f i.path = true)

/-- The routes are analysed one after the other, each with the components found so far; the name of the main package, `m`, is fixed
the first time an analysis asks for it. -/
inductive AnalysedInOrder (L : Lib) (workDir : Str) (funcs : List CustomFunc) : Str → List Field → List Route → Str → List Field → List Route → Prop
  | done (m : Str) (cs : List Field) : AnalysedInOrder L workDir funcs m cs [] m cs []
  | step {m m1 m2 : Str} {cs cs1 cs2 : List Field} {r r' : Route} {rs rs' : List Route} :
      (m1 = m ∨ (L.usesMain r = true ∧ m = [])) →
      L.parse { workDir := workDir, mainPkg := m1, customFuncs := funcs } cs r = (cs1, .ok r') →
      AnalysedInOrder L workDir funcs m1 cs1 rs m2 cs2 rs' → AnalysedInOrder L workDir funcs m cs (r :: rs) m2 cs2 (r' :: rs')

/-- The route table is gone through a number of times, each time by the analysis of all its routes as they are by then. -/
inductive AnalysedPasses (L : Lib) (workDir : Str) (funcs : List CustomFunc) : Nat → Str → List Field → List Route → Str → List Field → List Route → Prop
  | done (m : Str) (cs : List Field) (rs : List Route) : AnalysedPasses L workDir funcs 0 m cs rs m cs rs
  | pass {n : Nat} {m m1 m2 : Str} {cs cs1 cs2 : List Field} {rs rs1 rs2 : List Route} :
      AnalysedInOrder L workDir funcs m cs rs m1 cs1 rs1 → AnalysedPasses L workDir funcs n m1 cs1 rs1 m2 cs2 rs2 →
      AnalysedPasses L workDir funcs (n + 1) m cs rs m2 cs2 rs2

/-- An input for a gin router with these entries. -/
def GinInput (i : Input) (infos : List RouteInfo) : Prop := i.createRoutes = .ginCreate (some infos) ∧ i.parseRoutes = .ginParse

/-- No two entries have the same path and method. -/
def DistinctRoutes (infos : List RouteInfo) : Prop := (infos.map (fun i => (i.path, i.method))).Nodup

/-- The analysis of a route leaves its path and method alone. -/
def KeepsKeys (L : Lib) : Prop := ∀ ctx cs r cs' r', L.parse ctx cs r = (cs', .ok r') → r'.path = r.path ∧ r'.method = r.method

/-- The routes and the components that a service with these routers ends up with: those of the allowed entries of all routers, analysed in
order, once for each router, and cleaned with the name `m` of the main package (what cleaning does is the subject of C33 and C34). -/
def RunResult (L : Lib) (s : Service) (workDir : Str) (routers : List (List RouteInfo)) (m : Str) (rs : List Route) (cs : List Field) : Prop :=
  ∃ found m1 cs1 rs1, Each (Found L.rel) (allowed s.denyList routers.flatten) found ∧
    AnalysedPasses L workDir s.customFuncs routers.length s.tempMain s.components found m1 cs1 rs1 ∧ (m = m1 ∨ m1 = []) ∧
    rs = rs1.map (cleanRoute m) ∧ cs = cs1.map (cleanField m)

/-- The place `q` is not one of those that the rest of the run is entitled to: .astra, the custom cache path, the other outputs. -/
def OwnPlace (cwd d : FPath) (s : Service) (others : List Output) (q : FPath) : Prop :=
  ¬ d ++ [c!".astra"] <+: q ∧ ¬ (s.cacheEnabled = true ∧ ∃ a, resolve cwd s.cachePath = some a ∧ a <+: q) ∧
  ∀ o ∈ others, ¬ OutputPlace d s o.generate q

/-- An output that is not the OpenAPI output or a user's own. -/
def Plain (o : Output) : Prop := (∃ loc, o.generate = .json loc) ∨ ∃ dir, o.generate = .azure dir

/-- A built-in output. -/
def BuiltIn (o : Output) : Prop := Plain o ∨ ∃ loc, o.generate = .openapi loc

end Astra.Spec
