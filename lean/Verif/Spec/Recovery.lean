/-
Specification vocabulary for runs that must succeed, and for runs after a failed or interrupted one.
-/
import Verif.Spec.EndToEnd
import Verif.Spec.MainPackage
import Verif.Spec.OpenApi
import Verif.Spec.Naming
import Verif.Spec.AzureOutput

namespace Astra.Spec

/-- Where Astra works outside of .astra: the files that it writes, and the directories that it replaces as a whole. -/
structure Places where
  file : FPath → Prop
  dir : FPath → Prop

instance : CoeFun Places (fun _ => FPath → Prop) := ⟨Places.file⟩

/-- An orderly project in the directory `d` with the places `Q`: `d` is a directory, .astra is none or a directory, the Go and module entries
are not directories, each file of `Q` has a directory to lie in, is not a directory itself and is not in .astra, and each directory of `Q`
has a directory to lie in. -/
structure Orderly (fs : FS) (d : FPath) (Q : Places) : Prop where
  tree : Tree fs
  names : ProperNames fs
  work : fs.look d = some .dir
  astra : fs.look (d ++ [c!".astra"]) = none ∨ fs.look (d ++ [c!".astra"]) = some .dir
  sources : ∀ n, GoFile n ∨ ModFile n → fs.look (d ++ [n]) ≠ some .dir
  outputs : ∀ q, Q.file q → fs.look q.dropLast = some .dir ∧ fs.look q ≠ some .dir ∧ ¬ d ++ [c!".astra"] <+: q
  parents : ∀ D, Q.dir D → fs.look D.dropLast = some .dir

/-- Nothing is in the way of the directories of `Q`: each is apart from .astra (so it is not `d` or above it) and from the other ones, it is
not a source file of `d`, and no file of `Q` is in it. -/
structure Spaced (d : FPath) (Q : Places) : Prop where
  astra : ∀ D, Q.dir D → Apart (d ++ [c!".astra"]) D
  sources : ∀ D, Q.dir D → ∀ n, GoFile n ∨ ModFile n → D ≠ d ++ [n]
  files : ∀ D, Q.dir D → ∀ q, Q.file q → ¬ D <+: q
  dirs : ∀ D D', Q.dir D → Q.dir D' → D = D' ∨ Apart D D'

/-- The JSON and the OpenAPI output, which write one file. -/
def FileOutput (o : Output) : Prop := (∃ loc, o.generate = .json loc) ∨ ∃ loc, o.generate = .openapi loc

/-- The Azure Functions output, which writes a directory. -/
def AzureOutput (o : Output) : Prop := ∃ dir, o.generate = .azure dir

/-- The files of the outputs of a service that works in `d`. -/
def OutputPlaces (d : FPath) (s : Service) (q : FPath) : Prop := ∃ o ∈ s.outputs, FileOutput o ∧ OutputPlace d s o.generate q

/-- The directories of the Azure outputs of a service that works in `d`. -/
def FunctionDirs (d : FPath) (s : Service) (D : FPath) : Prop := ∃ o ∈ s.outputs, ∃ dir, o.generate = .azure dir ∧ D = walk d (segments dir)

/-- The place of the cache, if it is enabled and has a path of its own. -/
def CachePlace (c : FPath) (s : Service) (q : FPath) : Prop := s.cacheEnabled = true ∧ s.cachePath ≠ [] ∧ resolve c s.cachePath = some q

/-- The places of a service in the directory `c`, working in `d`. -/
def placesOf (c d : FPath) (s : Service) : Places where
  file q := OutputPlaces d s q ∨ CachePlace c s q
  dir := FunctionDirs d s

/-- No Azure output has left its temporary directory behind. -/
def NoLeftover (fs : FS) (d : FPath) (Q : Places) : Prop := (∃ D, Q.dir D) → fs.look (d ++ [c!".astra", c!"azure"]) = none

/-- The functions of the routes have proper names that are all different. -/
def OwnFunctions (rs : List Route) : Prop :=
  (∀ r ∈ rs, ∀ n, FunctionName r.handler n → n ≠ [] ∧ '/' ∉ n) ∧
  rs.Pairwise (fun r r' => ∀ n, FunctionName r.handler n → ¬ FunctionName r'.handler n)

/-- A cache with a path of its own is a JSON file. -/
def JsonCache (s : Service) : Prop := s.cacheEnabled = true → s.cachePath ≠ [] → c!".json" <:+ s.cachePath

/-- The functions of a gin input. -/
def GinFunction (a : Action) : Prop := (∃ router, a = .ginCreate router) ∨ a = .ginParse

/-- The module files of `d` are the same. -/
def SameModules (d : FPath) (fs fs' : FS) : Prop := ∀ n, ModFile n → fs'.look (d ++ [n]) = fs.look (d ++ [n])

/-- The route of an entry of a router, after the analysis has gone through it a number of times. -/
inductive AfterPasses (L : Lib) (workDir : Str) (funcs : List CustomFunc) (i : RouteInfo) : Nat → Route → Prop where
  | found {r : Route} : Found L.rel i r → AfterPasses L workDir funcs i 0 r
  | again {n : Nat} {r r' : Route} {m : Str} {cs cs' : List Field} : AfterPasses L workDir funcs i n r →
    L.parse { workDir := workDir, mainPkg := m, customFuncs := funcs } cs r = (cs', .ok r') → AfterPasses L workDir funcs i (n + 1) r'

/-- Nothing but a failure from outside can stop the run of this service: it has gin routers with distinct entries, whose files have paths
and whose handlers can be analysed, once for each router; it has outputs, all of them JSON, OpenAPI or Azure Functions; for the OpenAPI
outputs it has a configuration, packages that can be named and YAML texts for all documents; for the Azure outputs it has functions with
names of their own, and none of these outputs is the current directory. The cache, if any, is at its default place or a JSON file. -/
structure Feasible (L : Lib) (getwd : Str) (s : Service) (routers : List (List RouteInfo)) : Prop where
  some_input : s.inputs ≠ []
  input : Each GinInput s.inputs routers
  fresh : s.routes = []
  distinct : DistinctRoutes (allowed s.denyList routers.flatten)
  keys : KeepsKeys L
  located : ∀ i ∈ allowed s.denyList routers.flatten, ∃ file, L.rel i.file = .ok file
  analysed : ∀ i ∈ allowed s.denyList routers.flatten, ∀ n < routers.length, ∀ r,
    AfterPasses L (if s.workDir = [] then getwd else s.workDir) s.customFuncs i n r → ∀ m cs, ∃ cs' r',
      L.parse { workDir := if s.workDir = [] then getwd else s.workDir, mainPkg := m, customFuncs := s.customFuncs } cs r = (cs', .ok r')
  some_output : s.outputs ≠ []
  kinds : ∀ o ∈ s.outputs, FileOutput o ∨ AzureOutput o
  own : OwnCells s.outputs
  cache : JsonCache s
  config : (∃ o ∈ s.outputs, ∃ loc, o.generate = .openapi loc) → s.config ≠ none
  order : ∀ l, (L.choices.groups l).Perm l
  named : (∃ o ∈ s.outputs, ∃ loc, o.generate = .openapi loc) → ∀ m rs cs,
    RunResult L s (if s.workDir = [] then getwd else s.workDir) routers m rs cs → Nameable cs
  texts : ∀ j, ∃ text, L.yamlText j = .ok text
  functions : (∃ o ∈ s.outputs, AzureOutput o) → ∀ m rs cs,
    RunResult L s (if s.workDir = [] then getwd else s.workDir) routers m rs cs → OwnFunctions rs
  elsewhere : ∀ o ∈ s.outputs, ∀ dir, o.generate = .azure dir → pathJoin [if s.workDir = [] then getwd else s.workDir, dir] ≠ c!"."

/-- What a list of attempts may leave. Each attempt is a run of the same service by a new process, in the same directory, with any
failures or a crash at any point, and with any behaviour of the analysis and the renderer. In between, the user may remove what an Azure
output has left in .astra. The last world is the start of the next process. -/
inductive AfterAttempts (getwd : Str) (w : World Proc) : World Proc → Prop where
  | none : AfterAttempts getwd w w
  | again {w1 w2 : World Proc} (L : Lib) (φ : Faults) : AfterAttempts getwd w w1 → w2.fs = (Astra.parseAll L getwd φ w1).1.fs →
    w2.cwd = w.cwd → w2.st = w.st → AfterAttempts getwd w w2
  | tidied {w1 w2 : World Proc} (d : FPath) : AfterAttempts getwd w w1 → DirAt w.cwd w.st.svc.workDir d →
    w2.fs = w1.fs.del (d ++ [c!".astra", c!"azure"]) → w2.cwd = w.cwd → w2.st = w.st → AfterAttempts getwd w w2

end Astra.Spec
