/-
Model of astTraversal/packageManager.go, packageNode.go, fileNode.go and loadPackage.go.

Pointers to nodes are indices into a heap; node 0 is the root of the tree.
-/
import Verif.Basic

namespace Astra

/-- `ast.ImportSpec`: the path literal with its quotes, and the name if there is one. astTraversal/packageManager.go:132-147. -/
structure ImportSpec where
  path : Str
  name : Option Str := none
  deriving Repr, DecidableEq

/-- The specs of a declaration: type specs with name and comment, or others. astTraversal/packageNode.go:220-240. -/
inductive TopSpec where
  | type (name : Str) (doc : Option Str)
  | other
  deriving Repr, DecidableEq

/-- A top level declaration: a `GenDecl` with its comment and specs, or a function. astTraversal/packageNode.go:220-240. -/
inductive TopDecl where
  | gen (doc : Option Str) (specs : List TopSpec)
  | func
  deriving Repr, DecidableEq

/-- A file of a loaded package, as far as it is used here: its name, imports and declarations. astTraversal/packageManager.go:82-89. -/
structure SrcFile where
  fileName : Str
  imports : List ImportSpec := []
  decls : List TopDecl := []
  deriving Repr, DecidableEq

/-- A loaded package: its identity and files (`Syntax`). astTraversal/packageManager.go:82-89. -/
structure GoPackage where
  id : Nat
  files : List SrcFile := []
  deriving Repr, DecidableEq

/-- fileNode.go:12-15 `FileImport`. -/
structure FileImport where
  pkg : Nat
  name : Str := []
  deriving Repr, DecidableEq

/-- fileNode.go:5-10 `FileNode`, without the pointer back to its package. -/
structure FileNode where
  fileName : Str
  imports : List FileImport := []
  ast : SrcFile
  deriving Repr, DecidableEq

/-- packageNode.go:12-22 `PackageNode`. -/
structure PkgNode where
  parent : Option Nat := none
  name : Str := []
  pkg : Option GoPackage := none
  edges : List Nat := []
  files : List FileNode := []
  docs : Option (List (Str × Str)) := none
  deriving Repr, DecidableEq

/-- All nodes. astTraversal/packageNode.go:12-22. -/
abbrev Heap := List PkgNode

/-- packageManager.go:20-27 `NewPackageManager`: a root without edges. -/
def newHeap : Heap := [{}]

/-- The node behind a pointer. astTraversal/packageNode.go:12-22. -/
def nodeAt (h : Heap) (i : Nat) : PkgNode := h.getD i {}

/-- packageManager.go:42-48, 103-109: the first edge with a name. -/
def child (h : Heap) (cur : Nat) (step : Str) : Option Nat := (nodeAt h cur).edges.find? (fun k => (nodeAt h k).name = step)

/-- packageManager.go:51-57: a new node behind the last edge. -/
def allocNode (h : Heap) (cur : Nat) (step : Str) : Heap :=
  h.modify cur (fun n => { n with edges := n.edges ++ [h.length] }) ++ [{ parent := some cur, name := step }]

/-- packageManager.go:40-60: the loop of `AddPackage`. -/
def addSteps (h : Heap) (cur : Nat) : List Str → Heap × Nat
  | [] => (h, cur)
  | s :: ss => match child h cur s with
    | some k => addSteps h k ss
    | none => addSteps (allocNode h cur s) h.length ss

/-- packageManager.go:33-63 `AddPackage`; one locked section. -/
def addPackage (h : Heap) (path : Str) : Heap × Nat := addSteps h 0 (split '/' path)

/-- packageManager.go:101-114: the loop of `Find`. -/
def findSteps (h : Heap) (cur : Nat) : List Str → Option Nat
  | [] => some cur
  | s :: ss => match child h cur s with
    | some k => findSteps h k ss
    | none => none

/-- packageManager.go:95-121 `Find`; one locked section. -/
def findPackage (h : Heap) (path : Str) : Option Nat :=
  match findSteps h 0 (split '/' path) with
  | some 0 => none
  | r => r

/-- packageManager.go:123-130 `FindOrAdd`, without interruption between its two locked sections. -/
def findOrAdd (h : Heap) (path : Str) : Heap × Nat :=
  match findPackage h path with
  | some n => (h, n)
  | none => addPackage h path

/-- The calls on the tree. astTraversal/packageManager.go:33-63, 95-130. -/
inductive TreeOp where
  | add (path : Str)
  | find (path : Str)
  | findOrAdd (path : Str)
  deriving Repr, DecidableEq

/-- The path that a call is for. astTraversal/packageManager.go:33-63, 95-130. -/
def TreeOp.path : TreeOp → Str
  | .add p => p
  | .find p => p
  | .findOrAdd p => p

/-- One call. astTraversal/packageManager.go:33-63, 95-130. -/
def treeStep (h : Heap) : TreeOp → Heap × Option Nat
  | .add p => ((addPackage h p).1, some (addPackage h p).2)
  | .find p => (h, findPackage h p)
  | .findOrAdd p => ((findOrAdd h p).1, some (findOrAdd h p).2)

/-- A sequence of calls. astTraversal/packageManager.go:33-63, 95-130. -/
def runTree (h : Heap) : List TreeOp → Heap × List (Option Nat)
  | [] => (h, [])
  | op :: ops =>
    let (h1, r) := treeStep h op
    let (h2, rs) := runTree h1 ops
    (h2, r :: rs)

/-! ### Concurrent calls

A locked section (packageManager.go:36-37, 96-97) is one step; `FindOrAdd` consists of two. Calls that a goroutine makes one after the
other are calls of which the second starts later; all schedules are considered. -/

/-- How far a call is. astTraversal/packageManager.go:33-63, 95-130. -/
inductive CallState where
  | waiting (op : TreeOp)
  | missed (path : Str)
  | done (op : TreeOp) (result : Option Nat)
  deriving Repr, DecidableEq

/-- The next locked section of a call. astTraversal/packageManager.go:33-63, 95-130. -/
def findOrAddStep (h : Heap) : CallState → Heap × CallState
  | .waiting (.add p) => ((addPackage h p).1, .done (.add p) (some (addPackage h p).2))
  | .waiting (.find p) => (h, .done (.find p) (findPackage h p))
  | .waiting (.findOrAdd p) => match findPackage h p with
    | some n => (h, .done (.findOrAdd p) (some n))
    | none => (h, .missed p)
  | .missed p => ((addPackage h p).1, .done (.findOrAdd p) (some (addPackage h p).2))
  | .done op r => (h, .done op r)

/-- All calls. astTraversal/packageManager.go:33-63, 95-130. -/
structure Pool where
  heap : Heap
  calls : List CallState

/-- The scheduler lets call `i` run for one locked section. astTraversal/packageManager.go:33-63, 95-130. -/
def Pool.step (s : Pool) (i : Nat) : Pool :=
  match s.calls[i]? with
  | none => s
  | some c => { heap := (findOrAddStep s.heap c).1, calls := s.calls.set i (findOrAddStep s.heap c).2 }

/-- A schedule. astTraversal/packageManager.go:33-63, 95-130. -/
def Pool.run (s : Pool) (schedule : List Nat) : Pool := schedule.foldl Pool.step s

/-- packageNode.go:29-39: the loop of `Path`; `none` if it takes more than `fuel` rounds. -/
def pathUp (h : Heap) : Nat → Nat → Str → Option Str
  | 0, _, _ => none
  | fuel + 1, n, path => match (nodeAt h n).parent with
    | none => some path
    | some p => pathUp h fuel p (if path = [] then (nodeAt h n).name else (nodeAt h n).name ++ '/' :: path)

/-- packageNode.go:24-42 `Path`; `none` if it does not end (the chain of parents is longer than the heap, that is, a cycle). -/
def pathOfNode (h : Heap) (n : Nat) : Option Str := pathUp h (h.length + 1) n []

/-- packageNode.go:44-53 `AddFile`. -/
def addFile : List FileNode → FileNode → List FileNode
  | [], f => [f]
  | g :: gs, f => if g.fileName = f.fileName then { g with ast := f.ast } :: gs else g :: addFile gs f

/-- fileNode.go:22-30 `FindImport`. -/
def findImport (h : Heap) (f : FileNode) (ident : Str) : Option FileImport :=
  f.imports.find? (fun im => im.name = ident || (nodeAt h im.pkg).name = ident)

/-- packageManager.go:132-147 `MapImportSpecs`. -/
def mapImportSpecs (h : Heap) : List ImportSpec → Heap × List FileImport
  | [] => (h, [])
  | imp :: imps =>
    let (h1, n) := findOrAdd h (trimBy (· = '"') imp.path)
    let (h2, rest) := mapImportSpecs h1 imps
    (h2, { pkg := n, name := imp.name.getD [] } :: rest)

/-! ### Documentation of types -/

/-- packageNode.go:226-240: the comments of the type specs of a declaration. -/
def specDocs (doc : Option Str) : List TopSpec → List (Str × Str) → List (Str × Str)
  | [], m => m
  | .type name d :: ss, m => match d, doc with
    | none, none => specDocs doc ss m
    | some t, _ => specDocs doc ss (mset m name t)
    | none, some t => specDocs doc ss (mset m name t)
  | .other :: ss, m => specDocs doc ss m

/-- packageNode.go:222-242: the comments of the types of a file. -/
def declDocs : List TopDecl → List (Str × Str) → List (Str × Str)
  | [], m => m
  | .gen doc specs :: ds, m => declDocs ds (specDocs doc specs m)
  | .func :: ds, m => declDocs ds m

/-- packageNode.go:210-244 `populateTypeDocMap`. -/
def populateDocs (n : PkgNode) : PkgNode :=
  match n.docs with
  | some _ => n
  | none => { n with docs := some (n.files.foldl (fun m f => declDocs f.ast.decls m) []) }

/-- packageNode.go:202-207 `FindDocForType`. -/
def findDocForType (n : PkgNode) (name : Str) : PkgNode × Option Str :=
  let n := populateDocs n
  (n, mget (n.docs.getD []) name)

/-! ### Loading -/

/-- `packages.ErrorKind`. astTraversal/loadPackage.go:50-60. -/
inductive ErrKind where
  | unknown | list | parse | type
  deriving Repr, DecidableEq

/-- One result of `packages.Load`. astTraversal/loadPackage.go:50-60. -/
structure LoadedPkg where
  pkg : GoPackage
  errors : List ErrKind := []
  deriving Repr, DecidableEq

/-- What stands outside: `load path dir` is `packages.Load`; it may depend on and change the outside state `σ` (files, module
cache, ...). astTraversal/loadPackage.go:30-48. -/
structure LoadEnv (σ : Type) where
  load : Str → Str → σ → Except Str (List LoadedPkg) × σ

/-- A `PackagePathLoader` (packageManager.go:11): any function, with effects on the outside state. -/
abbrev PathLoader (σ : Type) := Str → σ → Except Str Str × σ

/-- The state: the nodes, loadPackage.go:9 `cachedPackages`, the outside state, and a record of the calls of `packages.Load`
(which the code does not have). -/
structure PM (σ : Type) where
  heap : Heap := newHeap
  cached : List (Str × GoPackage) := []
  ext : σ
  calls : List (Str × Str) := []

/-- loadPackage.go:50-60: the first error of the results. -/
def firstError (path : Str) : List LoadedPkg → Option Str
  | [] => none
  | p :: ps => match p.errors with
    | [] => firstError path ps
    | .list :: _ => some (c!"package " ++ path ++ c!" has list errors")
    | .type :: _ => some (c!"package " ++ path ++ c!" has type errors")
    | .parse :: _ => some (c!"package " ++ path ++ c!" has parse errors")
    | .unknown :: _ => some (c!"package " ++ path ++ c!" has unknown errors")

/-- loadPackage.go:46-67: what `LoadPackageNoCache` makes of the result of `packages.Load`. -/
def pickPackage (path : Str) : Except Str (List LoadedPkg) → Except Str GoPackage
  | .error e => .error e
  | .ok pkgs => match firstError path pkgs with
    | some e => .error e
    | none => match pkgs with
      | [] => .error (c!"package " ++ path ++ c!" not found")
      | p :: _ => .ok p.pkg

/-- loadPackage.go:30-68 `LoadPackageNoCache`. -/
def loadPackageNoCache {σ : Type} (E : LoadEnv σ) (path dir : Str) (s : PM σ) : PM σ × Except Str GoPackage :=
  let (r, x) := E.load path dir s.ext
  ({ s with ext := x, calls := s.calls ++ [(path, dir)] }, pickPackage path r)

/-- loadPackage.go:13-26 `LoadPackage`. -/
def loadPackage {σ : Type} (E : LoadEnv σ) (path dir : Str) (s : PM σ) : PM σ × Except Str GoPackage :=
  match aget s.cached path with
  | some p => (s, .ok p)
  | none => match loadPackageNoCache E path dir s with
    | (s, .error e) => (s, .error e)
    | (s, .ok p) => ({ s with cached := aset s.cached path p }, .ok p)

/-- packageManager.go:68-74: the path loaders. -/
def resolvePath {σ : Type} (path : Str) : List (PathLoader σ) → σ → Str × σ
  | [], x => (path, x)
  | l :: ls, x => match l path x with
    | (.ok p, x) => (p, x)
    | (.error _, x) => resolvePath path ls x

/-- packageManager.go:82-89: the files of a package. -/
def mapFiles (h : Heap) : List SrcFile → Heap × List FileNode
  | [] => (h, [])
  | f :: fs =>
    let (h1, ims) := mapImportSpecs h f.imports
    let (h2, rest) := mapFiles h1 fs
    (h2, { fileName := f.fileName, imports := ims, ast := f } :: rest)

/-- packageManager.go:80-89: a node gets its package and files. Simplification: files are appended to the node after all of them have
been mapped, not one by one; mapping does not look at the files of nodes. -/
def populate (h : Heap) (n : Nat) (p : GoPackage) : Heap :=
  let (h, files) := mapFiles (h.modify n (fun nd => { nd with pkg := some p })) p.files
  h.modify n (fun nd => { nd with files := nd.files ++ files })

/-- packageManager.go:65-93 `Get`. A node whose path does not end is impossible (see `pathOfNode`); it is an error here. -/
def getPackage {σ : Type} (E : LoadEnv σ) (loaders : List (PathLoader σ)) (dir : Str) (n : Nat) (s : PM σ) : PM σ × Except Str GoPackage :=
  match (nodeAt s.heap n).pkg with
  | some p => (s, .ok p)
  | none => match pathOfNode s.heap n with
    | none => (s, .error c!"endless path")
    | some own =>
      let (path, x) := resolvePath own loaders s.ext
      match loadPackage E path dir { s with ext := x } with
      | (s, .error e) => (s, .error e)
      | (s, .ok p) => ({ s with heap := populate s.heap n p }, .ok p)

/-- A sequence of loads. astTraversal/loadPackage.go:13-68. -/
def runLoads {σ : Type} (E : LoadEnv σ) (s : PM σ) : List (Str × Str) → PM σ × List (Except Str GoPackage)
  | [] => (s, [])
  | (p, d) :: rs =>
    let (s1, r) := loadPackage E p d s
    let (s2, rest) := runLoads E s1 rs
    (s2, r :: rest)

/-- inputs/gin/parseRoute.go:26-31: the path loader of a route; `main` is the result of `GetMainPackageName`. -/
def ginLoader {σ : Type} (main : σ → Except Str Str × σ) : PathLoader σ := fun path x =>
  if path = c!"main" then main x else (.ok path, x)

end Astra
