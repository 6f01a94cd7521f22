/-
The file system as the Go package os shows it, and programs on it that may fail or die at every call.

Simplifications: no symbolic links, no permissions other than through injected failures, no other process writes, and file
contents are texts.
-/
import Verif.Model.GoPath

namespace Astra

/-- A directory entry. What the calls of dir.go:22-92, mainPackage.go:17-80 and cache.go:20-136 work on. -/
inductive FNode where
  | dir
  | file (content : Str)
  deriving Repr, DecidableEq

/-- A file tree: its entries, of which the first counts. The root is always a directory. What the calls of dir.go:22-92,
mainPackage.go:17-80 and cache.go:20-136 work on. -/
abbrev FS := List (FPath × FNode)

/-- The entry at a location other than the root. What the calls of dir.go:22-92, mainPackage.go:17-80 and cache.go:20-136 work on. -/
def FS.get : FS → FPath → Option FNode
  | [], _ => none
  | e :: fs, p => if e.1 = p then some e.2 else FS.get fs p

/-- The entry at a location. What the calls of dir.go:22-92, mainPackage.go:17-80 and cache.go:20-136 work on. -/
def FS.look (fs : FS) (p : FPath) : Option FNode := if p = [] then some .dir else fs.get p

/-- Create or replace an entry. What the calls of dir.go:22-92, mainPackage.go:17-80 and cache.go:20-136 work on. -/
def FS.put (fs : FS) (p : FPath) (n : FNode) : FS := (p, n) :: fs.filter (fun e => e.1 ≠ p)

/-- Remove an entry and everything below it. What the calls of dir.go:22-92, mainPackage.go:17-80 and cache.go:20-136 work on. -/
def FS.del (fs : FS) (p : FPath) : FS := fs.filter (fun e => !p.isPrefixOf e.1)

/-- The entries that a removal which stops early leaves: the kept ones and the directories above them. What the calls of dir.go:22-92,
mainPackage.go:17-80 and cache.go:20-136 work on. -/
def FS.delPart (keep : FPath → Bool) (fs : FS) (p : FPath) : FS :=
  fs.filter (fun e => !p.isPrefixOf e.1 || fs.any (fun e' => e.1.isPrefixOf e'.1 && keep e'.1))

/-- Move an entry with everything below it. What the calls of dir.go:22-92, mainPackage.go:17-80 and cache.go:20-136 work on. -/
def FS.move (fs : FS) (a b : FPath) : FS :=
  fs.filterMap (fun e => if a.isPrefixOf e.1 then some (b ++ e.1.drop a.length, e.2) else none) ++ (fs.del a).del b

/-- The names in a directory, sorted. What the calls of dir.go:22-92, mainPackage.go:17-80 and cache.go:20-136 work on. -/
def FS.children (fs : FS) (p : FPath) : List Str :=
  ((fs.filterMap (fun e => if e.1.dropLast = p then e.1.getLast? else none)).foldl (fun acc n => mset acc n ()) []).map (·.1)

/-- The errors that calls return. `io` stands for every error that comes from outside (permissions, full disk, ...). What the calls of
dir.go:22-92, mainPackage.go:17-80 and cache.go:20-136 work on. -/
inductive Errno where
  | noent | exist | notdir | isdir | inval | io
  deriving Repr, DecidableEq

/-- Is the location a file? What the calls of dir.go:22-92, mainPackage.go:17-80 and cache.go:20-136 work on. -/
def FS.isFile (fs : FS) (p : FPath) : Bool :=
  match fs.look p with
  | some (.file _) => true
  | _ => false

/-- The error for an absent entry: whether a file stands in the way. What the calls of dir.go:22-92, mainPackage.go:17-80 and
cache.go:20-136 work on. -/
def FS.absent (fs : FS) (p : FPath) : Errno :=
  if (List.range p.length).any (fun k => fs.isFile (p.take k)) then .notdir else .noent

/-- `os.Stat`. Called at mainPackage.go:21, 73, dir.go:49, 68 and cache.go:30, 73, 126. -/
def FS.stat (fs : FS) (p : FPath) : Except Errno FNode :=
  match fs.look p with
  | some n => .ok n
  | none => .error (fs.absent p)

/-- The directory in which a new entry is created must exist. What the calls of dir.go:22-92, mainPackage.go:17-80 and cache.go:20-136
work on. -/
def FS.parent (fs : FS) (p : FPath) : Except Errno Unit :=
  match fs.stat p.dropLast with
  | .error e => .error e
  | .ok (.file _) => .error .notdir
  | .ok .dir => .ok ()

/-- `os.Mkdir`. Called at mainPackage.go:27, dir.go:37 and outputs/azureFunctions/generate.go:44. -/
def FS.mkdir (fs : FS) (p : FPath) : Except Errno FS :=
  match fs.parent p with
  | .error e => .error e
  | .ok _ => match fs.look p with
    | some _ => .error .exist
    | none => .ok (fs.put p .dir)

/-- The locations above and including `p`, from the root. What the calls of dir.go:22-92, mainPackage.go:17-80 and cache.go:20-136
work on. -/
def ancestors (p : FPath) : List FPath := (List.range (p.length + 1)).map p.take

/-- `os.MkdirAll` restricted to the first `n` directories. What the calls of dir.go:22-92, mainPackage.go:17-80 and cache.go:20-136
work on. -/
def FS.mkdirs (fs : FS) : List FPath → FS
  | [] => fs
  | q :: qs => match fs.look q with
    | some _ => FS.mkdirs fs qs
    | none => FS.mkdirs (fs.put q .dir) qs

/-- `os.MkdirAll`. Called at dir.go:23. -/
def FS.mkdirAll (fs : FS) (p : FPath) : Except Errno FS :=
  if (ancestors p).any fs.isFile then .error .notdir else .ok (fs.mkdirs (ancestors p))

/-- `os.Create` (also the opening part of `os.WriteFile`): an empty file. Called at dir.go:72 and cache.go:37. -/
def FS.create (fs : FS) (p : FPath) : Except Errno FS :=
  match fs.look p with
  | some .dir => .error .isdir
  | _ => match fs.parent p with
    | .error e => .error e
    | .ok _ => .ok (fs.put p (.file []))

/-- Replace the content of a file; an entry that is not a file (any more) is left alone. Called at dir.go:77 and cache.go:52. -/
def FS.write (fs : FS) (p : FPath) (content : Str) : FS := if fs.isFile p then fs.put p (.file content) else fs

/-- `os.RemoveAll`. Called at mainPackage.go:22, 74, dir.go:51, 87 and cache.go:130. -/
def FS.removeAll (fs : FS) (p : FPath) : Except Errno FS :=
  match fs.stat p with
  | .ok _ => .ok (fs.del p)
  | .error .noent => .ok fs
  | .error e => .error e

/-- `os.Rename`. Called at dir.go:57. -/
def FS.rename (fs : FS) (a b : FPath) : Except Errno FS :=
  match fs.stat a with
  | .error e => .error e
  | .ok na => match fs.parent b with
    | .error e => .error e
    | .ok _ => match fs.look b, na with
      | some .dir, _ => .error .exist
      | some (.file _), .dir => .error .notdir
      | _, _ => if a.isPrefixOf b then .error .inval else .ok (fs.move a b)

/-- `os.ReadFile`. Called at mainPackage.go:40, 54 and cache.go:89, 96. -/
def FS.readFile (fs : FS) (p : FPath) : Except Errno Str :=
  match fs.stat p with
  | .error e => .error e
  | .ok .dir => .error .isdir
  | .ok (.file c) => .ok c

/-- `os.ReadDir`. Called at mainPackage.go:32. -/
def FS.readDir (fs : FS) (p : FPath) : Except Errno (List Str) :=
  match fs.stat p with
  | .error e => .error e
  | .ok (.file _) => .error .notdir
  | .ok .dir => .ok (fs.children p)

/-! ### Programs -/

/-- What happens to one call: nothing special, an error from outside, or the death of the process. The numbers say how much of a
write (or of a chain of directories) and which entries of a removal are done before. The calls are those of dir.go:22-92,
mainPackage.go:17-80 and cache.go:20-136. -/
inductive Fault where
  | none
  | fail (amount : Nat) (keep : FPath → Bool)
  | crash (amount : Nat) (keep : FPath → Bool)

/-- The fate of the i-th call. The calls are those of dir.go:22-92, mainPackage.go:17-80 and cache.go:20-136. -/
abbrev Faults := Nat → Fault

/-- No failures from outside. The calls are those of dir.go:22-92, mainPackage.go:17-80 and cache.go:20-136. -/
def noFaults : Faults := fun _ => .none

/-- An error value. The calls are those of dir.go:22-92, mainPackage.go:17-80 and cache.go:20-136. -/
inductive Err where
  | errno (e : Errno)
  | msg (text : Str)
  deriving Repr, DecidableEq

/-- How a program ends. The calls are those of dir.go:22-92, mainPackage.go:17-80 and cache.go:20-136. -/
inductive Exit (α : Type) where
  | ok (a : α)
  | err (e : Err)
  | panic
  | crash
  deriving Repr, DecidableEq

/-- The state of a run: the file tree, the number of calls so far, the working directory and the process's own state. The calls are
those of dir.go:22-92, mainPackage.go:17-80 and cache.go:20-136. -/
structure World (σ : Type) where
  fs : FS
  clock : Nat := 0
  cwd : FPath := []
  st : σ

/-- Programs with process state `σ`. The calls are those of dir.go:22-92, mainPackage.go:17-80 and cache.go:20-136. -/
def Run (σ α : Type) : Type := Faults → World σ → World σ × Exit α

namespace Run

/-- The `return err` of dir.go:22-92, mainPackage.go:17-80 and cache.go:20-136. -/
def pure {σ α : Type} (a : α) : Run σ α := fun _ w => (w, .ok a)

/-- The `return err` of dir.go:22-92, mainPackage.go:17-80 and cache.go:20-136. -/
def bind {σ α β : Type} (m : Run σ α) (f : α → Run σ β) : Run σ β := fun φ w =>
  match m φ w with
  | (w', .ok a) => f a φ w'
  | (w', .err e) => (w', .err e)
  | (w', .panic) => (w', .panic)
  | (w', .crash) => (w', .crash)

instance {σ : Type} : Monad (Run σ) where
  pure := Run.pure
  bind := Run.bind

/-- Return an error. The `return err` of dir.go:22-92, mainPackage.go:17-80 and cache.go:20-136. -/
def throw {σ α : Type} (e : Err) : Run σ α := fun _ w => (w, .err e)

/-- A Go panic. For example inputs/gin/createRoutes.go:19 with a nil router. -/
def panic {σ α : Type} : Run σ α := fun _ w => (w, .panic)

/-- The error of a call as a value. As at dir.go:49-50 and teardown.go:8-25. -/
def try_ {σ α : Type} (m : Run σ α) : Run σ (Except Err α) := fun φ w =>
  match m φ w with
  | (w', .ok a) => (w', .ok (.ok a))
  | (w', .err e) => (w', .ok (.error e))
  | (w', .panic) => (w', .panic)
  | (w', .crash) => (w', .crash)

/-- The process state. The `*Service` that parse.go:9-109 passes on. -/
def get {σ : Type} : Run σ σ := fun _ w => (w, .ok w.st)

/-- Change the process state. The `*Service` that parse.go:9-109 passes on. -/
def modify {σ : Type} (f : σ → σ) : Run σ Unit := fun _ w => ({ w with st := f w.st }, .ok ())

/-- One call. `part` is what a call that would have succeeded has done when it is cut short. The calls are those of dir.go:22-92,
mainPackage.go:17-80 and cache.go:20-136. -/
def call {σ α : Type} (p : Str) (run : FS → FPath → Except Errno (FS × α)) (part : Nat → (FPath → Bool) → FS → FPath → FS) : Run σ α :=
  fun φ w =>
    let w1 := { w with clock := w.clock + 1 }
    match resolve w.cwd p with
    | none => (w1, .err (.errno .noent))
    | some q => match φ w.clock, run w.fs q with
      | .none, .ok (fs', a) => ({ w1 with fs := fs' }, .ok a)
      | .none, .error e => (w1, .err (.errno e))
      | .fail n keep, .ok _ => ({ w1 with fs := part n keep w.fs q }, .err (.errno .io))
      | .fail _ _, .error _ => (w1, .err (.errno .io))
      | .crash n keep, .ok _ => ({ w1 with fs := part n keep w.fs q }, .crash)
      | .crash _ _, .error _ => (w1, .crash)

end Run

/-- Calls that are all or nothing. The calls are those of dir.go:22-92, mainPackage.go:17-80 and cache.go:20-136. -/
def atomicPart (_ : Nat) (_ : FPath → Bool) (fs : FS) (_ : FPath) : FS := fs

/-- A call that only reads. The calls are those of dir.go:22-92, mainPackage.go:17-80 and cache.go:20-136. -/
def reading {α : Type} (f : FS → FPath → Except Errno α) (fs : FS) (q : FPath) : Except Errno (FS × α) :=
  match f fs q with
  | .error e => .error e
  | .ok a => .ok (fs, a)

/-- A call that only writes. The calls are those of dir.go:22-92, mainPackage.go:17-80 and cache.go:20-136. -/
def writing (f : FS → FPath → Except Errno FS) (fs : FS) (q : FPath) : Except Errno (FS × Unit) :=
  match f fs q with
  | .error e => .error e
  | .ok fs' => .ok (fs', ())

/-- `os.Stat`. Called at mainPackage.go:21, 73, dir.go:49, 68 and cache.go:30, 73, 126. -/
def osStat {σ : Type} (p : Str) : Run σ FNode := Run.call p (reading FS.stat) atomicPart
/-- `os.Mkdir`. Called at mainPackage.go:27, dir.go:37 and outputs/azureFunctions/generate.go:44. -/
def osMkdir {σ : Type} (p : Str) : Run σ Unit := Run.call p (writing FS.mkdir) atomicPart
/-- `os.MkdirAll`. Called at dir.go:23. -/
def osMkdirAll {σ : Type} (p : Str) : Run σ Unit :=
  Run.call p (writing FS.mkdirAll) (fun n _ fs q => fs.mkdirs ((ancestors q).take n))
/-- `os.Create`. Called at dir.go:72 and cache.go:37. -/
def osCreate {σ : Type} (p : Str) : Run σ Unit := Run.call p (writing FS.create) atomicPart
/-- `File.Write` to a file that was just created: its whole content. Called at dir.go:77 and cache.go:52. -/
def osWrite {σ : Type} (p : Str) (content : Str) : Run σ Unit :=
  Run.call p (fun fs q => .ok (fs.write q content, ())) (fun n _ fs q => fs.write q (content.take n))
/-- `os.WriteFile`. Called at mainPackage.go:48, outputs/json/generate.go:43, outputs/openapi/generate.go:317 and
outputs/azureFunctions/generate.go:75. -/
def osWriteFile {σ : Type} (p : Str) (content : Str) : Run σ Unit := Run.bind (osCreate p) (fun _ => osWrite p content)
/-- `os.RemoveAll`; a path that ends in "." is refused, the empty path is ignored. Simplification: only the path "." itself is
considered, since the paths that reach it are cleaned (a custom cache path ending in "/." is treated as the directory). Called at
mainPackage.go:22, 74, dir.go:51, 87 and cache.go:130. -/
def osRemoveAll {σ : Type} (p : Str) : Run σ Unit :=
  if p = [] then Run.pure ()
  else if p = c!"." then Run.throw (.errno .inval)
  else Run.call p (writing FS.removeAll) (fun _ keep fs q => fs.delPart keep q)
/-- `os.Rename`. Called at dir.go:57. -/
def osRename {σ : Type} (a b : Str) : Run σ Unit := fun φ w =>
  match resolve w.cwd b with
  | none => ({ w with clock := w.clock + 1 }, .err (.errno .noent))
  | some bp => Run.call a (writing (fun fs q => fs.rename q bp)) atomicPart φ w
/-- `os.ReadFile`, and opening a file and reading it. Called at mainPackage.go:40, 54 and cache.go:89, 96. -/
def osReadFile {σ : Type} (p : Str) : Run σ Str := Run.call p (reading FS.readFile) atomicPart
/-- `os.ReadDir`. Called at mainPackage.go:32. -/
def osReadDir {σ : Type} (p : Str) : Run σ (List Str) := Run.call p (reading FS.readDir) atomicPart

end Astra
