/-
The Go library package path: `Clean`, `Join` and `IsAbs`, and the directory entry that a path denotes.
-/
import Verif.Basic

namespace Astra

/-- Absolute location of a directory entry: the names from the root. The paths are those given to the calls of dir.go:22-92,
mainPackage.go:17-80 and cache.go:20-136. -/
abbrev FPath := List Str

/-- The segments of a path. Used by `path.Join`, called at mainPackage.go:20, 39, 47, 53, 63, 72, dir.go:18, 35, 46, 47, 67,
cache.go:27, 70, 123, outputs/json/generate.go:42, outputs/openapi/generate.go:316, outputs/azureFunctions/generate.go:41, 42 and
cli/astra/cmd/generate.go:36. -/
def segments (p : Str) : List Str := split '/' p

/-- `path.IsAbs`. Used by `path.Join`, called at mainPackage.go:20, 39, 47, 53, 63, 72, dir.go:18, 35, 46, 47, 67, cache.go:27, 70,
123, outputs/json/generate.go:42, outputs/openapi/generate.go:316, outputs/azureFunctions/generate.go:41, 42 and
cli/astra/cmd/generate.go:36. -/
def isAbs : Str → Bool
  | '/' :: _ => true
  | _ => false

/-- One segment of `path.Clean`: `acc` are the cleaned segments so far, the last one first. Used by `path.Join`, called at
mainPackage.go:20, 39, 47, 53, 63, 72, dir.go:18, 35, 46, 47, 67, cache.go:27, 70, 123, outputs/json/generate.go:42,
outputs/openapi/generate.go:316, outputs/azureFunctions/generate.go:41, 42 and cli/astra/cmd/generate.go:36. -/
def cleanStep (rooted : Bool) (acc : List Str) (seg : Str) : List Str :=
  if seg = [] ∨ seg = c!"." then acc
  else if seg = c!".." then
    match acc with
    | [] => if rooted then [] else [c!".."]
    | x :: rest => if x = c!".." then c!".." :: x :: rest else rest
  else seg :: acc

/-- The cleaned segments of a path. Used by `path.Join`, called at mainPackage.go:20, 39, 47, 53, 63, 72, dir.go:18, 35, 46, 47, 67,
cache.go:27, 70, 123, outputs/json/generate.go:42, outputs/openapi/generate.go:316, outputs/azureFunctions/generate.go:41, 42 and
cli/astra/cmd/generate.go:36. -/
def cleanSegs (p : Str) : List Str := ((segments p).foldl (cleanStep (isAbs p)) []).reverse

/-- `path.Clean`: the shortest path that is equivalent by purely lexical processing. Used by `path.Join`, called at mainPackage.go:20,
39, 47, 53, 63, 72, dir.go:18, 35, 46, 47, 67, cache.go:27, 70, 123, outputs/json/generate.go:42, outputs/openapi/generate.go:316,
outputs/azureFunctions/generate.go:41, 42 and cli/astra/cmd/generate.go:36. -/
def pathClean (p : Str) : Str :=
  if isAbs p then '/' :: join c!"/" (cleanSegs p)
  else if cleanSegs p = [] then c!"." else join c!"/" (cleanSegs p)

/-- `path.Join`: the non-empty elements joined by slashes and cleaned. Called at mainPackage.go:20, 39, 47, 53, 63, 72, dir.go:18, 35,
46, 47, 67, cache.go:27, 70, 123, outputs/json/generate.go:42, outputs/openapi/generate.go:316,
outputs/azureFunctions/generate.go:41, 42 and cli/astra/cmd/generate.go:36. -/
def pathJoin (elems : List Str) : Str :=
  let es := elems.filter (fun e => !e.isEmpty)
  if es = [] then [] else pathClean (join c!"/" es)

/-- One step of path resolution. Simplification: there are no symbolic links, so `..` is the parent by name. The paths are those given
to the calls of dir.go:22-92, mainPackage.go:17-80 and cache.go:20-136. -/
def walkStep (at_ : FPath) (seg : Str) : FPath :=
  if seg = [] ∨ seg = c!"." then at_ else if seg = c!".." then at_.dropLast else at_ ++ [seg]

/-- Path resolution from a directory. The paths are those given to the calls of dir.go:22-92, mainPackage.go:17-80 and
cache.go:20-136. -/
def walk (base : FPath) (segs : List Str) : FPath := segs.foldl walkStep base

/-- The entry that a path denotes for a process in directory `cwd`; the empty path denotes none. The paths are those given to the
calls of dir.go:22-92, mainPackage.go:17-80 and cache.go:20-136. -/
def resolve (cwd : FPath) (p : Str) : Option FPath :=
  if p = [] then none else some (walk (if isAbs p then [] else cwd) (segments p))

end Astra
