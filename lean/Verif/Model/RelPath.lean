/-
The Go library functions `filepath.Rel` and `path.Base` as far as the code uses them, and the search for the file of a handler.
-/
import Verif.Model.GoPath

namespace Astra

/-- `filepath.Rel`: the loop that skips the elements at which base and target agree. Used at inputs/gin/createRoute.go:24. -/
def dropCommon : List Str → List Str → List Str × List Str
  | x :: xs, y :: ys => if x = y then dropCommon xs ys else (x :: xs, y :: ys)
  | xs, ys => (xs, ys)

/-- `filepath.Rel` on Unix: both paths are cleaned, a `..` stands for each element of the base that is left, and the rest of the target
follows. Simplification: the base is absolute, as every result of `os.Getwd` is (for relative bases that start with `..` the library fails).
Used at inputs/gin/createRoute.go:24. -/
def filepathRel (base targ : Str) : Except Str Str :=
  if pathClean targ = pathClean base then .ok c!"."
  else if isAbs base ≠ isAbs targ then .error (c!"Rel: can't make " ++ targ ++ c!" relative to " ++ base)
  else
    let (b, t) := dropCommon (cleanSegs base) (cleanSegs targ)
    .ok (join c!"/" (b.map (fun _ => c!"..") ++ t))

/-- inputs/gin/createRoute.go:18-28: the file of the handler relative to the working directory `cwd` of the process. -/
def routeFile (cwd : FPath) (file : Str) : Except Str Str := filepathRel ('/' :: join c!"/" cwd) file

/-- `path.Base`: the last element after trailing slashes are removed. Used at inputs/gin/parseRoute.go:58. -/
def pathBase (p : Str) : Str :=
  if p = [] then c!"."
  else match (segments p).reverse.dropWhile (fun s => s = []) with
    | s :: _ => s
    | [] => c!"/"

/-- inputs/gin/parseRoute.go:57-63: the first file of the package whose base name is that of the file of the route. -/
def findFile {F : Type} (files : List (Str × F)) (file : Str) : Option F :=
  (files.find? (fun f => pathBase f.1 = pathBase file)).map (·.2)

end Astra
