/-
Model of the schema naming of outputs/openapi/components.go.
-/
import Verif.Model.BindingTags

namespace Astra

/-- outputs/openapi/components.go:15-25 `collisionSafeKey`. -/
def collisionSafeKey (b : BTag) (name pkg : Str) : Str :=
  join c!"." (if b ≠ .none then [pkg, b.toStr, name] else [pkg, name])

/-- outputs/openapi/components.go:28-30 `getPackageName`. -/
def getPackageName (pkg : Str) : Str := afterLast '/' pkg

/-- outputs/openapi/components.go:37-48: the components grouped by package name. The map is an association list in order
of first occurrence; the code ranges over it in an arbitrary order, see `makeNames`. -/
def groupByPackage (components : List Field) : List (Str × List Field) :=
  components.foldl (fun m c =>
    aset m (getPackageName c.package) ((aget m (getPackageName c.package)).getD [] ++ [c])) []

/-- outputs/openapi/components.go:66-72: the index of the first difference of two (reversed) paths, within both. -/
def firstMismatch : Nat → List Str → List Str → Option Nat
  | k, a :: as, b :: bs => if a ≠ b then some k else firstMismatch (k + 1) as bs
  | _, _, _ => none

/-- outputs/openapi/components.go:54-75: the loop over `j` for one `i`; `rest` are the packages `j = i+1 ... len-i-1`.
The loop stops at the first package that differs; `sameUntil` changes only if a differing segment is found. -/
def sameUntilInner (pkg : Str) : List Str → Nat → Nat
  | [], s => s
  | q :: rest, s =>
    if pkg ≠ q then (firstMismatch 0 (split '/' pkg).reverse (split '/' q).reverse).getD s
    else sameUntilInner pkg rest s

/-- outputs/openapi/components.go:53-76: one iteration of the loop over `i`. -/
def sameUntilStep (pkgs : List Str) (s : Nat) (i : Nat) : Nat :=
  match pkgs[i]? with
  | some p => sameUntilInner p ((pkgs.take (pkgs.length - i)).drop (i + 1)) s
  | none => s

/-- outputs/openapi/components.go:52-76: `sameUntil` for the packages of one group. -/
def sameUntil (pkgs : List Str) : Nat := (List.range (pkgs.length - 1)).foldl (sameUntilStep pkgs) 0

/-- outputs/openapi/components.go:83-109: the schema name written for one component and binding kind. The slice expression
of line 92 panics when the package path has fewer than `sameUntil + 1` segments. -/
def safeName (s : Nat) (unique : Bool) (b : BTag) (c : Field) : Res Str :=
  if s > 0 then
    let parts := split '/' c.package
    if parts.length < s + 1 then .panic c!"slice bounds out of range"
    else
      let parts' := parts.drop (parts.length - (s + 1))
      if unique then .ok (join c!"." parts' ++ c!"." ++ b.toStr ++ c!"." ++ c.name)
      else .ok (join c!"." parts' ++ c!"." ++ c.name)
  else if unique then .ok (getPackageName c.package ++ c!"." ++ b.toStr ++ c!"." ++ c.name)
  else .ok (getPackageName c.package ++ c!"." ++ c.name)

/-- outputs/openapi/components.go:81-110: the loop over the binding kinds of one component. -/
def nameTags (s : Nat) (unique : Bool) (c : Field) : List BTag → List (Str × Str) → Res (List (Str × Str))
  | [], t => .ok t
  | b :: bs, t =>
    match safeName s unique b c with
    | .ok n => nameTags s unique c bs (mset t (collisionSafeKey b c.name c.package) n)
    | .err e => .err e
    | .panic m => .panic m

/-- outputs/openapi/components.go:79-111: the loop over the components of one group. -/
def nameGroup (s : Nat) : List Field → List (Str × Str) → Res (List (Str × Str))
  | [], t => .ok t
  | c :: cs, t =>
    match nameTags s (extractBindingTags c.structFields).2 c (extractBindingTags c.structFields).1 t with
    | .ok t' => nameGroup s cs t'
    | .err e => .err e
    | .panic m => .panic m

/-- outputs/openapi/components.go:50-112: the loop over the groups, in the order given. -/
def nameGroups : List (Str × List Field) → List (Str × Str) → Res (List (Str × Str))
  | [], t => .ok t
  | (_, cs) :: gs, t =>
    match nameGroup (sameUntil (cs.map (·.package))) cs t with
    | .ok t' => nameGroups gs t'
    | .err e => .err e
    | .panic m => .panic m

/-- outputs/openapi/components.go:12, 35-113 `makeCollisionSafeNamesFromComponents`, as a function from the previous
contents of the global `collisionSafeNames` to the new ones. `order` is the order in which the runtime ranges over the
groups: a permutation. -/
def makeNames (order : List (Str × List Field) → List (Str × List Field)) (components : List Field)
    (table : List (Str × Str)) : Res (List (Str × Str)) :=
  nameGroups (order (groupByPackage components)) table

/-- outputs/openapi/components.go:126-133 `makeComponentRefName`; `none` is `bound = false`. -/
def refName (names : List (Str × Str)) (b : BTag) (name pkg : Str) : Option Str :=
  match mget names (collisionSafeKey b name pkg) with
  | some n => some n
  | none => mget names (collisionSafeKey .none name pkg)

/-- outputs/openapi/components.go:122: the prefix of a reference. -/
def refPrefix : Str := c!"#/components/schemas/"

/-- outputs/openapi/components.go:116-123 `makeComponentRef`. -/
def makeRef (names : List (Str × Str)) (b : BTag) (name pkg : Str) : Option Str :=
  (refName names b name pkg).map (refPrefix ++ ·)

end Astra
