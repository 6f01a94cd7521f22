/-
Model of astTraversal/type.go, astTraversal/docs.go, the documentation lookup of astTraversal/packageNode.go and
`addComponent` of inputs/gin/parseFunction.go.
-/
import Verif.Model.Result
import Verif.Model.Tags
import Verif.Model.SafePushing

namespace Astra

/-- go/types `BasicKind`, as far as the switch at type.go:79-117 distinguishes it. `types.Rune` is int32 and
`types.Byte` is uint8. -/
inductive BasicKind where
  | string | int | float | bool | sizedInt | uint | other
  deriving Repr, DecidableEq

/-- What type.go reads of a struct field (`types.Var` and the tag). `pos` is the `token.Pos`. -/
structure StructField where
  name : Str
  exported : Bool := true
  embedded : Bool := false
  tag : Str := []
  pos : Nat := 0
  deriving Repr, DecidableEq

/-- go/types `Type`, as far as type.go distinguishes it. A named type is a reference (package path, name, type arguments; the last
also tells types of one name apart that are declared in different functions); its underlying type is given by the environment. `Obj().Pkg()` is nil for the predeclared `error`. All other kinds
(channels, functions, tuples, type parameters, aliases) are `other`. -/
inductive GoType where
  | basic (kind : BasicKind) (name : Str)
  | named (pkg : Option Str) (name : Str) (args : Str)
  | pointer (elem : GoType)
  | slice (elem : GoType)
  | array (len : Int) (elem : GoType)
  | map (key value : GoType)
  | struct (fields : List (StructField × GoType))
  | interface
  | other
  deriving Repr

/-- go/ast: a constant's value expression; only basic literals are looked at (type.go:76). -/
inductive ConstExpr where
  | lit (text : Str)
  | other
  deriving Repr, DecidableEq

/-- go/ast `ValueSpec` in a const declaration. `typeIdent` is the type when it is written as an identifier. `truth` is
what the Go compiler makes of the spec: for each declared constant the name of its type and its value. The modelled code
never reads `truth`; it is there to state what should be found. Read at astTraversal/type.go:64-76. -/
structure ConstSpec where
  typeIdent : Option Str := none
  values : List ConstExpr := []
  truth : List (Str × EnumVal) := []
  deriving Repr, DecidableEq

/-- go/ast `TypeSpec`: name and the text of its own comment, if any. Read at astTraversal/packageNode.go:226-239. -/
structure TypeSpec where
  name : Str
  doc : Option Str := none
  deriving Repr, DecidableEq

/-- go/ast: the top-level declarations of a file. Read at astTraversal/type.go:55-66 and astTraversal/packageNode.go:222-226. -/
inductive Decl where
  | const (specs : List ConstSpec)
  | type (doc : Option Str) (specs : List TypeSpec)
  | other
  deriving Repr, DecidableEq

/-- What `PackageNode.ASTAtPos` finds at a position (packageNode.go:167-199): a struct field or parameter (`ast.Field`)
with its names and comment text, or something else or nothing. -/
inductive NodeAt where
  | field (names : List Str) (doc : Str)
  | other
  deriving Repr, DecidableEq

/-- What the traversal reads of the Go program. The loading of packages and the type checker are oracles:
`loadable p` says whether `Packages.Get` succeeds for package path `p`, `underlying` is `Named.Underlying()`, `files` are
the parsed files of a package, `nodeAt` is `ASTAtPos` and `parseFloat` is `strconv.ParseFloat`. Read at
astTraversal/type.go:33-288. -/
structure TypeEnv where
  loadable : Str → Bool
  underlying : Str → Str → Str → GoType
  files : Str → List (List Decl)
  nodeAt : Str → Nat → NodeAt
  parseFloat : Str → Option Str

/-- docs.go:5-7 `FormatDoc`. -/
def formatDoc (doc : Str) : Str := trimSpace (trimPrefix doc c!"//")

/-- type.go:79-117: the value of a literal according to the kind of the basic type; `none` is skipped. The literals are
constants of that type, so `strconv` range errors cannot occur and are not modelled. -/
def enumLit (Γ : TypeEnv) (kind : BasicKind) (text : Str) : Option EnumVal :=
  match kind with
  | .string => some (.str (trimBy (· = '"') text))
  | .int | .sizedInt => (atoi text).map .int
  | .uint => (parseNat text).map (fun n => .int (Int.ofNat n))
  | .float => (Γ.parseFloat text).map .float
  | .bool => if text ∈ [c!"1", c!"t", c!"T", c!"TRUE", c!"true", c!"True"] then some (.bool true)
    else if text ∈ [c!"0", c!"f", c!"F", c!"FALSE", c!"false", c!"False"] then some (.bool false) else none
  | .other => none

/-- type.go:66-122: the values of one spec. -/
def enumSpec (Γ : TypeEnv) (kind : BasicKind) (name : Str) (spec : ConstSpec) : List EnumVal :=
  if spec.typeIdent = some name then
    spec.values.filterMap (fun v => match v with
      | .lit text => enumLit Γ kind text
      | .other => none)
  else []

/-- type.go:57-64: the const specs of a declaration. -/
def constSpecs : Decl → List ConstSpec
  | .const specs => specs
  | _ => []

/-- type.go:53-127: the enum values of a named basic type: files, declarations and specs in order. -/
def enumValuesOf (Γ : TypeEnv) (pkg : Str) (kind : BasicKind) (name : Str) : List EnumVal :=
  (((Γ.files pkg).flatten.map constSpecs).flatten.map (enumSpec Γ kind name)).flatten

/-- packageNode.go:226-239: the entry a type spec makes in the doc map. -/
def typeDocEntry (declDoc : Option Str) (m : List (Str × Str)) (spec : TypeSpec) : List (Str × Str) :=
  match spec.doc, declDoc with
  | none, none => m
  | some d, _ => mset m spec.name d
  | none, some d => mset m spec.name d

/-- packageNode.go:217-240: one declaration. -/
def typeDocDecl (m : List (Str × Str)) : Decl → List (Str × Str)
  | .type doc specs => specs.foldl (typeDocEntry doc) m
  | _ => m

/-- packageNode.go:210-244 `populateTypeDocMap`. The map is computed once per package and kept; the files of a package do
not change, so the model recomputes it. -/
def typeDocMap (Γ : TypeEnv) (pkg : Str) : List (Str × Str) := (Γ.files pkg).flatten.foldl typeDocDecl []

/-- type.go:272-288 `Doc` of a named type in a package that is loaded (type.go:134 has loaded it). -/
def typeDoc (Γ : TypeEnv) (pkg name : Str) : Str :=
  match mget (typeDocMap Γ pkg) name with
  | some d => formatDoc d
  | none => []

/-- The state of a traversal is the list of components of the service. The outcome is `none` when the recursion depth
given by the fuel is exceeded; otherwise the components and the result. astTraversal/type.go:33. -/
abbrev TOut (α : Type) := Option (List Field × Res α)

/-- inputs/gin/parseFunction.go:710-719 `addComponent`. -/
def pushComponent (components : List Field) (r : Result) : List Field :=
  if (parseResultToField r).package ≠ [] then addComponent components [parseResultToField r] else components

/-- type.go:261-269: the end of `Result`. -/
def finishResult (name : Str) (r : Result) : Res Result :=
  if r.type ≠ [] then .ok (if name ≠ [] then { r with name := name } else r) else .err c!"invalid node type"

/-- type.go:225-240: the documentation of a struct field, looked up in the package of the field's type. -/
def fieldDoc (Γ : TypeEnv) (r : Result) (pos : Nat) : Res Str :=
  match r.package with
  | none => .ok r.doc
  | some p =>
    if Γ.loadable p = false then .err c!"package not loaded"
    else match Γ.nodeAt p pos with
      | .field [] _ => .panic c!"index out of range"
      | .field _ doc => .ok (formatDoc doc)
      | .other => .ok r.doc

mutual
/-- type.go:33-270 `TypeTraverser.Result`, with the recursive call for the underlying type of a named type given as
`rec`. Arguments: components so far, `t.Package`, `t.name`, `t.Node`. `Traverser.shouldAddComponent` is `adding`. -/
def typeStep (Γ : TypeEnv) (adding : Bool) (rec : List Field → Option Str → Str → GoType → TOut Result)
    (st : List Field) (pkg : Option Str) (name : Str) : GoType → TOut Result
  | .basic kind tn =>
    if name = [] then some (st, finishResult name { type := tn, package := pkg })
    else match pkg with
      | none => some (st, .panic c!"nil pointer dereference")
      | some p =>
        if Γ.loadable p = false then some (st, .err c!"package not loaded")
        else some (st, finishResult name { type := tn, package := pkg, enumValues := enumValuesOf Γ p kind name })
  | .named none tn _ => some (st, finishResult name { type := tn, package := none })
  | .named (some p) tn args =>
    if Γ.loadable p = false then some (st, .err c!"package not loaded")
    else if adding then
      match rec st (some p) tn (Γ.underlying p tn args) with
      | none => none
      | some (st', .err e) => some (st', .err e)
      | some (st', .panic m) => some (st', .panic m)
      | some (st', .ok r) =>
        some (pushComponent st' { r with doc := typeDoc Γ p tn }, finishResult name { type := tn, package := some p })
    else some (st, finishResult name { type := tn, package := some p })
  | .pointer e => typeStep Γ adding rec st pkg [] e
  | .slice e =>
    match typeStep Γ adding rec st pkg [] e with
    | some (st', .ok r) => some (st', finishResult name { type := c!"slice", sliceType := r.type, package := r.package })
    | x => x
  | .array len e =>
    match typeStep Γ adding rec st pkg [] e with
    | some (st', .ok r) => some (st', finishResult name { type := c!"array", arrayType := r.type, arrayLength := len, package := r.package })
    | x => x
  | .map k v =>
    match typeStep Γ adding rec st pkg [] k with
    | some (st', .ok kr) =>
      match typeStep Γ adding rec st' pkg [] v with
      | some (st'', .ok vr) =>
        some (st'', finishResult name { type := c!"map", mapKeyType := kr.type, mapKeyPackage := kr.package, mapValueType := vr.type, package := vr.package })
      | x => x
    | x => x
  | .struct fields =>
    match structStep Γ adding rec st pkg [] fields with
    | none => none
    | some (st', .err e) => some (st', .err e)
    | some (st', .panic m) => some (st', .panic m)
    | some (st', .ok fs) => some (st', finishResult name { type := c!"struct", structFields := fs, package := pkg })
  | .interface => some (st, finishResult name { type := c!"any", package := pkg })
  | .other => some (st, .err c!"invalid node type")
/-- type.go:206-247: the loop over the struct fields. -/
def structStep (Γ : TypeEnv) (adding : Bool) (rec : List Field → Option Str → Str → GoType → TOut Result)
    (st : List Field) (pkg : Option Str) (acc : List (Str × Result)) :
    List (StructField × GoType) → TOut (List (Str × Result))
  | [] => some (st, .ok acc)
  | (f, t) :: rest =>
    if f.exported = false then structStep Γ adding rec st pkg acc rest
    else match typeStep Γ adding rec st pkg [] t with
      | none => none
      | some (st', .err e) => some (st', .err e)
      | some (st', .panic m) => some (st', .panic m)
      | some (st', .ok r) =>
        match fieldDoc Γ r f.pos with
        | .err e => some (st', .err e)
        | .panic m => some (st', .panic m)
        | .ok doc =>
          structStep Γ adding rec st' pkg (aset acc f.name { r with
            doc := doc
            isEmbedded := f.embedded
            bindingTags := (parseStructTag f.name f.tag).1
            validationTags := (parseStructTag f.name f.tag).2 }) rest
end

/-- type.go:33-270 `TypeTraverser.Result` where at most `fuel` named types are nested. -/
def typeResult (Γ : TypeEnv) (adding : Bool) : Nat → List Field → Option Str → Str → GoType → TOut Result
  | 0 => typeStep Γ adding (fun _ _ _ _ => none)
  | fuel + 1 => typeStep Γ adding (typeResult Γ adding fuel)

end Astra
