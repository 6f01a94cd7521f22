/-
Model of astTraversal/expression.go, declaration.go, callExpression.go, extractStatusCode.go, literal.go, of
`ExtractVarName` and `FindDeclarationForNode` in astTraversal/traverser.go and of the lookups in astTraversal/packageNode.go.
The Go type checker (go/types) and the parser's resolution of identifiers are given as tables.
-/
import Verif.Model.Handler

namespace Astra

/-- A node of the syntax tree of a package. Nodes are compared by pointer in Go; here by package and `token.Pos`. Used at
astTraversal/packageNode.go:167-199. -/
structure NodeId where
  pkg : Str
  pos : Nat
  deriving Repr, DecidableEq

/-- go/token: the kinds of `ast.BasicLit`. Used at astTraversal/expression.go:48-133. -/
inductive LitKind where
  | int | float | imag | char | string
  deriving Repr, DecidableEq

/-- go/ast `Expr`, as far as expression.go, callExpression.go and traverser.go distinguish it. A selector carries the
identifier `Sel`. `composite` is a composite literal with its type, if written. All other expressions are `other`. -/
inductive GoExpr where
  | ident (id : NodeId) (name : Str)
  | lit (id : NodeId) (kind : LitKind) (text : Str)
  | selector (x : GoExpr) (id : NodeId) (sel : Str)
  | star (x : GoExpr)
  | unary (op : Str) (x : GoExpr)
  | composite (type : Option GoExpr)
  | arrayType (id : NodeId)
  | mapType (id : NodeId)
  | call (fn : GoExpr) (args : List GoExpr)
  | other (id : NodeId)

/-- go/constant `Value`. Floating point, complex and unknown values are given by their `String()`. Used at
astTraversal/expression.go:64, 106. -/
inductive ConstVal where
  | bool (b : Bool)
  | str (s : Str)
  | int (i : Int)
  | other (text : Str)
  deriving Repr, DecidableEq

/-- The hexadecimal digit of a number below 16. Used at astTraversal/expression.go:64, 106. -/
def goHexDigit (n : Nat) : Char := (c!"0123456789abcdef").getD n '0'

/-- `strconv.Quote`: one character. Simplification: all characters above DEL count as printable. Used at
astTraversal/expression.go:64, 106. -/
def goQuoteChar (c : Char) : Str :=
  if c = '"' then c!"\\\"" else if c = '\\' then c!"\\\\"
  else if c = '\x07' then c!"\\a" else if c = '\x08' then c!"\\b" else if c = '\x0c' then c!"\\f"
  else if c = '\n' then c!"\\n" else if c = '\r' then c!"\\r" else if c = '\t' then c!"\\t" else if c = '\x0b' then c!"\\v"
  else if c.toNat < 32 ∨ c.toNat = 127 then c!"\\x" ++ [goHexDigit (c.toNat / 16), goHexDigit (c.toNat % 16)]
  else [c]

/-- `strconv.Quote`. Used at astTraversal/expression.go:64, 106. -/
def goQuote (s : Str) : Str := ['"'] ++ s.flatMap goQuoteChar ++ ['"']

/-- go/constant `String()` of a value (used at expression.go:64, 106): strings are quoted and cut to 72 characters. -/
def constString : ConstVal → Str
  | .bool true => c!"true"
  | .bool false => c!"false"
  | .int i => itoa i
  | .other text => text
  | .str s => if (goQuote s).length > 72 then (goQuote s).take 69 ++ c!"..." else goQuote s

/-- go/types `Signature`: `recv` is `Recv().Type().String()`. Used at astTraversal/callExpression.go:95-104 and
inputs/gin/parseFunction.go:117-122. -/
structure Signature where
  recv : Option Str := none
  results : List GoType := []
  deriving Repr

/-- go/types `Object`: its kind. Used at astTraversal/expression.go:63-87, 105-129 and astTraversal/callExpression.go:79-84. -/
inductive ObjKind where
  | const (val : ConstVal)
  | var
  | typeName
  | func (sig : Signature)
  | builtin
  | other
  deriving Repr

/-- go/types `Object`. `pkg` is `Pkg().Path()`; `Pkg()` is nil for predeclared objects. Used at astTraversal/expression.go:63-87,
105-129 and astTraversal/callExpression.go:79-84. -/
structure Obj where
  kind : ObjKind
  name : Str
  type : GoType := .other
  pkg : Option Str := none
  pos : Nat := 0
  deriving Repr

/-- The nodes that declarations are found in: declaration.go:24-47 and function.go:18-29. -/
inductive DeclNode where
  | valueSpec (names : List Str) (values : List GoExpr)
  | assign (lhs rhs : List GoExpr)
  | func (f : FuncId)
  | other

/-- A syntax tree as `ast.Inspect` walks it: each node with its position. Used at astTraversal/packageNode.go:167-199. -/
inductive Syn where
  | node (pos : Nat) (what : DeclNode) (children : List Syn)

/-- A file of a loaded package (`Syntax`): its name, the number of its `FileNode` (packageManager.go:82-89 adds one for
every file, so the loop at packageNode.go:78-83 finds it), `Scope.Lookup` (the inner option is none if `Decl` is not a
node) and its tree. -/
structure SynFile where
  name : Str
  id : FileId
  scope : Str → Option (Option DeclNode) := fun _ => none
  tree : Syn := .node 0 .other []

/-- A loaded package: `TypesInfo.ObjectOf` and `TypesInfo.TypeOf` for the nodes of the package by position,
`TypesInfo.Defs` in the order in which a `range` over the map happens to visit it, `Fset.Position(pos).Filename`,
`Types.Scope().Lookup` with the position of the object, and the files. Used at astTraversal/packageNode.go:55-199. -/
structure PkgInfo where
  objectOf : Nat → Option Obj := fun _ => none
  typeOf : Nat → Option GoType := fun _ => none
  defs : List (Str × Option Obj) := []
  fileOf : Nat → Str := fun _ => []
  scope : Str → Option Nat := fun _ => none
  syn : List SynFile := []

/-- What the analysis of expressions reads of the program. `load` is `FindOrAdd` with `Packages.Get` for a package path;
`pkgOf` is the package of a file and `imports` is `FindImport` with the path of the import; `astObj` is the `Obj` of an
identifier that the parser has set, with its `Decl` if it is a node. astTraversal/packageManager.go:65-130,
astTraversal/fileNode.go:22-30, astTraversal/traverser.go:84-135. -/
structure ExprEnv where
  load : Str → Except Str PkgInfo
  pkgOf : FileId → Str
  imports : FileId → Str → Option Str := fun _ _ => none
  astObj : NodeId → Option (Option DeclNode) := fun _ => none

/-- `TypesInfo.ObjectOf`: a package knows only its own identifiers. Used at astTraversal/packageNode.go:55-199. -/
def objectOf (p : Str) (I : PkgInfo) (id : NodeId) : Option Obj := if id.pkg = p then I.objectOf id.pos else none

/-- packageNode.go:141-152 `FindObjectForIdent`. -/
def findObject (p : Str) (I : PkgInfo) (id : NodeId) : Res Obj :=
  match objectOf p I id with
  | some o => .ok o
  | none => .err c!"object not found"

/-- packageNode.go:118-139 `FindObjectForIdentFuzzy`. -/
def findObjectFuzzy (p : Str) (I : PkgInfo) (id : NodeId) (name : Str) : Res Obj :=
  match objectOf p I id with
  | some o => .ok o
  | none =>
    match I.defs.find? (fun d => d.1 = name) with
    | some (_, some o) => .ok o
    | _ => .err c!"object not found"

/-- packageNode.go:92-103 `FindTypeForExpr`. -/
def findType (p : Str) (I : PkgInfo) (id : NodeId) : Res GoType :=
  match (if id.pkg = p then I.typeOf id.pos else none) with
  | some t => .ok t
  | none => .err c!"type not found"

mutual
/-- packageNode.go:176-188: the walk; the last node visited with the position. The children of such a node are not
visited. -/
def synAt (pos : Nat) (found : Option DeclNode) : Syn → Option DeclNode
  | .node p what children => if p = pos then some what else synsAt pos found children
/-- The walk over several trees. Used at astTraversal/packageNode.go:167-199. -/
def synsAt (pos : Nat) (found : Option DeclNode) : List Syn → Option DeclNode
  | [] => found
  | t :: ts => synsAt pos (synAt pos found t) ts
end

/-- packageNode.go:167-199 `ASTAtPos`. -/
def astAtPos (I : PkgInfo) (pos : Nat) : Res DeclNode :=
  match I.syn.find? (fun f => I.fileOf pos = f.name) with
  | none => .err c!"node not found"
  | some f =>
    match synAt pos none f.tree with
    | some d => .ok d
    | none => .err c!"node not found"

/-- What traverser.go:45-82 `ExtractVarName` returns: the path of the package, the last name and the names before it. -/
structure VarName where
  package : Option Str := none
  type : Str := []
  names : List Str := []
  deriving Repr, DecidableEq

/-- traverser.go:56-78: the loop; `x` is `nodeType.X`. -/
def varNameLoop (E : ExprEnv) (file : FileId) (names : List Str) : GoExpr → VarName
  | .ident _ name =>
    match E.imports file name with
    | some p => { package := some p, type := names.getLastD [], names := names.dropLast }
    | none => { package := some (E.pkgOf file), type := (name :: names).getLastD [], names := (name :: names).dropLast }
  | .selector x _ sel => varNameLoop E file (sel :: names) x
  | _ => {}

/-- traverser.go:45-82 `ExtractVarName`. -/
def extractVarName (E : ExprEnv) (file : FileId) : GoExpr → VarName
  | .ident _ name => { package := some (E.pkgOf file), type := name }
  | .selector x _ sel => varNameLoop E file [sel] x
  | _ => {}

/-- declaration.go:26-32, 36-42: the first index with the name, 0 if there is none. -/
def nameIndex (name : Str) (names : List Str) : Nat := (names.findIdx? (fun n => name = n)).getD 0

/-- declaration.go:23-48 `Value`. An identifier is its own variable name (traverser.go:49-53). -/
def declValue (E : ExprEnv) (file : FileId) (name : Str) : DeclNode → Res GoExpr
  | .valueSpec names values =>
    match values[nameIndex name names]? with
    | some e => .ok e
    | none => .panic c!"index out of range"
  | .assign lhs rhs =>
    match rhs[nameIndex name (lhs.map (fun e => (extractVarName E file e).type))]? with
    | some e => .ok e
    | none => .panic c!"index out of range"
  | _ => .err c!"invalid node type"

/-- The package of the active file. Simplification: files are only added to loaded packages (packageManager.go:80-89), so
that `Package == nil` does not happen; if loading fails there is an error here. -/
def ownPkg (E : ExprEnv) (file : FileId) : Res PkgInfo :=
  match E.load (E.pkgOf file) with
  | .ok I => .ok I
  | .error e => .err e

/-- expression.go:63-87, 105-129: the value of an object found in package `I`; `rec` evaluates an expression. -/
def objValue (E : ExprEnv) (file : FileId) (rec : GoExpr → Res Str) (I : PkgInfo) (name : Str) (o : Obj) : Res Str :=
  match o.kind with
  | .const v => .ok (constString v)
  | _ => (astAtPos I o.pos).bind (fun d => (declValue E file name d).bind rec)

/-- expression.go:48-133 `Value`, where the recursion is at most `fuel` deep. Deeper recursion is a stack overflow. -/
def exprValue (E : ExprEnv) (file : FileId) : Nat → GoExpr → Res Str
  | 0, _ => .panic c!"stack overflow"
  | _ + 1, .lit _ kind text => .ok (if kind = .string then trimBy (· = '"') text else text)
  | fuel + 1, .ident id name =>
    (ownPkg E file).bind (fun I => (findObject (E.pkgOf file) I id).bind (fun o => objValue E file (exprValue E file fuel) I name o))
  | fuel + 1, .selector _ id sel =>
    (ownPkg E file).bind (fun I => (findObject (E.pkgOf file) I id).bind (fun o =>
      match o.pkg with
      | none => .panic c!"nil pointer dereference"
      | some p =>
        match E.load p with
        | .error e => .err e
        | .ok J => (findObjectFuzzy p J id sel).bind (fun o' => objValue E file (exprValue E file fuel) J sel o')))
  | _ + 1, _ => .err c!"value not retrievable"

/-- callExpression.go:60-87 `Type`: the object of the called function. -/
def calleeObj (E : ExprEnv) (file : FileId) (fn : GoExpr) : Res (Obj × Signature) :=
  let found : Res Obj := match fn with
    | .ident id _ => (ownPkg E file).bind (fun I => findObject (E.pkgOf file) I id)
    | .selector _ id _ => (ownPkg E file).bind (fun I => findObject (E.pkgOf file) I id)
    | _ => .err c!"invalid node type"
  found.bind (fun o => match o.kind with
    | .func sig => .ok (o, sig)
    | .builtin => .err c!"built-in function"
    | _ => .err c!"invalid node type")

/-- callExpression.go:89-105 `ReturnType`. -/
def returnType (E : ExprEnv) (file : FileId) (fn : GoExpr) (num : Nat) : Res GoType :=
  (calleeObj E file fn).bind (fun (_, sig) =>
    match sig.results[num]? with
    | some t => .ok t
    | none => .err c!"invalid index")

mutual
/-- expression.go:135-180 `Type` with `ReturnNum`. -/
def exprType (E : ExprEnv) (file : FileId) (num : Nat) : GoExpr → Res GoType
  | .star x => exprType E file 0 x
  | .unary _ x => exprType E file 0 x
  | .ident id name =>
    (ownPkg E file).bind (fun I => (findObjectFuzzy (E.pkgOf file) I id name).bind (fun o => .ok o.type))
  | .selector _ id _ => (ownPkg E file).bind (fun I => (findObject (E.pkgOf file) I id).bind (fun o => .ok o.type))
  | .arrayType id => (ownPkg E file).bind (fun I => findType (E.pkgOf file) I id)
  | .mapType id => (ownPkg E file).bind (fun I => findType (E.pkgOf file) I id)
  | .composite none => .err c!"unsupported expression type"
  | .composite (some t) => exprType E file 0 t
  | .lit id _ _ => (ownPkg E file).bind (fun I => findType (E.pkgOf file) I id)
  | .call (.ident id name) args =>
    if name = c!"new" ∨ name = c!"make" then firstType E file args
    else if name = c!"len" then .ok (.basic .int c!"int")
    else returnType E file (.ident id name) num
  | .call fn _ => returnType E file fn num
  | .other _ => .err c!"unsupported expression type"
/-- expression.go:38-39: `Args[0]`. -/
def firstType (E : ExprEnv) (file : FileId) : List GoExpr → Res GoType
  | [] => .panic c!"index out of range"
  | e :: _ => exprType E file 0 e
end

/-- packageNode.go:55-90 `FindASTForType`. -/
def findASTForType (I : PkgInfo) (name : Str) : Res (DeclNode × FileId) :=
  match I.scope name with
  | none => .err c!"type not found"
  | some pos =>
    match I.syn.find? (fun f => I.fileOf pos = f.name) with
    | none => .err c!"type not found"
    | some f =>
      match f.scope name with
      | some (some d) => .ok (d, f.id)
      | _ => .err c!"type not found"

/-- traverser.go:84-135 `FindDeclarationForNode`: the declaration, and the active file afterwards. -/
def findDeclaration (E : ExprEnv) (file : FileId) : GoExpr → Res DeclNode × FileId
  | .unary _ x => findDeclaration E file x
  | .ident id name =>
    match E.astObj id with
    | some (some d) => (.ok d, file)
    | some none => (.err c!"declaration not found", file)
    | none => inPackage (E.pkgOf file) name
  | .selector (.ident _ x) _ sel =>
    match E.imports file x with
    | some p => inPackage p sel
    | none => (.err c!"not implemented yet", file)
  | _ => (.err c!"unsupported type", file)
where
  /-- traverser.go:97-108, 117-128. -/
  inPackage (p name : Str) : Res DeclNode × FileId :=
    match E.load p with
    | .error e => (.err e, file)
    | .ok I =>
      match findASTForType I name with
      | .ok (d, f) => (.ok d, f)
      | .err e => (.err e, file)
      | .panic m => (.panic m, file)

/-- callExpression.go:27-39 `Function` and function.go:15-37: the function, and the active file afterwards. -/
def callTarget (E : ExprEnv) (file : FileId) (fn : GoExpr) : Res FuncId × FileId :=
  match findDeclaration E file fn with
  | (.ok (.func f), file') => (.ok f, file')
  | (.ok _, file') => (.err c!"invalid node type", file')
  | (.err e, file') => (.err e, file')
  | (.panic m, file') => (.panic m, file')

/-- What the traversal finds out about an argument (contextFuncBuilder.go:30-66, callExpression.go:41-54). -/
def argView (E : ExprEnv) (file : FileId) (fuel : Nat) (e : GoExpr) : ArgView :=
  { ident := match e with | .ident _ name => some name | _ => none
    value := exprValue E file fuel e
    type := exprType E file 0 e }

/-- parseFunction.go:117-122: the receiver type of the methods of the context. -/
def contextRecv : Str := c!"*github.com/gin-gonic/gin.Context"

/-- parseFunction.go:86-123: what the traversal finds out about a call. -/
def viewOf (E : ExprEnv) (file : FileId) (fuel : Nat) (fn : GoExpr) (args : List GoExpr) : CallView :=
  { args := args.map (argView E file fuel)
    func := (calleeObj E file fn).bind (fun (o, sig) => .ok (decide (sig.recv = some contextRecv), o.name))
    target := (callTarget E file fn).1
    targetFile := (callTarget E file fn).2 }

end Astra
