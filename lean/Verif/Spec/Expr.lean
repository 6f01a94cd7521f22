/-
Vocabulary for the analysis of expressions: what literals and constants mean in Go, and the typing rules of Go for the
expressions that appear as arguments.
-/
import Verif.Model.Expr
import Verif.Spec.Handler

namespace Astra.Spec

/-! ### Literals, by the Go specification -/

/-- A digit in a base. -/
def digitIn (base : Nat) (c : Char) : Option Nat :=
  let v := if '0' ≤ c ∧ c ≤ '9' then c.toNat - 48 else if 'a' ≤ c ∧ c ≤ 'f' then c.toNat - 87
    else if 'A' ≤ c ∧ c ≤ 'F' then c.toNat - 55 else 16
  if v < base then some v else none

/-- Digits in a base, most significant first. -/
def digitsIn (base acc : Nat) : Str → Option Nat
  | [] => some acc
  | c :: cs => (digitIn base c).bind (fun d => digitsIn base (acc * base + d) cs)

/-- A non-empty sequence of digits in a base. -/
def numberIn (base : Nat) (s : Str) : Option Nat := if s = [] then none else digitsIn base 0 s

/-- The value of an integer literal of Go: `_` may separate digits, the prefixes `0b`, `0o`, `0x` and the leading `0` give
the base. -/
def intLiteral (text : Str) : Option Nat :=
  match text.filter (· ≠ '_') with
  | '0' :: x :: ds =>
    if x = 'x' ∨ x = 'X' then numberIn 16 ds else if x = 'b' ∨ x = 'B' then numberIn 2 ds
    else if x = 'o' ∨ x = 'O' then numberIn 8 ds else numberIn 8 (x :: ds)
  | ds => numberIn 10 ds

/-- The one-letter escapes of Go. -/
def escapes : List (Char × Char) :=
  [('a', '\x07'), ('b', '\x08'), ('f', '\x0c'), ('n', '\n'), ('r', '\r'), ('t', '\t'), ('v', '\x0b'), ('\\', '\\'), ('"', '"')]

/-- The value of a hexadecimal digit. -/
def hexDigits : List (Char × Nat) :=
  [('0', 0), ('1', 1), ('2', 2), ('3', 3), ('4', 4), ('5', 5), ('6', 6), ('7', 7), ('8', 8), ('9', 9), ('a', 10), ('b', 11), ('c', 12),
    ('d', 13), ('e', 14), ('f', 15), ('A', 10), ('B', 11), ('C', 12), ('D', 13), ('E', 14), ('F', 15)]

/-- The text of an interpreted string literal after the opening quote. Of the escapes by number only `\x` for characters of ASCII is
described here. -/
def interpreted : Str → Option Str
  | [] => none
  | '"' :: rest => if rest = [] then some [] else none
  | '\\' :: 'x' :: a :: b :: rest => (aget hexDigits a).bind (fun m => (aget hexDigits b).bind (fun n =>
      if 16 * m + n < 128 then (interpreted rest).map (Char.ofNat (16 * m + n) :: ·) else none))
  | '\\' :: c :: rest => (aget escapes c).bind (fun d => (interpreted rest).map (d :: ·))
  | c :: rest => if c = '\n' ∨ c = '\\' then none else (interpreted rest).map (c :: ·)

/-- The value of a string literal of Go, raw or interpreted. -/
def stringLiteral : Str → Option Str
  | '`' :: rest => if rest.getLast? = some '`' then some (rest.dropLast.filter (· ≠ '\r')) else none
  | '"' :: rest => interpreted rest
  | _ => none

/-! ### What expressions mean -/

/-- The object an identifier of the file is bound to. -/
def BoundTo (E : ExprEnv) (file : FileId) (id : NodeId) (o : Obj) : Prop :=
  ∃ I, E.load (E.pkgOf file) = .ok I ∧ id.pkg = E.pkgOf file ∧ I.objectOf id.pos = some o

/-- `Means E file e v`: the expression is a literal or a constant, of this or another package, with value `v`. -/
inductive Means (E : ExprEnv) (file : FileId) : GoExpr → ConstVal → Prop
  | intLit {id text n} : intLiteral text = some n → Means E file (.lit id .int text) (.int (Int.ofNat n))
  | strLit {id text s} : stringLiteral text = some s → Means E file (.lit id .string text) (.str s)
  | const {id name o v} : BoundTo E file id o → o.kind = .const v → Means E file (.ident id name) v
  | imported {x id sel o v} : BoundTo E file id o → o.kind = .const v → Means E file (.selector x id sel) v

/-- In the package that the object belongs to, which can be loaded, the name is defined, and all definitions with this name,
at any level, are constants of value `v`. -/
def OnlyDefinition (E : ExprEnv) (o : Obj) (name : Str) (v : ConstVal) : Prop :=
  ∃ p J, o.pkg = some p ∧ E.load p = .ok J ∧ (∃ d ∈ J.defs, d.1 = name) ∧
    ∀ d ∈ J.defs, d.1 = name → ∃ o', d.2 = some o' ∧ o'.kind = .const v

/-! ### Syntax trees -/

/-- A node of the tree has this position. -/
inductive HasPos (pos : Nat) : Syn → Prop
  | here {what children} : HasPos pos (.node pos what children)
  | inside {p what children c} : c ∈ children → HasPos pos c → HasPos pos (.node p what children)

/-- Different children of a node have no position in common, everywhere in the tree. -/
inductive SiblingsApart : Syn → Prop
  | node {p what children} : children.Pairwise (fun a b => ∀ q, HasPos q a → ¬ HasPos q b) → (∀ c ∈ children, SiblingsApart c) →
      SiblingsApart (.node p what children)

/-- The outermost node with the position. -/
inductive Outermost (pos : Nat) : Syn → DeclNode → Prop
  | here {what children} : Outermost pos (.node pos what children) what
  | inside {p what children c d} : p ≠ pos → c ∈ children → Outermost pos c d → Outermost pos (.node p what children) d

/-- The declaration that stands at the position of a variable of the package of the file: files have different names and
their trees are laid out as Go's are. -/
def DeclaredBy (I : PkgInfo) (pos : Nat) (d : DeclNode) : Prop :=
  ∃ f ∈ I.syn, f.name = I.fileOf pos ∧ (∀ g ∈ I.syn, g.name = f.name → g = f) ∧ SiblingsApart f.tree ∧ Outermost pos f.tree d

/-! ### What can be read off an expression -/

/-- A decimal literal without separators. -/
def Decimal (text : Str) (n : Nat) : Prop := text = natToStr n

/-- A string literal in double quotes without escapes. -/
def PlainQuoted (text s : Str) : Prop := text = ['"'] ++ s ++ ['"'] ∧ '"' ∉ s ∧ '\\' ∉ s ∧ '\n' ∉ s

/-- The arguments whose values the analysis reads: decimal literals, plain string literals, integer constants (those of other
packages with a name that is defined once), and variables that stand first in a declaration with such a value. -/
inductive Readable (E : ExprEnv) (file : FileId) : GoExpr → ConstVal → Prop
  | int {id text n} : Decimal text n → Readable E file (.lit id .int text) (.int (Int.ofNat n))
  | str {id text s} : PlainQuoted text s → Readable E file (.lit id .string text) (.str s)
  | const {id name o i} : BoundTo E file id o → o.kind = .const (.int i) → Readable E file (.ident id name) (.int i)
  | imported {x id sel o i} : BoundTo E file id o → o.kind = .const (.int i) → OnlyDefinition E o sel (.int i) →
      Readable E file (.selector x id sel) (.int i)
  | assigned {id name o id' lhs e rhs v I} : E.load (E.pkgOf file) = .ok I → BoundTo E file id o → o.kind = .var →
      DeclaredBy I o.pos (.assign (.ident id' name :: lhs) (e :: rhs)) → Readable E file e v → Readable E file (.ident id name) v
  | declared {id name o names e values v I} : E.load (E.pkgOf file) = .ok I → BoundTo E file id o → o.kind = .var →
      DeclaredBy I o.pos (.valueSpec (name :: names) (e :: values)) → Readable E file e v → Readable E file (.ident id name) v

/-- The text of a value as it should be documented: a number in decimal, a string as it is. -/
def plainText : ConstVal → Option Str
  | .int i => some (itoa i)
  | .str s => some s
  | _ => none

/-- The names of the predeclared functions with a rule of their own. -/
def builtinNames : List Str := [c!"new", c!"make", c!"len"]

/-- `DenotesType E file e t`: the type expression `e` denotes `t`. -/
inductive DenotesType (E : ExprEnv) (file : FileId) : GoExpr → GoType → Prop
  | name {id name o} : BoundTo E file id o → o.kind = .typeName → DenotesType E file (.ident id name) o.type
  | qualified {x id sel o} : BoundTo E file id o → o.kind = .typeName → DenotesType E file (.selector x id sel) o.type
  | pointer {x t} : DenotesType E file x t → DenotesType E file (.star x) (.pointer t)
  | array {id t I} : E.load (E.pkgOf file) = .ok I → id.pkg = E.pkgOf file → I.typeOf id.pos = some t → DenotesType E file (.arrayType id) t
  | map {id t I} : E.load (E.pkgOf file) = .ok I → id.pkg = E.pkgOf file → I.typeOf id.pos = some t → DenotesType E file (.mapType id) t

/-- The typing rules of Go for the expressions that are supported: literals, variables, constants, fields, `&x`, `*x`,
arithmetic operators on one operand, composite literals with a type, `new`, `make`, `len` and calls of functions and methods
with one result. -/
inductive HasType (E : ExprEnv) (file : FileId) : GoExpr → GoType → Prop
  | lit {id kind text t I} : E.load (E.pkgOf file) = .ok I → id.pkg = E.pkgOf file → I.typeOf id.pos = some t →
      HasType E file (.lit id kind text) t
  | name {id name o} : BoundTo E file id o → HasType E file (.ident id name) o.type
  | field {x id sel o} : BoundTo E file id o → HasType E file (.selector x id sel) o.type
  | address {x t} : HasType E file x t → HasType E file (.unary c!"&" x) (.pointer t)
  | arith {op x t} : op ∈ [c!"+", c!"-", c!"!", c!"^"] → HasType E file x t → HasType E file (.unary op x) t
  | deref {x t} : HasType E file x (.pointer t) → HasType E file (.star x) t
  | composite {ty t} : DenotesType E file ty t → HasType E file (.composite (some ty)) t
  | new {id o ty t rest} : BoundTo E file id o → o.kind = .builtin → DenotesType E file ty t →
      HasType E file (.call (.ident id c!"new") (ty :: rest)) (.pointer t)
  | make {id o ty t rest} : BoundTo E file id o → o.kind = .builtin → DenotesType E file ty t →
      HasType E file (.call (.ident id c!"make") (ty :: rest)) t
  | len {id o args} : BoundTo E file id o → o.kind = .builtin → HasType E file (.call (.ident id c!"len") args) (.basic .int c!"int")
  | call {id name o sig t args} : name ∉ builtinNames → BoundTo E file id o → o.kind = .func sig → sig.results = [t] →
      HasType E file (.call (.ident id name) args) t
  | method {x id sel o sig t args} : BoundTo E file id o → o.kind = .func sig → sig.results = [t] →
      HasType E file (.call (.selector x id sel) args) t

/-- The type behind the outer pointers. -/
def behind : GoType → GoType
  | .pointer t => behind t
  | t => t

/-- What an argument is in the Go program: its value, if that matters, and its type, if that matters. -/
structure Truth where
  value : Option ConstVal := none
  type : Option GoType := none

/-- The argument is what is claimed, within the supported expressions. -/
def Truth.Holds (E : ExprEnv) (file : FileId) (e : GoExpr) (T : Truth) : Prop :=
  (∀ v, T.value = some v → Readable E file e v) ∧ (∀ t, T.type = some t → HasType E file e t)

/-- The same for all arguments of a call. -/
inductive AllHold (E : ExprEnv) (file : FileId) : List GoExpr → List Truth → Prop
  | nil : AllHold E file [] []
  | cons {e T es Ts} : Truth.Holds E file e T → AllHold E file es Ts → AllHold E file (e :: es) (T :: Ts)

/-- What an analysis without loss would see of the argument. -/
def Truth.view (T : Truth) : ArgView :=
  { value := match T.value.bind plainText with | some s => .ok s | none => .err c!"value not retrievable"
    type := match T.type with | some t => .ok t | none => .err c!"unsupported expression type" }

/-! ### Names and declarations -/

/-- The names of a chain `a.b.c`. -/
def chain : GoExpr → Option (List Str)
  | .ident _ name => some [name]
  | .selector x _ sel => (chain x).map (· ++ [sel])
  | _ => none

/-- `name` is declared in package `p` as function `f`, in the file `file`. -/
def DeclaresFunc (E : ExprEnv) (p name : Str) (f : FuncId) (file : FileId) : Prop :=
  ∃ I pos s, E.load p = .ok I ∧ I.scope name = some pos ∧ s ∈ I.syn ∧ s.name = I.fileOf pos ∧ s.id = file ∧
    (∀ g ∈ I.syn, g.name = s.name → g = s) ∧ s.scope name = some (some (.func f))

end Astra.Spec
