/-
How the constants of a basic type are written in Go, and which of these texts show their value plainly.
-/
import Verif.Spec.Enums
import Verif.Spec.Expr
import Verif.Spec.Tags

namespace Astra.Spec

/-- A string literal of Go and its value: quoted, with the escapes of `Literal`, or raw. -/
inductive GoString : Str → Str → Prop
  | quoted {text s} : Literal text s → GoString ('"' :: (text ++ ['"'])) s
  | raw {s} : '`' ∉ s → '\r' ∉ s → GoString ('`' :: (s ++ ['`'])) s

/-- The literals that can stand for a constant of an integer type, and their values: integer literals, character literals and floating
point literals. The values of the last two are not described, which makes the relation wider than that of Go. -/
inductive WritesInt : Str → Int → Prop
  | int {text n} : intLiteral text = some n → WritesInt text (Int.ofNat n)
  | rune {rest i} : WritesInt ('\'' :: rest) i
  | float {text c i} : c ∈ text → c ∈ ['.', 'e', 'E', 'p', 'P'] → WritesInt text i

/-- The literals that can stand for a constant of a basic type, and their values. There are none for `bool`. Floating point and complex
types are not described. -/
def Writes : BasicKind → Str → EnumVal → Prop
  | .string, text, .str s => GoString text s
  | .int, text, .int i => WritesInt text i
  | .sizedInt, text, .int i => WritesInt text i
  | .uint, text, .int i => WritesInt text i
  | _, _, _ => False

/-- Decimal digits that show an integer: they do not begin with 0, unless only the last of them is another digit than 0. -/
def PlainDigits (text : Str) : Prop :=
  text ≠ [] ∧ (∀ c ∈ text, '0' ≤ c ∧ c ≤ '9') ∧ (text.head? = some '0' → ∀ c ∈ text.dropLast, c = '0')

/-- A literal that shows its value: a quoted string without backslash, or plain digits. -/
def LiteralShows : BasicKind → Str → Prop
  | .string, text => text.head? = some '"' ∧ '\\' ∉ text
  | _, text => PlainDigits text

/-- A spec of a const declaration, with regard to the constants of type `n`: if the spec names the type, it declares one constant of the
type for each expression, and a literal among these expressions has the value of the constant. -/
def Declares (kind : BasicKind) (n : Str) (s : ConstSpec) : Prop :=
  s.typeIdent = some n → ∃ vs : List (ConstExpr × EnumVal), s.values = vs.map (·.1) ∧ s.truth = vs.map (fun x => (n, x.2)) ∧
    ∀ x ∈ vs, ∀ text, x.1 = .lit text → Writes kind text x.2

/-- All constants of type `n` that the spec declares are written as literals that show their value, after the name of the type. -/
def ShownPlainly (kind : BasicKind) (n : Str) (s : ConstSpec) : Prop :=
  (s.typeIdent = some n → ∀ v ∈ s.values, ∃ text, v = .lit text ∧ LiteralShows kind text) ∧
  (s.typeIdent ≠ some n → ∀ c ∈ s.truth, c.1 ≠ n)

end Astra.Spec
