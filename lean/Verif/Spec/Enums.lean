/-
The constants and type specs that a package declares.
-/
import Verif.Model.TypeTraversal

namespace Astra.Spec

/-- The constants of type `n` that the files of a package declare, in source order, as the Go compiler sees them. -/
def declaredConstants (files : List (List Decl)) (n : Str) : List EnumVal :=
  (files.flatten.flatMap constSpecs).flatMap (fun s => (s.truth.filter (fun c => c.1 = n)).map (·.2))

/-- `text` is a plain Go literal for the value: decimal digits without leading zeros, or a double quoted string without
quotes and backslashes in it. -/
def PlainLiteral (text : Str) (v : EnumVal) : Prop :=
  match v with
  | .int i => ∃ n : Nat, i = Int.ofNat n ∧ text = natToStr n
  | .str s => '"' ∉ s ∧ '\\' ∉ s ∧ text = '"' :: (s ++ ['"'])
  | _ => False

/-- The values a basic kind has. -/
def KindHas : BasicKind → EnumVal → Prop
  | .string, .str _ => True
  | .int, .int _ => True
  | .sizedInt, .int _ => True
  | .uint, .int _ => True
  | _, _ => False

/-- One spec is plain with respect to type `n`: either it is written `A, B n = lit, lit` and declares exactly these
constants of type `n`, or it declares no constant of type `n` and is not written with that type. -/
def PlainConsts (kind : BasicKind) (n : Str) (s : ConstSpec) : Prop :=
  (s.typeIdent = some n ∧ ∃ vs : List (Str × EnumVal), s.values = vs.map (fun x => .lit x.1) ∧ s.truth = vs.map (fun x => (n, x.2)) ∧
    ∀ x ∈ vs, PlainLiteral x.1 x.2 ∧ KindHas kind x.2) ∨
  (s.typeIdent ≠ some n ∧ ∀ c ∈ s.truth, c.1 ≠ n)

/-- The type specs of a declaration, each with the comment of the declaration. -/
def typeSpecs : Decl → List (Option Str × TypeSpec)
  | .type doc specs => specs.map (fun s => (doc, s))
  | _ => []

/-- All type specs of a package. -/
def allTypeSpecs (files : List (List Decl)) : List (Option Str × TypeSpec) := files.flatten.flatMap typeSpecs

end Astra.Spec
