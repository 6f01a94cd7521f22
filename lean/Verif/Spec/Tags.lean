/-
Specification of conventional struct tags, in the terms of the documentation of the reflect package: pairs `key:"value"`, optionally
separated by spaces; a key is a non-empty string of non-control characters other than space, quote and colon; a value is a Go string
literal.
-/
import Verif.Spec.JsonText

namespace Astra.Spec

/-- A character of a key. -/
def KeyChar (c : Char) : Prop := ' ' < c ∧ c ≠ ':' ∧ c ≠ '"' ∧ c ≠ Char.ofNat 127

/-- Digits of a base, and the number that they show. -/
inductive Number (base : Nat) : Str → Nat → Prop
  | none : Number base [] 0
  | digit {ds : Str} {n : Nat} {c : Char} {d : Nat} : Number base ds n → Hex c d → d < base → Number base (ds ++ [c]) (n * base + d)

/-- The escapes of a Go string literal that are a backslash and one character. -/
def goEscapes : List (Char × Nat) :=
  [('a', 7), ('b', 8), ('f', 12), ('n', 10), ('r', 13), ('t', 9), ('v', 11), ('\\', 92), ('"', 34)]

/-- What follows the backslash of an escape in a Go string literal, and the number of the character: the Go specification, section "Rune
literals". Escapes of bytes above 127 are left out. -/
inductive Escape : Str → Nat → Prop
  | short {c n} : (c, n) ∈ goEscapes → Escape [c] n
  | octal {ds n} : Number 8 ds n → ds.length = 3 → n < 128 → Escape ds n
  | hex {ds n} : Number 16 ds n → ds.length = 2 → n < 128 → Escape ('x' :: ds) n
  | point {ds n} : Number 16 ds n → ds.length = 4 → n.isValidChar → Escape ('u' :: ds) n
  | longPoint {ds n} : Number 16 ds n → ds.length = 8 → n.isValidChar → Escape ('U' :: ds) n

/-- The text of a string literal, without its quotes, and the string it stands for. -/
inductive Literal : Str → Str → Prop
  | empty : Literal [] []
  | raw {c : Char} {text v : Str} : c ≠ '"' → c ≠ '\\' → c ≠ '\n' → Literal text v → Literal (c :: text) (c :: v)
  | escape {e text v : Str} {n : Nat} : Escape e n → Literal text v → Literal ('\\' :: (e ++ text)) (Char.ofNat n :: v)

/-- The text of a conventional tag and its pairs. -/
inductive TagText : Str → List (Str × Str) → Prop
  | done {spaces : Str} : (∀ c ∈ spaces, c = ' ') → TagText spaces []
  | pair {spaces key text v rest : Str} {pairs : List (Str × Str)} : (∀ c ∈ spaces, c = ' ') → key ≠ [] → (∀ c ∈ key, KeyChar c) →
      Literal text v → TagText rest pairs → TagText (spaces ++ (key ++ ':' :: '"' :: (text ++ '"' :: rest))) ((key, v) :: pairs)

end Astra.Spec
