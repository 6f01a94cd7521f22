/-
Specification of operations on texts, in terms of what the result looks like and not of how it is computed.
-/
import Verif.Basic

namespace Astra.Spec

/-- The 25 characters with the Unicode property White_Space. -/
def whiteSpace : List Char :=
  ['\t', '\n', '\x0b', '\x0c', '\r', ' ', '\u0085', '\u00a0', '\u1680', '\u2000', '\u2001', '\u2002', '\u2003', '\u2004', '\u2005',
    '\u2006', '\u2007', '\u2008', '\u2009', '\u200a', '\u2028', '\u2029', '\u202f', '\u205f', '\u3000']

/-- `t` is `s` without the characters of `P` at its two ends. -/
def Trimmed (P : Char → Prop) (s t : Str) : Prop :=
  ∃ a b, s = a ++ t ++ b ∧ (∀ c ∈ a, P c) ∧ (∀ c ∈ b, P c) ∧ (∀ c, t.head? = some c → ¬ P c) ∧ (∀ c, t.getLast? = some c → ¬ P c)

/-- What a comment says: the text after the slashes, if it begins with any, without the white space around it. -/
def Says (comment text : Str) : Prop :=
  (∃ rest, comment = '/' :: '/' :: rest ∧ Trimmed (· ∈ whiteSpace) rest text) ∨
  ((¬ ∃ rest, comment = '/' :: '/' :: rest) ∧ Trimmed (· ∈ whiteSpace) comment text)

/-- `a` is what stands before the first occurrence of `old` in `s`, `b` what stands behind it. -/
def FirstAt (old s a b : Str) : Prop := s = a ++ old ++ b ∧ ∀ a' b', s = a' ++ old ++ b' → a.length ≤ a'.length

/-- `t` is `s` with every occurrence of `old` replaced, from left to right. -/
inductive Replaced (old new : Str) : Str → Str → Prop
  | none {s} : ¬ (∃ a b, s = a ++ old ++ b) → Replaced old new s s
  | one {s a b t} : FirstAt old s a b → Replaced old new b t → Replaced old new s (a ++ new ++ t)

/-- The number that a text of decimal digits stands for. -/
inductive DecimalText : Str → Nat → Prop
  | digit (c : Char) : '0' ≤ c → c ≤ '9' → DecimalText [c] (c.toNat - '0'.toNat)
  | more {s n} (c : Char) : DecimalText s n → '0' ≤ c → c ≤ '9' → DecimalText (s ++ [c]) (10 * n + (c.toNat - '0'.toNat))

/-- The integer that a text stands for: decimal digits, with or without a sign. -/
inductive IntegerText : Str → Int → Prop
  | plain {s n} : DecimalText s n → IntegerText s n
  | plus {s n} : DecimalText s n → IntegerText ('+' :: s) n
  | minus {s n} : DecimalText s n → IntegerText ('-' :: s) (-n)

end Astra.Spec
