/-
The texts of JSON values, by the grammar of RFC 8259. Nothing here refers to the model of the encoder or of the decoder; only
the type of JSON values (`Json`) is shared.
-/
import Verif.Model.Json

namespace Astra.Spec

/-- White space (RFC 8259, section 2). -/
def White (t : Str) : Prop := ∀ c ∈ t, c = ' ' ∨ c = '\t' ∨ c = '\n' ∨ c = '\r'

/-- A decimal digit. -/
def Digit (c : Char) : Prop := '0' ≤ c ∧ c ≤ '9'

/-- One or more digits. -/
def Digits (t : Str) : Prop := t ≠ [] ∧ ∀ c ∈ t, Digit c

/-- The integer part of a number: `0`, or digits that do not begin with `0`. -/
def IntText (t : Str) : Prop := t = ['0'] ∨ (Digits t ∧ t.head? ≠ some '0')

/-- The fraction, if there is one: a point and digits. -/
def FracText (t : Str) : Prop := t = [] ∨ ∃ ds, Digits ds ∧ t = '.' :: ds

/-- The exponent, if there is one. -/
def ExpText (t : Str) : Prop :=
  t = [] ∨ ∃ e sign ds, (e = 'e' ∨ e = 'E') ∧ (sign = [] ∨ sign = ['+'] ∨ sign = ['-']) ∧ Digits ds ∧ t = e :: (sign ++ ds)

/-- A number (section 6). -/
def NumberText (t : Str) : Prop :=
  ∃ sign int frac exp, (sign = [] ∨ sign = ['-']) ∧ IntText int ∧ FracText frac ∧ ExpText exp ∧ t = sign ++ int ++ frac ++ exp

/-- The value of a hexadecimal digit. -/
inductive Hex : Char → Nat → Prop
  | digit {c} : '0' ≤ c → c ≤ '9' → Hex c (c.toNat - '0'.toNat)
  | lower {c} : 'a' ≤ c → c ≤ 'f' → Hex c (10 + (c.toNat - 'a'.toNat))
  | upper {c} : 'A' ≤ c → c ≤ 'F' → Hex c (10 + (c.toNat - 'A'.toNat))

/-- The escapes of two characters (section 7). -/
def shortEscapes : List (Char × Char) :=
  [('"', '"'), ('\\', '\\'), ('/', '/'), ('b', '\x08'), ('f', '\x0c'), ('n', '\n'), ('r', '\r'), ('t', '\t')]

/-- `\uXXXX` and the number that it shows. -/
def CodeText (t : Str) (n : Nat) : Prop :=
  ∃ a b c d i j k l, t = ['\\', 'u', a, b, c, d] ∧ Hex a i ∧ Hex b j ∧ Hex c k ∧ Hex d l ∧ n = ((i * 16 + j) * 16 + k) * 16 + l

/-- The first number of a surrogate pair. -/
def HighSurrogate (n : Nat) : Prop := 0xD800 ≤ n ∧ n ≤ 0xDBFF

/-- The second number of a surrogate pair. -/
def LowSurrogate (n : Nat) : Prop := 0xDC00 ≤ n ∧ n ≤ 0xDFFF

/-- The text of a string after the opening quote, with the closing quote (section 7), and the string. Two numbers that are a
surrogate pair stand for one character (UTF-16). A surrogate that is not part of a pair stands for U+FFFD, as encoding/json has it; the RFC
leaves that open (section 8.2). -/
inductive StringText : Str → Str → Prop
  | close : StringText ['"'] []
  | plain {c t s} : 0x20 ≤ c.toNat → c ≠ '"' → c ≠ '\\' → StringText t s → StringText (c :: t) (c :: s)
  | short {e c t s} : (e, c) ∈ shortEscapes → StringText t s → StringText ('\\' :: e :: t) (c :: s)
  | code {u n t s} : CodeText u n → ¬ HighSurrogate n → ¬ LowSurrogate n → StringText t s → StringText (u ++ t) (Char.ofNat n :: s)
  | pair {u n u' m t s} : CodeText u n → HighSurrogate n → CodeText u' m → LowSurrogate m → StringText t s →
      StringText (u ++ (u' ++ t)) (Char.ofNat (0x10000 + (n - 0xD800) * 0x400 + (m - 0xDC00)) :: s)
  | single {u n t s} : CodeText u n → HighSurrogate n ∨ LowSurrogate n →
      (HighSurrogate n → ¬ ∃ u' m t', CodeText u' m ∧ LowSurrogate m ∧ t = u' ++ t') → StringText t s → StringText (u ++ t) ('\uFFFD' :: s)

mutual
/-- The text of a value (section 3), without white space around it. -/
inductive ValueText : Str → Json → Prop
  | null : ValueText c!"null" .null
  | true : ValueText c!"true" (.bool true)
  | false : ValueText c!"false" (.bool false)
  | number {t} : NumberText t → ValueText t (.num t)
  | string {t s} : StringText t s → ValueText ('"' :: t) (.str s)
  | emptyArray {w} : White w → ValueText ('[' :: (w ++ [']'])) (.arr [])
  | array {t xs} : ElemsText t xs → ValueText ('[' :: t) (.arr xs)
  | emptyObject {w} : White w → ValueText ('{' :: (w ++ ['}'])) (.obj [])
  | object {t ms} : MembersText t ms → ValueText ('{' :: t) (.obj ms)
/-- One or more elements of an array, and the closing bracket (section 5). -/
inductive ElemsText : Str → List Json → Prop
  | last {w t w' x} : White w → ValueText t x → White w' → ElemsText (w ++ t ++ w' ++ [']']) [x]
  | more {w t w' t' x xs} : White w → ValueText t x → White w' → ElemsText t' xs → ElemsText (w ++ t ++ w' ++ ',' :: t') (x :: xs)
/-- One or more members of an object, and the closing brace (section 4). -/
inductive MembersText : Str → List (Str × Json) → Prop
  | last {w q w1 w2 t w3 k v} : White w → StringText q k → White w1 → White w2 → ValueText t v → White w3 →
      MembersText (w ++ '"' :: q ++ w1 ++ ':' :: w2 ++ t ++ w3 ++ ['}']) [(k, v)]
  | more {w q w1 w2 t w3 t' k v ms} : White w → StringText q k → White w1 → White w2 → ValueText t v → White w3 →
      MembersText t' ms → MembersText (w ++ '"' :: q ++ w1 ++ ':' :: w2 ++ t ++ w3 ++ ',' :: t') ((k, v) :: ms)
end

/-- A JSON text (section 2): a value with white space around it. -/
def JsonText (text : Str) (j : Json) : Prop := ∃ w t w', White w ∧ ValueText t j ∧ White w' ∧ text = w ++ t ++ w'

end Astra.Spec
