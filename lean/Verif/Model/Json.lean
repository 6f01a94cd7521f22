/-
`encoding/json` as used by cache.go:44-46, 96 and outputs/{json,openapi,azureFunctions}/generate.go: JSON values, the text
written by `json.Marshal` and `json.MarshalIndent(v, "", "  ")`, and the first value read by `json.Decoder.Decode`.
-/
import Verif.Basic

namespace Astra

/-- A JSON value. Numbers are kept as their text. Library code called at outputs/json/generate.go:30, outputs/openapi/generate.go:309,
outputs/azureFunctions/generate.go:68 and cache.go:46. -/
inductive Json where
  | null
  | bool (b : Bool)
  | num (text : Str)
  | str (s : Str)
  | arr (xs : List Json)
  | obj (ms : List (Str × Json))
  deriving Repr, Inhabited

/-! ### Writing -/

/-- A lower-case hexadecimal digit. Library code called at outputs/json/generate.go:30, outputs/openapi/generate.go:309,
outputs/azureFunctions/generate.go:68 and cache.go:46. -/
def hexDigit (n : Nat) : Char :=
  if n < 10 then Char.ofNat (48 + n) else Char.ofNat (87 + n)

/-- `\uXXXX`. Library code called at outputs/json/generate.go:30, outputs/openapi/generate.go:309,
outputs/azureFunctions/generate.go:68 and cache.go:46. -/
def uEscape (n : Nat) : Str :=
  ['\\', 'u', hexDigit (n / 4096 % 16), hexDigit (n / 256 % 16), hexDigit (n / 16 % 16), hexDigit (n % 16)]

/-- Characters that the encoder writes as `\uXXXX`: control characters, `<`, `>`, `&`, U+2028 and U+2029. Library code called at
outputs/json/generate.go:30, outputs/openapi/generate.go:309, outputs/azureFunctions/generate.go:68 and cache.go:46. -/
def needsU (c : Char) : Bool :=
  c.toNat < 0x20 || c = '<' || c = '>' || c = '&' || c.toNat = 0x2028 || c.toNat = 0x2029

/-- One character of a JSON string as `encoding/json` writes it. Library code called at outputs/json/generate.go:30,
outputs/openapi/generate.go:309, outputs/azureFunctions/generate.go:68 and cache.go:46. -/
def escChar (c : Char) : Str :=
  if c = '"' then ['\\', '"']
  else if c = '\\' then ['\\', '\\']
  else if c = '\n' then ['\\', 'n']
  else if c = '\r' then ['\\', 'r']
  else if c = '\t' then ['\\', 't']
  else if needsU c then uEscape c.toNat
  else [c]

/-- The characters of a JSON string and the closing quote. Library code called at outputs/json/generate.go:30,
outputs/openapi/generate.go:309, outputs/azureFunctions/generate.go:68 and cache.go:46. -/
def escStr : Str → Str
  | [] => ['"']
  | c :: cs => escChar c ++ escStr cs

/-- A JSON string. Library code called at outputs/json/generate.go:30, outputs/openapi/generate.go:309,
outputs/azureFunctions/generate.go:68 and cache.go:46. -/
def quoteStr (s : Str) : Str := '"' :: escStr s

/-- Line break and indentation at depth `d`; nothing in compact form. Library code called at outputs/json/generate.go:30,
outputs/openapi/generate.go:309, outputs/azureFunctions/generate.go:68 and cache.go:46. -/
def newline (ind : Bool) (d : Nat) : Str := if ind then '\n' :: List.replicate (2 * d) ' ' else []

/-- The separator between key and value. Library code called at outputs/json/generate.go:30, outputs/openapi/generate.go:309,
outputs/azureFunctions/generate.go:68 and cache.go:46. -/
def colon (ind : Bool) : Str := if ind then [':', ' '] else [':']

mutual
/-- The text of a value: `ind = false` is `json.Marshal`, `ind = true` is `json.MarshalIndent(v, "", "  ")` at depth `d`. Library code
called at outputs/json/generate.go:30, outputs/openapi/generate.go:309, outputs/azureFunctions/generate.go:68 and cache.go:46. -/
def render (ind : Bool) (d : Nat) : Json → Str
  | .null => c!"null"
  | .bool true => c!"true"
  | .bool false => c!"false"
  | .num t => t
  | .str s => quoteStr s
  | .arr [] => c!"[]"
  | .arr (x :: xs) => '[' :: newline ind (d + 1) ++ (render ind (d + 1) x ++ renderElems ind d xs)
  | .obj [] => c!"{}"
  | .obj ((k, v) :: ms) =>
    '{' :: newline ind (d + 1) ++ (quoteStr k ++ (colon ind ++ (render ind (d + 1) v ++ renderMembers ind d ms)))
/-- The remaining elements of an array and the closing bracket. Library code called at outputs/json/generate.go:30,
outputs/openapi/generate.go:309, outputs/azureFunctions/generate.go:68 and cache.go:46. -/
def renderElems (ind : Bool) (d : Nat) : List Json → Str
  | [] => newline ind d ++ [']']
  | x :: xs => ',' :: newline ind (d + 1) ++ (render ind (d + 1) x ++ renderElems ind d xs)
/-- The remaining members of an object and the closing brace. Library code called at outputs/json/generate.go:30,
outputs/openapi/generate.go:309, outputs/azureFunctions/generate.go:68 and cache.go:46. -/
def renderMembers (ind : Bool) (d : Nat) : List (Str × Json) → Str
  | [] => newline ind d ++ ['}']
  | (k, v) :: ms =>
    ',' :: newline ind (d + 1) ++ (quoteStr k ++ (colon ind ++ (render ind (d + 1) v ++ renderMembers ind d ms)))
end

/-- `json.Marshal`. Called at cache.go:46. -/
def marshal (j : Json) : Str := render false 0 j

/-- `json.MarshalIndent(v, "", "  ")`. Called at outputs/json/generate.go:30, outputs/openapi/generate.go:309 and
outputs/azureFunctions/generate.go:68. -/
def marshalIndent (j : Json) : Str := render true 0 j

/-! ### Reading -/

/-- JSON white space. Library code called at cache.go:96. -/
def isWs (c : Char) : Bool := c = ' ' || c = '\n' || c = '\r' || c = '\t'

/-- Skip white space. Library code called at cache.go:96. -/
def skipWs : Str → Str
  | [] => []
  | c :: cs => if isWs c then skipWs cs else c :: cs

/-- The value of a hexadecimal digit. Library code called at cache.go:96. -/
def hexVal (c : Char) : Option Nat :=
  if 48 ≤ c.toNat ∧ c.toNat ≤ 57 then some (c.toNat - 48)
  else if 97 ≤ c.toNat ∧ c.toNat ≤ 102 then some (c.toNat - 87)
  else if 65 ≤ c.toNat ∧ c.toNat ≤ 70 then some (c.toNat - 55)
  else none

/-- The number of a `\uXXXX` escape. Library code called at cache.go:96. -/
def uCode (a b c d : Char) : Option Nat :=
  match hexVal a, hexVal b, hexVal c, hexVal d with
  | some a, some b, some c, some d => some (a * 4096 + b * 256 + c * 16 + d)
  | _, _, _, _ => none

/-- A unit of a string: a character, or the number of a `\uXXXX` escape. Library code called at cache.go:96. -/
inductive JUnit where
  | char (c : Char)
  | code (n : Nat)
  deriving Repr, DecidableEq

/-- The character of a two-character escape. Library code called at cache.go:96. -/
def simpleEscape (c : Char) : Option Char :=
  if c = '"' then some '"' else if c = '\\' then some '\\' else if c = '/' then some '/'
  else if c = 'b' then some (Char.ofNat 8) else if c = 'f' then some (Char.ofNat 12)
  else if c = 'n' then some '\n' else if c = 'r' then some '\r' else if c = 't' then some '\t' else none

/-- Read the units of a string up to its closing quote; the result and the remaining text. Library code called at cache.go:96. -/
def parseUnits : Str → Option (List JUnit × Str)
  | [] => none
  | '"' :: cs => some ([], cs)
  | '\\' :: 'u' :: a :: b :: c :: d :: cs =>
    match uCode a b c d with
    | none => none
    | some n => (parseUnits cs).map (fun r => (.code n :: r.1, r.2))
  | '\\' :: e :: cs =>
    match simpleEscape e with
    | none => none
    | some x => (parseUnits cs).map (fun r => (.char x :: r.1, r.2))
  | c :: cs =>
    if c = '\\' ∨ c.toNat < 0x20 then none else (parseUnits cs).map (fun r => (.char c :: r.1, r.2))

/-- The characters of the units: a surrogate pair is one character, any other surrogate becomes U+FFFD. Library code called at
cache.go:96. -/
def joinUnits : List JUnit → Str
  | [] => []
  | .char c :: us => c :: joinUnits us
  | .code n :: us =>
    if 0xD800 ≤ n ∧ n ≤ 0xDFFF then
      match us with
      | .code m :: us' =>
        if n ≤ 0xDBFF ∧ 0xDC00 ≤ m ∧ m ≤ 0xDFFF then Char.ofNat (0x10000 + (n - 0xD800) * 0x400 + (m - 0xDC00)) :: joinUnits us'
        else Char.ofNat 0xFFFD :: joinUnits (.code m :: us')
      | us => Char.ofNat 0xFFFD :: joinUnits us
    else Char.ofNat n :: joinUnits us

/-- Read a string up to its closing quote; the result and the remaining text. Library code called at cache.go:96. -/
def parseStr (s : Str) : Option (Str × Str) := (parseUnits s).map (fun r => (joinUnits r.1, r.2))

/-- Characters of numbers. Library code called at cache.go:96. -/
def isNumChar (c : Char) : Bool := c.isDigit || c = '-' || c = '+' || c = '.' || c = 'e' || c = 'E'

/-- Digits of a number: at least one. Library code called at cache.go:96. -/
def someDigits (s : Str) : Bool := !s.isEmpty && s.all Char.isDigit

/-- The integer part: no leading zero. Library code called at cache.go:96. -/
def intPart : Str → Bool
  | ['0'] => true
  | '0' :: _ => false
  | s => someDigits s

/-- An exponent after `e` or `E`. Library code called at cache.go:96. -/
def expPart : Str → Bool
  | '+' :: s => someDigits s
  | '-' :: s => someDigits s
  | s => someDigits s

/-- The fraction and exponent after the integer part. Library code called at cache.go:96. -/
def isUnsignedNumber (s : Str) : Bool :=
  let i := s.takeWhile Char.isDigit
  let r := s.dropWhile Char.isDigit
  intPart i &&
    (match r with
     | [] => true
     | '.' :: r =>
       let f := r.takeWhile Char.isDigit
       let r := r.dropWhile Char.isDigit
       someDigits f && (match r with
         | [] => true
         | c :: e => (c = 'e' || c = 'E') && expPart e)
     | c :: e => (c = 'e' || c = 'E') && expPart e)

/-- The JSON number grammar. Library code called at cache.go:96. -/
def isNumber : Str → Bool
  | '-' :: s => isUnsignedNumber s
  | s => isUnsignedNumber s

mutual
/-- Read one value from the beginning of a text; `fuel` bounds the nesting and the number of elements. Library code called at
cache.go:96. -/
def parseValue : Nat → Str → Option (Json × Str)
  | 0, _ => none
  | fuel + 1, s =>
    match skipWs s with
    | [] => none
    | '{' :: cs =>
      match skipWs cs with
      | '}' :: r => some (.obj [], r)
      | r => (parseMembers fuel r).map (fun x => (.obj x.1, x.2))
    | '[' :: cs =>
      match skipWs cs with
      | ']' :: r => some (.arr [], r)
      | r => (parseElems fuel r).map (fun x => (.arr x.1, x.2))
    | '"' :: cs => (parseStr cs).map (fun r => (.str r.1, r.2))
    | 't' :: 'r' :: 'u' :: 'e' :: r => some (.bool true, r)
    | 'f' :: 'a' :: 'l' :: 's' :: 'e' :: r => some (.bool false, r)
    | 'n' :: 'u' :: 'l' :: 'l' :: r => some (.null, r)
    | c :: cs =>
      let t := (c :: cs).takeWhile isNumChar
      if isNumber t then some (.num t, (c :: cs).dropWhile isNumChar) else none
/-- Read the elements of a non-empty array and the closing bracket. Library code called at cache.go:96. -/
def parseElems : Nat → Str → Option (List Json × Str)
  | 0, _ => none
  | fuel + 1, s =>
    match parseValue fuel s with
    | none => none
    | some (x, r) =>
      match skipWs r with
      | ']' :: r => some ([x], r)
      | ',' :: r => (parseElems fuel r).map (fun y => (x :: y.1, y.2))
      | _ => none
/-- Read the members of a non-empty object and the closing brace. Library code called at cache.go:96. -/
def parseMembers : Nat → Str → Option (List (Str × Json) × Str)
  | 0, _ => none
  | fuel + 1, s =>
    match skipWs s with
    | '"' :: cs =>
      match parseStr cs with
      | none => none
      | some (k, r) =>
        match skipWs r with
        | ':' :: r =>
          match parseValue fuel r with
          | none => none
          | some (v, r) =>
            match skipWs r with
            | '}' :: r => some ([(k, v)], r)
            | ',' :: r => (parseMembers fuel r).map (fun y => ((k, v) :: y.1, y.2))
            | _ => none
        | _ => none
    | _ => none
end

/-- `json.NewDecoder(f).Decode`, up to the conversion into Go values: the first value of the text, if it is complete.
Text after the value is not read. Called at cache.go:96. -/
def decodeText (s : Str) : Option Json := (parseValue (s.length + 1) s).map (·.1)

end Astra
