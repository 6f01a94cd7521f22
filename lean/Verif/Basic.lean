/-
Go library semantics used by the modelled code: strings, maps, slices, strconv, path.
The definitions are total and computable; each states which Go library function it stands for.
-/

namespace Astra

/-- A Go string. Simplification: a sequence of Unicode scalar values; invalid UTF-8 is not modelled. -/
abbrev Str := List Char

open Lean in
/-- `c!"abc"` is the Go string literal `"abc"`. -/
macro:max "c!" s:str : term => do
  let cs := s.getString.toList.map (fun c => Syntax.mkCharLit c)
  `(([$(cs.toArray),*] : Str))

/-- The outcome of a Go call that may return an error or panic at run time. -/
inductive Res (α : Type) where
  | ok (a : α)
  | err (e : Str)
  | panic (msg : Str)
  deriving Repr, DecidableEq

namespace Res
def bind {α β : Type} : Res α → (α → Res β) → Res β
  | .ok a, f => f a
  | .err e, _ => .err e
  | .panic m, _ => .panic m

instance : Monad Res where
  pure := .ok
  bind := Res.bind

def isOk {α : Type} : Res α → Bool
  | .ok _ => true
  | _ => false

def isPanic {α : Type} : Res α → Bool
  | .panic _ => true
  | _ => false
end Res

/-- Go `<` on strings (byte order of UTF-8, which is code point order). -/
def strLt : Str → Str → Bool
  | _, [] => false
  | [], _ :: _ => true
  | a :: as, b :: bs => if a.val < b.val then true else if a = b then strLt as bs else false

/-! ### Go maps with string keys

A Go map has no order. The canonical representation is the association list with strictly increasing keys, so that
two maps are equal iff they are equal as Lean terms. `encoding/json` and `yaml.v3` also write maps in key order.
Where the code ranges over a map, the model ranges over an arbitrary permutation of the entries. -/

/-- Map lookup `m[k]` (comma-ok form). -/
def mget {V : Type} : List (Str × V) → Str → Option V
  | [], _ => none
  | (k', v) :: m, k => if k' = k then some v else mget m k

/-- Map assignment `m[k] = v`. -/
def mset {V : Type} : List (Str × V) → Str → V → List (Str × V)
  | [], k, v => [(k, v)]
  | (k', v') :: m, k, v =>
    if k' = k then (k, v) :: m
    else if strLt k k' then (k, v) :: (k', v') :: m
    else (k', v') :: mset m k v

/-- The keys of a map in canonical order. -/
def mkeys {V : Type} (m : List (Str × V)) : List Str := m.map (·.1)

/-! ### strings -/

/-- `strings.Split(s, sep)` for a one-character separator. -/
def split (sep : Char) : Str → List Str
  | [] => [[]]
  | c :: cs =>
    if c = sep then [] :: split sep cs
    else match split sep cs with
      | [] => [[c]]
      | h :: t => (c :: h) :: t

/-- `strings.Join(parts, sep)`. -/
def join (sep : Str) : List Str → Str
  | [] => []
  | [x] => x
  | x :: y :: r => x ++ sep ++ join sep (y :: r)

/-- `strings.HasPrefix(s, p)`. -/
def hasPrefix : Str → Str → Bool
  | _, [] => true
  | [], _ :: _ => false
  | c :: cs, p :: ps => c = p && hasPrefix cs ps

/-- `strings.HasSuffix(s, p)`. -/
def hasSuffix (s p : Str) : Bool := hasPrefix s.reverse p.reverse

/-- `strings.Contains(s, sub)`. -/
def contains : Str → Str → Bool
  | [], sub => sub.isEmpty
  | c :: cs, sub => hasPrefix (c :: cs) sub || contains cs sub

/-- `strings.Replace(s, old, new, 1)`. -/
def replaceFirst : Str → Str → Str → Str
  | [], old, new => if old.isEmpty then new else []
  | c :: cs, old, new =>
    if hasPrefix (c :: cs) old then new ++ (c :: cs).drop old.length
    else c :: replaceFirst cs old new

/-- `strings.ReplaceAll(s, old, new)` for non-empty `old`; `skip` counts characters of a match still to be dropped. -/
def replaceAllAux (old new : Str) : Nat → Str → Str
  | _, [] => []
  | skip + 1, _ :: cs => replaceAllAux old new skip cs
  | 0, c :: cs =>
    if hasPrefix (c :: cs) old then new ++ replaceAllAux old new (old.length - 1) cs
    else c :: replaceAllAux old new 0 cs

/-- `strings.ReplaceAll(s, old, new)` for non-empty `old`. -/
def replaceAll (s old new : Str) : Str := replaceAllAux old new 0 s

/-- `strings.TrimPrefix(s, p)`. -/
def trimPrefix (s p : Str) : Str := if hasPrefix s p then s.drop p.length else s

/-- `strings.TrimLeft(s, cutset)`. -/
def trimLeftBy (p : Char → Bool) : Str → Str
  | [] => []
  | c :: cs => if p c then trimLeftBy p cs else c :: cs

/-- `strings.TrimRight(s, cutset)`. -/
def trimRightBy (p : Char → Bool) (s : Str) : Str := (trimLeftBy p s.reverse).reverse

/-- `strings.Trim(s, cutset)`. -/
def trimBy (p : Char → Bool) (s : Str) : Str := trimRightBy p (trimLeftBy p s)

/-- `unicode.IsSpace`: the characters that `strings.TrimSpace` removes, those with the Unicode property White_Space. -/
def isSpace (c : Char) : Bool :=
  c = ' ' || c = '\t' || c = '\n' || c = '\r' || c.val = 11 || c.val = 12 || c.val = 0x85 || c.val = 0xA0 || c.val = 0x1680 ||
  (0x2000 ≤ c.val && c.val ≤ 0x200a) || c.val = 0x2028 || c.val = 0x2029 || c.val = 0x202f || c.val = 0x205f || c.val = 0x3000

/-- `strings.TrimSpace(s)`. -/
def trimSpace (s : Str) : Str := trimBy isSpace s

/-- `s[strings.LastIndex(s, sep)+1:]`: the text after the last separator, or all of it. -/
def afterLast (sep : Char) (s : Str) : Str := (s.reverse.takeWhile (· ≠ sep)).reverse

/-! ### strconv -/

/-- Decimal digit. -/
def digit (n : Nat) : Char := Char.ofNat (48 + n % 10)

/-- Decimal digits of `n`, most significant first, using at most `fuel` digits. -/
def natDigits : Nat → Nat → Str
  | 0, _ => []
  | fuel + 1, n => if n < 10 then [digit n] else natDigits fuel (n / 10) ++ [digit n]

/-- Decimal representation of a natural number. -/
def natToStr (n : Nat) : Str := natDigits (n + 1) n

/-- `strconv.Itoa` (and `fmt` verb `%d`). -/
def itoa : Int → Str
  | .ofNat n => natToStr n
  | .negSucc n => '-' :: natToStr (n + 1)

/-- The value of an ASCII decimal digit. -/
def digitVal (c : Char) : Option Nat :=
  if 48 ≤ c.toNat ∧ c.toNat ≤ 57 then some (c.toNat - 48) else none

/-- Digits to number. -/
def parseDigits : Nat → Str → Option Nat
  | acc, [] => some acc
  | acc, c :: cs => match digitVal c with
    | some d => parseDigits (acc * 10 + d) cs
    | none => none

/-- Unsigned decimal, at least one digit. -/
def parseNat : Str → Option Nat
  | [] => none
  | s => parseDigits 0 s

/-- `strconv.Atoi` without range check: optional sign and decimal digits.
Simplification: overflow is not modelled here (callers add their range). -/
def atoi : Str → Option Int
  | '-' :: s => (parseNat s).map (fun n => - Int.ofNat n)
  | '+' :: s => (parseNat s).map Int.ofNat
  | s => (parseNat s).map Int.ofNat

/-! ### slices -/

/-- `slices.Contains`. -/
def elemB {α : Type} [DecidableEq α] (l : List α) (a : α) : Bool := l.any (fun b => decide (b = a))

/-- Map assignment on an association list whose order is not canonical (the iteration order chosen by the runtime):
update in place or append. -/
def aset {K V : Type} [DecidableEq K] : List (K × V) → K → V → List (K × V)
  | [], k, v => [(k, v)]
  | (k', v') :: m, k, v => if k' = k then (k, v) :: m else (k', v') :: aset m k v

/-- Map lookup on an association list. -/
def aget {K V : Type} [DecidableEq K] : List (K × V) → K → Option V
  | [], _ => none
  | (k', v) :: m, k => if k' = k then some v else aget m k

end Astra
