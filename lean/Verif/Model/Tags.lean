/-
Model of astTraversal/tags.go, including `reflect.StructTag.Lookup`.
-/
import Verif.Types
import Verif.Model.Json

namespace Astra

/-- reflect.StructTag.Lookup: characters allowed in a key. Called at astTraversal/tags.go:49, 79. -/
def isTagKeyChar (c : Char) : Bool := c.val > 32 && c ≠ ':' && c ≠ '"' && c.val ≠ 127

/-- reflect.StructTag.Lookup: scan a quoted value; the input starts after the opening quote. Returns the raw text between
the quotes and what follows the closing quote. Called at astTraversal/tags.go:49, 79. -/
def scanQuoted : Str → Option (Str × Str)
  | [] => none
  | '"' :: rest => some ([], rest)
  | '\\' :: c :: rest => (scanQuoted rest).map (fun x => ('\\' :: c :: x.1, x.2))
  | ['\\'] => none
  | c :: rest => (scanQuoted rest).map (fun x => (c :: x.1, x.2))

/-- `strconv.UnquoteChar`: the number that the first `n` characters show in a base, and the rest. Called at
astTraversal/tags.go:49, 79. -/
def readDigits (base : Nat) : Nat → Nat → Str → Option (Nat × Str)
  | 0, acc, s => some (acc, s)
  | _ + 1, _, [] => none
  | n + 1, acc, c :: s => match hexVal c with
    | none => none
    | some d => if d < base then readDigits base n (acc * base + d) s else none

/-- `strconv.UnquoteChar`: the character of a byte escape. Simplification: bytes above 127, which need not be characters, are errors.
Called at astTraversal/tags.go:49, 79. -/
def byteChar : Option (Nat × Str) → Option (Char × Str)
  | none => none
  | some (n, r) => if n < 128 then some (Char.ofNat n, r) else none

/-- `strconv.UnquoteChar`: the character of a code point escape; surrogates and numbers that are too large are errors. Called at
astTraversal/tags.go:49, 79. -/
def pointChar : Option (Nat × Str) → Option (Char × Str)
  | none => none
  | some (n, r) => if n < 0xD800 ∨ (0xDFFF < n ∧ n < 0x110000) then some (Char.ofNat n, r) else none

/-- `strconv.UnquoteChar` in double quotes, after the backslash: the character and the rest. Called at astTraversal/tags.go:49, 79. -/
def unescape : Str → Option (Char × Str)
  | [] => none
  | c :: s =>
    if c = 'x' then byteChar (readDigits 16 2 0 s)
    else if c = 'u' then pointChar (readDigits 16 4 0 s)
    else if c = 'U' then pointChar (readDigits 16 8 0 s)
    else if '0' ≤ c ∧ c ≤ '7' then byteChar (readDigits 8 3 0 (c :: s))
    else if c = 'a' then some (Char.ofNat 7, s) else if c = 'b' then some (Char.ofNat 8, s) else if c = 'f' then some (Char.ofNat 12, s)
    else if c = 'n' then some ('\n', s) else if c = 'r' then some ('\r', s) else if c = 't' then some ('\t', s)
    else if c = 'v' then some (Char.ofNat 11, s) else if c = '\\' then some ('\\', s) else if c = '"' then some ('"', s)
    else none

/-- `strconv.Unquote` on a double-quoted literal, given the text between the quotes; every round takes at least one character. Called
at astTraversal/tags.go:49, 79. -/
def unquoteAux : Nat → Str → Option Str
  | _, [] => some []
  | 0, _ :: _ => none
  | n + 1, c :: s =>
    if c = '\\' then match unescape s with
      | none => none
      | some (d, r) => (unquoteAux n r).map (d :: ·)
    else if c = '"' ∨ c = '\n' then none
    else (unquoteAux n s).map (c :: ·)

/-- `strconv.Unquote` on a double-quoted literal, given the text between the quotes. Called at astTraversal/tags.go:49, 79. -/
def unquote (s : Str) : Option Str := unquoteAux s.length s

/-- reflect.StructTag.Lookup: one round of the loop needs a key, a colon and a quoted value. Returns key, raw value, rest. Called at
astTraversal/tags.go:49, 79. -/
def tagPair (tag : Str) : Option (Str × Str × Str) :=
  let key := tag.takeWhile isTagKeyChar
  match key, tag.dropWhile isTagKeyChar with
  | [], _ => none
  | _, ':' :: '"' :: rest => (scanQuoted rest).map (fun x => (key, x.1, x.2))
  | _, _ => none

/-- reflect.StructTag.Lookup (Go standard library; used at astTraversal/tags.go:49, 79). Every round consumes at least four characters, so
`fuel = tag.length` rounds are always enough. -/
def lookupTagAux (key : Str) : Nat → Str → Option Str
  | 0, _ => none
  | fuel + 1, tag =>
    match tagPair (tag.dropWhile (· = ' ')) with
    | none => none
    | some (name, raw, rest) => if name = key then unquote raw else lookupTagAux key fuel rest

/-- `reflect.StructTag(tag).Lookup(key)`. Called at astTraversal/tags.go:49, 79. -/
def lookupTag (tag key : Str) : Option Str := lookupTagAux key (tag.length + 1) tag

/-- astTraversal/tags.go:53-71: the binding tag for one tag value. `strings.Split` is never empty. -/
def bindingTagOf (field tagValue : Str) : BindingTag :=
  let items := split ',' tagValue
  let first := items.headD []
  let base : BindingTag :=
    if first = [] then { name := field } else if first ≠ c!"-" then { name := first } else { notShown := true }
  { base with returnOptional := decide (items[1]? = some c!"omitempty") }

/-- astTraversal/tags.go:47-73: the loop over `BindingTags`. The result map is listed in the order of the loop. -/
def bindingTagsOf (field : Str) (lookup : Str → Option Str) : List BTag → List (BTag × BindingTag)
  | [] => []
  | b :: bs =>
    match lookup b.toStr with
    | none => bindingTagsOf field lookup bs
    | some v => (b, bindingTagOf field v) :: bindingTagsOf field lookup bs

/-- astTraversal/tags.go:77-86: the loop over `ValidationTags`; `Get` returns "" for a missing key. -/
def validationTagsOf (lookup : Str → Option Str) : List VTag → List (VTag × Bool)
  | [] => []
  | v :: vs =>
    let value := (lookup v.toStr).getD []
    if value = [] then validationTagsOf lookup vs
    else (v, contains value c!"required") :: validationTagsOf lookup vs

/-- astTraversal/tags.go:46-90 `ParseStructTag`. -/
def parseStructTag (field tag : Str) : List (BTag × BindingTag) × List (VTag × Bool) :=
  let tags := bindingTagsOf field (lookupTag tag) bindingTags
  (if tags = [] then [(.none, { name := field })] else tags, validationTagsOf (lookupTag tag) validationTags)

end Astra
