/-
C70, C71, C74 exactly: the text of a string constant, the type of a call with several results, and the calls that pass the
context.
-/
import Verif.Props.ExprTypes

namespace Astra.Props
open Spec

/-! ### The text of string constants -/

theorem hexDigit_escape : ∀ n < 128, (n < 32 ∨ n = 127) →
    (aget hexDigits (goHexDigit (n / 16)) = some (n / 16) ∧ aget hexDigits (goHexDigit (n % 16)) = some (n % 16)) := by decide +kernel

theorem interpreted_quote (c : Char) (rest : Str) : interpreted (goQuoteChar c ++ rest) = (interpreted rest).map (c :: ·) := by
  have key : ∀ e d : Char, e ≠ 'x' → aget escapes e = some d → interpreted ('\\' :: e :: rest) = (interpreted rest).map (d :: ·) := by
    intro e d hx h
    rw [interpreted]
    · simp only [h, Option.bind_some]
    · intro a b r he; exact absurd he hx
  unfold goQuoteChar
  split
  · rename_i h; subst h; exact key _ _ (by decide) rfl
  split
  · rename_i h; subst h; exact key _ _ (by decide) rfl
  split
  · rename_i h; subst h; exact key _ _ (by decide) rfl
  split
  · rename_i h; subst h; exact key _ _ (by decide) rfl
  split
  · rename_i h; subst h; exact key _ _ (by decide) rfl
  split
  · rename_i h; subst h; exact key _ _ (by decide) rfl
  split
  · rename_i h; subst h; exact key _ _ (by decide) rfl
  split
  · rename_i h; subst h; exact key _ _ (by decide) rfl
  split
  · rename_i h; subst h; exact key _ _ (by decide) rfl
  rename_i h1 h2 h3 h4 h5 h6 h7 h8 h9
  by_cases hn : c.toNat < 32 ∨ c.toNat = 127
  · rw [if_pos hn]
    obtain ⟨e1, e2⟩ := hexDigit_escape c.toNat (by omega) hn
    show interpreted ('\\' :: 'x' :: goHexDigit (c.toNat / 16) :: goHexDigit (c.toNat % 16) :: rest) = _
    rw [interpreted, e1, e2, Option.bind_some, Option.bind_some, if_pos (by omega), show 16 * (c.toNat / 16) + c.toNat % 16 = c.toNat by omega, Char.ofNat_toNat]
  · rw [if_neg hn, List.singleton_append, interpreted]
    · simp only [h6, h2, or_self, if_false]
    · exact h1
    · intro a b r e _; exact h2 e
    · intro d r e _; exact h2 e

/-- The quoted form of a string is a literal of Go for the string. -/
theorem quoted_literal (s : Str) : stringLiteral (goQuote s) = some s := by
  have : interpreted (s.flatMap goQuoteChar ++ ['"']) = some s := by
    induction s with
    | nil => rfl
    | cons c s ih =>
      rw [List.flatMap_cons, List.append_assoc, interpreted_quote c, ih]
      rfl
  simpa [goQuote, stringLiteral] using this

/-- C70: what is documented for a name that is given by a string constant: a string literal of Go for it, with the quotes, as long as it has
no more than 72 characters, and of a longer one the first 69 characters and three points. -/
theorem name_constant_text (E : ExprEnv) (file : FileId) (id : NodeId) (name : Str) (o : Obj) (s : Str) (k : Nat)
    (hb : BoundTo E file id o) (hk : o.kind = .const (.str s)) :
    ∃ lit, stringLiteral lit = some s ∧
      (argView E file (k + 1) (.ident id name)).value = .ok (if lit.length ≤ 72 then lit else lit.take 69 ++ ['.', '.', '.']) := by
  refine ⟨goQuote s, quoted_literal s, ?_⟩
  have h : (argView E file (k + 1) (.ident id name)).value = .ok (constString (.str s)) := exprValue_const hb hk k name
  rw [h]
  congr 1
  simp only [constString]
  by_cases hl : (goQuote s).length ≤ 72
  · rw [if_pos hl, if_neg (by omega)]
  · rw [if_neg hl, if_pos (by omega)]

/-- A constant with a line break, a quote and an escape character in it. -/
example : stringLiteral (goQuote c!"say\n\"hi\"\x1b") = some c!"say\n\"hi\"\x1b" ∧ goQuote c!"\n\x1b" = c!"\"\\n\\x1b\"" := by
  constructor <;> decide +kernel

/-- C70, negation for long constants: different names get the same text. -/
theorem not_name_long (a b : Str) (h : (goQuote a).take 69 = (goQuote b).take 69) (ha : 72 < (goQuote a).length) (hb : 72 < (goQuote b).length) :
    constString (.str a) = constString (.str b) := by
  simp only [constString, if_pos ha, if_pos hb, h]

example : constString (.str (List.replicate 80 'a')) = constString (.str (List.replicate 80 'a' ++ c!"b")) :=
  not_name_long _ _ (by decide +kernel) (by decide +kernel) (by decide +kernel)

/-! ### Calls with several results -/

/-- C71: the type of a result of a call, by its number, is the type of that result of the function; if there is no such result there
is an error. -/
theorem call_result_type (E : ExprEnv) (file : FileId) (num : Nat) (id : NodeId) (name : Str) (o : Obj) (sig : Signature) (args : List GoExpr)
    (hn : name ∉ builtinNames) (hb : BoundTo E file id o) (hk : o.kind = .func sig) :
    (∀ t, sig.results[num]? = some t → exprType E file num (.call (.ident id name) args) = .ok t) ∧
    (sig.results.length ≤ num → ∃ e, exprType E file num (.call (.ident id name) args) = .err e) := by
  have hbi : ¬ (name = c!"new" ∨ name = c!"make") ∧ ¬ name = c!"len" := by
    simp only [builtinNames, List.mem_cons, List.not_mem_nil, or_false, not_or] at hn
    exact ⟨by simp [hn.1, hn.2.1], hn.2.2⟩
  obtain ⟨I, _, h1, _, h2, _⟩ := findObject_bound hb
  constructor
  · intro t ht
    simp only [exprType, hbi.1, hbi.2, if_false, returnType, calleeObj, h1, h2, Res.bind, hk, ht]
  · intro hl
    have ht : sig.results[num]? = none := List.getElem?_eq_none_iff.2 hl
    simp only [exprType, hbi.1, hbi.2, if_false, returnType, calleeObj, h1, h2, Res.bind, hk, ht]
    exact ⟨_, rfl⟩

/-- C71: the same for methods. -/
theorem method_result_type (E : ExprEnv) (file : FileId) (num : Nat) (x : GoExpr) (id : NodeId) (sel : Str) (o : Obj) (sig : Signature) (args : List GoExpr)
    (hb : BoundTo E file id o) (hk : o.kind = .func sig) :
    (∀ t, sig.results[num]? = some t → exprType E file num (.call (.selector x id sel) args) = .ok t) ∧
    (sig.results.length ≤ num → ∃ e, exprType E file num (.call (.selector x id sel) args) = .err e) := by
  obtain ⟨I, _, h1, _, h2, _⟩ := findObject_bound hb
  constructor
  · intro t ht
    simp only [exprType, returnType, calleeObj, h1, h2, Res.bind, hk, ht]
  · intro hl
    have ht : sig.results[num]? = none := List.getElem?_eq_none_iff.2 hl
    simp only [exprType, returnType, calleeObj, h1, h2, Res.bind, hk, ht]
    exact ⟨_, rfl⟩

/-- C71: the number of a result only matters for calls: every other expression has one type. -/
theorem result_number_only_for_calls (E : ExprEnv) (file : FileId) (num num' : Nat) (e : GoExpr) (h : ∀ fn args, e ≠ .call fn args) :
    exprType E file num e = exprType E file num' e := by
  cases e with
  | call fn args => exact absurd rfl (h fn args)
  | composite t => cases t <;> simp only [exprType]
  | _ => simp only [exprType]

/-- A program with `func pair() (string, int)`. -/
def pairEnv : ExprEnv :=
  { load := fun _ => .ok { objectOf := fun _ => some { kind := .func { results := [.basic .string c!"string", .basic .int c!"int"] }, name := c!"pair" } }
    pkgOf := fun _ => c!"app" }

example : BoundTo pairEnv 0 ⟨c!"app", 1⟩ { kind := .func { results := [.basic .string c!"string", .basic .int c!"int"] }, name := c!"pair" } ∧
    exprType pairEnv 0 1 (.call (.ident ⟨c!"app", 1⟩ c!"pair") []) = .ok (.basic .int c!"int") ∧
    exprType pairEnv 0 1 (.star (.call (.ident ⟨c!"app", 1⟩ c!"pair") [])) = .ok (.basic .string c!"string") :=
  ⟨⟨_, rfl, rfl, rfl⟩, rfl, rfl⟩

/-- C71: predeclared functions other than `new`, `make` and `len` have no type. -/
theorem not_type_builtin (E : ExprEnv) (file : FileId) (num : Nat) (id : NodeId) (name : Str) (o : Obj) (args : List GoExpr)
    (hn : name ∉ builtinNames) (hb : BoundTo E file id o) (hk : o.kind = .builtin) :
    exprType E file num (.call (.ident id name) args) = .err c!"built-in function" := by
  have hbi : ¬ (name = c!"new" ∨ name = c!"make") ∧ ¬ name = c!"len" := by
    simp only [builtinNames, List.mem_cons, List.not_mem_nil, or_false, not_or] at hn
    exact ⟨by simp [hn.1, hn.2.1], hn.2.2⟩
  obtain ⟨I, _, h1, _, h2, _⟩ := findObject_bound hb
  simp only [exprType, hbi.1, hbi.2, if_false, returnType, calleeObj, h1, h2, Res.bind, hk]

/-! ### Passing the context on -/

/-- C74: a call passes the context on exactly if one of its arguments is the variable itself. Arguments like `&c`, `c.Request` or
`T{c}` do not count. -/
theorem passes_context_iff (E : ExprEnv) (file : FileId) (fuel : Nat) (fn : GoExpr) (args : List GoExpr) (ctx : Str) :
    PassesContext (viewOf E file fuel fn args) ctx ↔ ∃ id, .ident id ctx ∈ args := by
  simp only [PassesContext, viewOf, List.mem_map]
  constructor
  · rintro ⟨a, ⟨e, he, rfl⟩, h⟩
    cases e with
    | ident id name =>
      simp only [argView, Option.some.injEq] at h
      subst h
      exact ⟨id, he⟩
    | _ => simp [argView] at h
  · rintro ⟨id, h⟩
    exact ⟨_, ⟨_, h, rfl⟩, rfl⟩

example : ∃ id, GoExpr.ident id c!"c" ∈ [GoExpr.lit (appId 1) .int c!"1", .ident (appId 2) c!"c"] := ⟨appId 2, by simp⟩

end Astra.Props
