/-
Lemmas for the analysis of expressions.
-/
import Verif.Spec.Expr
import Verif.Lemmas.Codec
import Verif.Props.Enums

namespace Astra
open Spec

/-! ### positions -/

theorem outermost_hasPos {pos : Nat} {t : Syn} {d : DeclNode} (h : Outermost pos t d) : HasPos pos t := by
  induction h with
  | here => exact .here
  | inside _ hc _ ih => exact .inside hc ih

mutual
theorem synAt_absent (pos : Nat) (found : Option DeclNode) : ∀ t : Syn, ¬ HasPos pos t → synAt pos found t = found
  | .node p what children, h => by
    have hp : p ≠ pos := fun e => h (by subst e; exact .here)
    simp only [synAt, hp, if_false]
    exact synsAt_absent pos found children (fun c hc hq => h (.inside hc hq))
theorem synsAt_absent (pos : Nat) (found : Option DeclNode) : ∀ ts : List Syn, (∀ t ∈ ts, ¬ HasPos pos t) → synsAt pos found ts = found
  | [], _ => rfl
  | t :: ts, h => by
    simp only [synsAt]
    rw [synAt_absent pos found t (h t (by simp))]
    exact synsAt_absent pos found ts (fun u hu => h u (by simp [hu]))
end

theorem synsAt_one {pos : Nat} {c : Syn} (hp : HasPos pos c) : ∀ {children : List Syn} (found : Option DeclNode),
    children.Pairwise (fun a b => ∀ q, HasPos q a → ¬ HasPos q b) → c ∈ children →
    synsAt pos found children = synAt pos found c := by
  intro children
  induction children with
  | nil => intro _ _ h; simp at h
  | cons t ts ih =>
    intro found hw hc
    rw [List.pairwise_cons] at hw
    simp only [synsAt]
    rcases List.mem_cons.1 hc with e | hc
    · rw [← e]
      exact synsAt_absent pos _ ts (fun u hu => hw.1 u hu pos (by rw [← e]; exact hp))
    · rw [synAt_absent pos found t (fun hq => hw.1 c hc pos hq hp)]
      exact ih found hw.2 hc

theorem synAt_outermost {pos : Nat} {t : Syn} {d : DeclNode} (ho : Outermost pos t d) :
    SiblingsApart t → ∀ found, synAt pos found t = some d := by
  induction ho with
  | here => intro _ found; simp [synAt]
  | inside hne hc ho ih =>
    intro ha found
    cases ha with
    | node hw hch =>
      simp only [synAt, hne, if_false]
      rw [synsAt_one (outermost_hasPos ho) found hw hc]
      exact ih (hch _ hc) found

theorem astAtPos_declared {I : PkgInfo} {pos : Nat} {d : DeclNode} (h : DeclaredBy I pos d) : astAtPos I pos = .ok d := by
  obtain ⟨f, hf, hn, hu, ha, ho⟩ := h
  have hfind : I.syn.find? (fun g => I.fileOf pos = g.name) = some f := by
    cases hg : I.syn.find? (fun g => I.fileOf pos = g.name) with
    | none =>
      have := List.find?_eq_none.1 hg f hf
      simp [hn] at this
    | some g =>
      have h1 := List.find?_some hg
      have h2 := List.mem_of_find?_eq_some hg
      rw [hu g h2 (by rw [hn]; simpa using (of_decide_eq_true h1).symm)]
  simp only [astAtPos, hfind, synAt_outermost ho ha]

/-! ### lookups -/

theorem ownPkg_of {E : ExprEnv} {file : FileId} {I : PkgInfo} (h : E.load (E.pkgOf file) = .ok I) : ownPkg E file = .ok I := by
  simp only [ownPkg, h]

theorem findObject_bound {E : ExprEnv} {file : FileId} {id : NodeId} {o : Obj} (h : BoundTo E file id o) :
    ∃ I, E.load (E.pkgOf file) = .ok I ∧ ownPkg E file = .ok I ∧ objectOf (E.pkgOf file) I id = some o ∧
      findObject (E.pkgOf file) I id = .ok o ∧ ∀ name, findObjectFuzzy (E.pkgOf file) I id name = .ok o := by
  obtain ⟨I, hI, hp, ho⟩ := h
  have hobj : objectOf (E.pkgOf file) I id = some o := by simp only [objectOf, hp, if_true, ho]
  exact ⟨I, hI, ownPkg_of hI, hobj, by simp only [findObject, hobj], fun name => by simp only [findObjectFuzzy, hobj]⟩

theorem objValue_const {E : ExprEnv} {file : FileId} {rec : GoExpr → Res Str} {I : PkgInfo} {name : Str} {o : Obj} {v : ConstVal}
    (h : o.kind = .const v) : objValue E file rec I name o = .ok (constString v) := by
  simp only [objValue, h]

theorem exprValue_const {E : ExprEnv} {file : FileId} {id : NodeId} {o : Obj} {v : ConstVal} (hb : BoundTo E file id o)
    (hk : o.kind = .const v) (k : Nat) (name : Str) : exprValue E file (k + 1) (.ident id name) = .ok (constString v) := by
  obtain ⟨I, _, h1, _, h2, _⟩ := findObject_bound hb
  simp only [exprValue, h1, h2, Res.bind, objValue_const hk]

theorem exprValue_imported {E : ExprEnv} {file : FileId} {x : GoExpr} {id : NodeId} {sel : Str} {o : Obj} {v : ConstVal}
    (hb : BoundTo E file id o) (hk : o.kind = .const v) (hd : OnlyDefinition E o sel v) (k : Nat) :
    exprValue E file (k + 1) (.selector x id sel) = .ok (constString v) := by
  obtain ⟨I, hI, h1, h0, h2, h3⟩ := findObject_bound hb
  obtain ⟨p, J, hp, hJ, ⟨d, hd, hdn⟩, hall⟩ := hd
  simp only [exprValue, h1, h2, Res.bind, hp, hJ]
  have hfuzzy : ∃ o', findObjectFuzzy p J id sel = .ok o' ∧ o'.kind = .const v := by
    by_cases hpp : id.pkg = p
    · obtain ⟨I', hI', hpk, hob⟩ := hb
      rw [hI] at hI'
      cases hI'
      rw [← hpp, hpk, hI] at hJ
      cases hJ
      refine ⟨o, ?_, hk⟩
      simp only [findObjectFuzzy, objectOf, hpp, if_true, hob]
    · simp only [findObjectFuzzy, objectOf, hpp, if_false]
      cases hf : J.defs.find? (fun d => d.1 = sel) with
      | none =>
        have := List.find?_eq_none.1 hf d hd
        simp [hdn] at this
      | some d' =>
        have hn' := List.find?_some hf
        obtain ⟨o', ho', hk'⟩ := hall d' (List.mem_of_find?_eq_some hf) (by simpa using hn')
        obtain ⟨n', od⟩ := d'
        simp only at ho'
        subst ho'
        exact ⟨o', rfl, hk'⟩
  obtain ⟨o', ho', hk'⟩ := hfuzzy
  simp only [ho', objValue_const hk']

/-! ### literals -/

theorem digitIn_ten (c : Char) : digitIn 10 c = digitVal c := by
  have h09 : ('0' ≤ c ∧ c ≤ '9') ↔ (48 ≤ c.toNat ∧ c.toNat ≤ 57) := by
    constructor
    · intro h
      exact ⟨by have := h.1; rw [Char.le_def, UInt32.le_iff_toNat_le] at this; exact this,
        by have := h.2; rw [Char.le_def, UInt32.le_iff_toNat_le] at this; exact this⟩
    · intro h
      exact ⟨by rw [Char.le_def, UInt32.le_iff_toNat_le]; exact h.1, by rw [Char.le_def, UInt32.le_iff_toNat_le]; exact h.2⟩
  have haf : ('a' ≤ c ∧ c ≤ 'f') → 97 ≤ c.toNat := by
    intro h; have := h.1; rw [Char.le_def, UInt32.le_iff_toNat_le] at this; exact this
  have hAF : ('A' ≤ c ∧ c ≤ 'F') → 65 ≤ c.toNat := by
    intro h; have := h.1; rw [Char.le_def, UInt32.le_iff_toNat_le] at this; exact this
  unfold digitIn digitVal
  by_cases h : '0' ≤ c ∧ c ≤ '9'
  · rw [if_pos h, if_pos (h09.1 h)]
    have := h09.1 h
    simp only
    rw [if_pos (by omega)]
  · rw [if_neg h, if_neg (fun h' => h (h09.2 h'))]
    by_cases h1 : 'a' ≤ c ∧ c ≤ 'f'
    · have := haf h1
      simp only [if_pos h1]
      rw [if_neg (by omega)]
    · by_cases h2 : 'A' ≤ c ∧ c ≤ 'F'
      · have := hAF h2
        simp only [if_neg h1, if_pos h2]
        rw [if_neg (by omega)]
      · simp only [if_neg h1, if_neg h2]
        rfl

theorem digitsIn_ten (s : Str) : ∀ acc, digitsIn 10 acc s = parseDigits acc s := by
  induction s with
  | nil => intro acc; rfl
  | cons c cs ih =>
    intro acc
    simp only [digitsIn, parseDigits, digitIn_ten]
    cases digitVal c with
    | none => rfl
    | some d => exact ih _

theorem numberIn_ten (s : Str) : numberIn 10 s = parseNat s := by
  cases s with
  | nil => rfl
  | cons c cs => simp only [numberIn, parseNat, digitsIn_ten]; simp

theorem parseDigits_all {s : Str} : ∀ {acc n}, parseDigits acc s = some n → ∀ c ∈ s, 48 ≤ c.toNat ∧ c.toNat ≤ 57 := by
  induction s with
  | nil => intro _ _ _ c hc; simp at hc
  | cons c cs ih =>
    intro acc n h d hd
    simp only [parseDigits] at h
    cases hv : digitVal c with
    | none => rw [hv] at h; cases h
    | some v =>
      rw [hv] at h
      rcases List.mem_cons.1 hd with e | hd
      · subst e
        simp only [digitVal] at hv
        split at hv
        · assumption
        · cases hv
      · exact ih h d hd

theorem filter_digits {s : Str} (h : ∀ c ∈ s, 48 ≤ c.toNat ∧ c.toNat ≤ 57) : s.filter (fun c => decide (c ≠ '_')) = s := by
  rw [List.filter_eq_self]
  intro c hc
  have := h c hc
  simp only [ne_eq, decide_not, Bool.not_eq_eq_eq_not, Bool.not_true, decide_eq_false_iff_not]
  intro e
  subst e
  revert this
  decide

theorem intLiteral_decimal {text : Str} (hd : ∀ c ∈ text, 48 ≤ c.toNat ∧ c.toNat ≤ 57)
    (hz : ∀ x t, text ≠ '0' :: x :: t) : intLiteral text = parseNat text := by
  unfold intLiteral
  rw [filter_digits hd]
  split
  · rename_i x ds
    exact absurd rfl (hz x ds)
  · exact numberIn_ten text

theorem intLiteral_natToStr (n : Nat) : intLiteral (natToStr n) = some n := by
  rw [intLiteral_decimal (text := natToStr n) (natDigits_digits _ _), parseNat_natToStr]
  intro x t h
  by_cases hn : 0 < n
  · obtain ⟨c, u, e, hc⟩ := natDigits_head (n + 1) n hn (by omega)
    have e' : natToStr n = c :: u := e
    rw [h] at e'
    cases e'
    exact hc rfl
  · have : n = 0 := by omega
    subst this
    exact absurd h (by simp [natToStr, natDigits])

theorem interpreted_plain (s : Str) (h1 : '"' ∉ s) (h2 : '\\' ∉ s) (h3 : '\n' ∉ s) : interpreted (s ++ ['"']) = some s := by
  induction s with
  | nil => rfl
  | cons c cs ih =>
    have hc1 : c ≠ '"' := fun e => h1 (by simp [e])
    have hc2 : c ≠ '\\' := fun e => h2 (by simp [e])
    have hc3 : c ≠ '\n' := fun e => h3 (by simp [e])
    have := ih (fun h => h1 (by simp [h])) (fun h => h2 (by simp [h])) (fun h => h3 (by simp [h]))
    simp only [List.cons_append]
    rw [interpreted]
    · rw [if_neg (by simp [hc2, hc3]), this]
      rfl
    · exact hc1
    · intro _ _ _ e _; exact absurd e hc2
    · intro _ _ e _; exact absurd e hc2
    
theorem stringLiteral_plain {text s : Str} (h : PlainQuoted text s) : stringLiteral text = some s := by
  obtain ⟨rfl, h1, h2, h3⟩ := h
  simp only [List.cons_append, List.nil_append, stringLiteral]
  exact interpreted_plain s h1 h2 h3

theorem goQuote_head (s : Str) : ∃ t, goQuote s = '"' :: t := ⟨_, rfl⟩

theorem constString_str (s : Str) : ∃ t, constString (.str s) = '"' :: t := by
  simp only [constString]
  split
  · exact ⟨_, rfl⟩
  · exact ⟨_, rfl⟩

end Astra
