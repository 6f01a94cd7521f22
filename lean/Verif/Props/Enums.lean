/-
C23 (enums) and C55 (type documentation).
-/
import Verif.Lemmas.TypeTraversal
import Verif.Spec.Types
import Verif.Spec.Enums
import Verif.Props.SafePushing

namespace Astra.Props
open Astra.Spec

theorem trimLeftBy_head (p : Char → Bool) (s : Str) : trimLeftBy p s = [] ∨ ∃ c t, trimLeftBy p s = c :: t ∧ p c = false := by
  induction s with
  | nil => exact Or.inl rfl
  | cons c s ih =>
    simp only [trimLeftBy]
    split
    · exact ih
    · rename_i h; exact Or.inr ⟨c, s, rfl, by simpa using h⟩

theorem trimLeftBy_fix (p : Char → Bool) (s : Str) (h : ∀ c ∈ s.head?, p c = false) : trimLeftBy p s = s := by
  cases s with
  | nil => rfl
  | cons c s => simp only [trimLeftBy]; rw [if_neg (by simp [h c (by simp)])]

theorem trimLeftBy_suffix (p : Char → Bool) (s : Str) : trimLeftBy p s <:+ s := by
  induction s with
  | nil => exact List.suffix_refl _
  | cons c s ih =>
    simp only [trimLeftBy]
    split
    · exact ih.trans (List.suffix_cons c s)
    · exact List.suffix_refl _

theorem trimBy_idem (p : Char → Bool) (s : Str) : trimBy p (trimBy p s) = trimBy p s := by
  have hlast : ∀ t : Str, trimRightBy p (trimRightBy p t) = trimRightBy p t := by
    intro t
    unfold trimRightBy
    rw [List.reverse_reverse, trimLeftBy_fix p (trimLeftBy p t.reverse)]
    intro c hc
    rcases trimLeftBy_head p t.reverse with h | ⟨d, u, h, hd⟩
    · rw [h] at hc; simp at hc
    · rw [h] at hc; simp at hc; rw [← hc]; exact hd
  have hfirst : trimLeftBy p (trimRightBy p (trimLeftBy p s)) = trimRightBy p (trimLeftBy p s) := by
    apply trimLeftBy_fix
    intro c hc
    have hpre : trimRightBy p (trimLeftBy p s) <+: trimLeftBy p s := by
      have := trimLeftBy_suffix p (trimLeftBy p s).reverse
      rw [← List.reverse_prefix, List.reverse_reverse] at this
      exact this
    obtain ⟨u, hu⟩ := hpre
    cases ht : trimRightBy p (trimLeftBy p s) with
    | nil => rw [ht] at hc; simp at hc
    | cons d v =>
      rw [ht] at hc hu
      simp at hc
      rcases trimLeftBy_head p s with h | ⟨e, w, h, he⟩
      · rw [h] at hu; simp at hu
      · rw [h] at hu; simp at hu; rw [← hc, hu.1]; exact he
  unfold trimBy
  rw [hfirst, hlast]

theorem trimBy_quoted (s : Str) (hs : '"' ∉ s) : trimBy (· = '"') ('"' :: (s ++ ['"'])) = s := by
  have hd : ∀ (l : Str), '"' ∉ l → trimLeftBy (fun x => decide (x = '"')) l = l := by
    intro l hl
    apply trimLeftBy_fix
    intro c hc
    have : c ∈ l := List.mem_of_mem_head? hc
    simp only [decide_eq_false_iff_not]
    rintro rfl; exact hl this
  cases s with
  | nil => decide
  | cons c s =>
    have hc : c ≠ '"' := fun h => hs (by simp [h])
    unfold trimBy trimRightBy
    rw [trimLeftBy, if_pos (by simp), trimLeftBy_fix _ (c :: s ++ ['"']) (by simp [hc]), List.reverse_append]
    simp only [List.reverse_cons, List.reverse_nil, List.nil_append, List.singleton_append]
    rw [trimLeftBy, if_pos (by simp), hd _ (by simpa [or_comm] using hs)]
    simp

theorem atoi_natToStr (n : Nat) : atoi (natToStr n) = some (Int.ofNat n) := by
  have h := parseNat_natToStr n
  cases hc : natToStr n with
  | nil => rw [hc] at h; cases h
  | cons c s =>
    rw [hc] at h
    by_cases h1 : c = '-'
    · subst h1; exact absurd h (by simp [parseNat, parseDigits, digitVal])
    · by_cases h2 : c = '+'
      · subst h2; exact absurd h (by simp [parseNat, parseDigits, digitVal])
      · unfold atoi
        split
        · rename_i heq; cases heq; exact absurd rfl h1
        · rename_i heq; cases heq; exact absurd rfl h2
        · rw [h]; rfl

theorem enumLit_plain (Γ : TypeEnv) (kind : BasicKind) (text : Str) (v : EnumVal) (h : PlainLiteral text v) (hk : KindHas kind v) :
    enumLit Γ kind text = some v := by
  cases v with
  | int i =>
    obtain ⟨n, rfl, rfl⟩ := h
    cases kind <;> simp [enumLit, atoi_natToStr, parseNat_natToStr, KindHas] at hk ⊢
  | str s =>
    obtain ⟨h1, _, rfl⟩ := h
    cases kind <;> simp [enumLit, trimBy_quoted s h1, KindHas] at hk ⊢
  | float s => exact absurd h (by simp [PlainLiteral])
  | bool s => exact absurd h (by simp [PlainLiteral])

theorem enumSpec_plain (Γ : TypeEnv) (kind : BasicKind) (n : Str) (s : ConstSpec) (h : PlainConsts kind n s) :
    enumSpec Γ kind n s = (s.truth.filter (fun c => c.1 = n)).map (·.2) := by
  unfold enumSpec
  rcases h with ⟨h1, vs, h2, h3, h4⟩ | ⟨h1, h2⟩
  · rw [if_pos h1, h2, h3]
    clear h1 h2 h3
    induction vs with
    | nil => rfl
    | cons x vs ih =>
      have hx := h4 x (by simp)
      simp only [List.map_cons, List.filterMap_cons, enumLit_plain Γ kind _ _ hx.1 hx.2]
      rw [List.filter_cons_of_pos (by simp), List.map_cons, ih (fun y hy => h4 y (by simp [hy]))]
  · rw [if_neg h1]
    have : s.truth.filter (fun c => c.1 = n) = [] := by
      rw [List.filter_eq_nil_iff]
      intro c hc; simp [h2 c hc]
    rw [this]; rfl

/-- C23, partial: when the constants of the type are declared with plain literals and explicit types, the enum values are
exactly the declared constants, in source order. Missing: other ways to declare constants, see below. -/
theorem enum_values_declared_partial (Γ : TypeEnv) (pkg : Str) (kind : BasicKind) (n : Str)
    (h : ∀ d ∈ (Γ.files pkg).flatten, ∀ s ∈ constSpecs d, PlainConsts kind n s) :
    enumValuesOf Γ pkg kind n = declaredConstants (Γ.files pkg) n := by
  unfold enumValuesOf declaredConstants
  have h' : ∀ s ∈ (Γ.files pkg).flatten.flatMap constSpecs, PlainConsts kind n s := by
    intro s hs
    obtain ⟨d, hd, hs⟩ := List.mem_flatMap.1 hs
    exact h d hd s hs
  rw [← List.flatMap_def, ← List.flatMap_def]
  generalize (Γ.files pkg).flatten.flatMap constSpecs = l at h'
  induction l with
  | nil => rfl
  | cons s l ih =>
    rw [List.flatMap_cons, List.flatMap_cons, enumSpec_plain Γ kind n s (h' s (by simp)), ih (fun x hx => h' x (by simp [hx]))]

/-- C23: the enum values and the documentation reach the component: translating a use of a named basic type that has no
component yet appends exactly one, with the type's name, package, basic type, enum values and documentation. -/
theorem enum_component (Γ : TypeEnv) (fuel : Nat) (st : List Field) (pkg : Option Str) (p n a : Str) (kind : BasicKind) (b : Str)
    (hl : Γ.loadable p = true) (hu : Γ.underlying p n a = .basic kind b) (hp : p ≠ []) (hn : n ≠ []) (hb : b ≠ [])
    (hnew : ∀ c ∈ st, ¬ (c.name = n ∧ c.package = p)) :
    typeResult Γ true (fuel + 1) st pkg [] (.named (some p) n a)
      = some (st ++ [{ package := p, type := b, name := n, enumValues := enumValuesOf Γ p kind n, doc := typeDoc Γ p n }],
          .ok { type := n, package := some p }) := by
  have hr : typeResult Γ true fuel st (some p) n (.basic kind b)
      = some (st, .ok { type := b, package := some p, enumValues := enumValuesOf Γ p kind n, name := n }) := by
    cases fuel <;> simp [typeResult, typeStep, hn, hl, finishResult, hb]
  have hf : parseResultToField { type := b, package := some p, enumValues := enumValuesOf Γ p kind n, name := n, doc := typeDoc Γ p n }
      = { package := p, type := b, name := n, enumValues := enumValuesOf Γ p kind n, doc := typeDoc Γ p n } := by
    have ht : trimSpace (typeDoc Γ p n) = typeDoc Γ p n := by
      unfold typeDoc formatDoc
      split
      · exact trimBy_idem _ _
      · rfl
    simp only [parseResultToField, needsPackage, nodePath, parseResultsToFields, ht]
    by_cases hd : typeDoc Γ p n = [] <;> simp [hn, hd]
  rw [typeResult.eq_2, typeStep.eq_4, hu, hr]
  simp only [hl, Bool.true_eq_false, if_false, if_true, pushComponent, hf]
  rw [if_pos hp]
  have hadd : addComponent st [{ package := p, type := b, name := n, enumValues := enumValuesOf Γ p kind n, doc := typeDoc Γ p n }]
      = st ++ [{ package := p, type := b, name := n, enumValues := enumValuesOf Γ p kind n, doc := typeDoc Γ p n }] := by
    simp only [addComponent, List.foldl, addComponent1]
    split
    · rfl
    · rw [if_neg]
      simp only [List.any_eq_true, not_exists, not_and, Bool.and_eq_true, decide_eq_true_eq]
      intro c hc h1 h2
      exact hnew c hc ⟨h1.symm, h2.symm⟩
  rw [hadd]
  simp [finishResult, hn]

/-- A package that declares `type Status string` with constants in two files and one of another type. -/
def statusFiles : List (List Decl) :=
  [[.const [{ typeIdent := some c!"Status", values := [.lit c!"\"open\""], truth := [(c!"Status", .str c!"open")] },
      { typeIdent := some c!"Level", values := [.lit c!"3"], truth := [(c!"Level", .int 3)] }], .other],
   [.const [{ typeIdent := some c!"Status", values := [.lit c!"\"\"", .lit c!"\"done\""], truth := [(c!"Status", .str c!""), (c!"Status", .str c!"done")] }]]]

def statusEnv (files : List (List Decl)) : TypeEnv where
  loadable := fun _ => true
  underlying := fun _ _ _ => .basic .string c!"string"
  files := fun _ => files
  nodeAt := fun _ _ => .other
  parseFloat := fun _ => none

example : ∀ d ∈ ((statusEnv statusFiles).files c!"p").flatten, ∀ s ∈ constSpecs d, PlainConsts .string c!"Status" s := by
  intro d hd s hs
  simp only [statusEnv, statusFiles, List.flatten_cons, List.flatten_nil, List.cons_append, List.nil_append, List.append_nil, List.mem_cons, List.not_mem_nil,
    or_false] at hd
  rcases hd with rfl | rfl | rfl
  · simp only [constSpecs, List.mem_cons, List.not_mem_nil, or_false] at hs
    rcases hs with rfl | rfl
    · exact Or.inl ⟨rfl, [(c!"\"open\"", .str c!"open")], rfl, rfl, by simp [PlainLiteral, KindHas]⟩
    · exact Or.inr ⟨by decide, by simp⟩
  · simp [constSpecs] at hs
  · simp only [constSpecs, List.mem_cons, List.not_mem_nil, or_false] at hs
    subst hs
    exact Or.inl ⟨rfl, [(c!"\"\"", .str c!""), (c!"\"done\"", .str c!"done")], rfl, rfl, by simp [PlainLiteral, KindHas]⟩
example : declaredConstants statusFiles c!"Status" = [.str c!"open", .str c!"", .str c!"done"] := by decide
example : enumValuesOf (statusEnv statusFiles) c!"p" .string c!"Status" = [.str c!"open", .str c!"", .str c!"done"] := by decide

/-- C23 fails for the usual `iota` enumeration (`const (A Level = iota; B)`): no value is found. -/
theorem iota_enum_empty :
    let files := [[Decl.const [{ typeIdent := some c!"Level", values := [.other], truth := [(c!"Level", .int 0)] },
      { truth := [(c!"Level", .int 1)] }]]]
    enumValuesOf (statusEnv files) c!"p" .int c!"Level" = [] ∧ declaredConstants files c!"Level" = [.int 0, .int 1] := by decide

/-- C23 fails for negative constants (`const Low Level = -1` is not a basic literal): the value is left out. -/
theorem negative_enum_missing :
    let files := [[Decl.const [{ typeIdent := some c!"Level", values := [.other], truth := [(c!"Level", .int (-1))] },
      { typeIdent := some c!"Level", values := [.lit c!"1"], truth := [(c!"Level", .int 1)] }]]]
    enumValuesOf (statusEnv files) c!"p" .int c!"Level" = [.int 1] ∧ declaredConstants files c!"Level" = [.int (-1), .int 1] := by
  decide

/-- C23 fails for octal literals (`const Mode Perm = 010` is 8 in Go): a wrong value is listed. -/
theorem octal_enum_wrong :
    let files := [[Decl.const [{ typeIdent := some c!"Perm", values := [.lit c!"010"], truth := [(c!"Perm", .int 8)] }]]]
    enumValuesOf (statusEnv files) c!"p" .int c!"Perm" = [.int 10] ∧ declaredConstants files c!"Perm" = [.int 8] := by decide

/-- C23 fails for raw string literals: the back quotes are part of the listed value. -/
theorem raw_string_enum_wrong :
    let files := [[Decl.const [{ typeIdent := some c!"Status", values := [.lit c!"`open`"], truth := [(c!"Status", .str c!"open")] }]]]
    enumValuesOf (statusEnv files) c!"p" .string c!"Status" = [.str c!"`open`"] ∧
      declaredConstants files c!"Status" = [.str c!"open"] := by decide

/-! ### C55 -/

theorem typeDocMap_specs (Γ : TypeEnv) (pkg : Str) :
    typeDocMap Γ pkg = (allTypeSpecs (Γ.files pkg)).foldl (fun m e => typeDocEntry e.1 m e.2) [] := by
  unfold typeDocMap allTypeSpecs
  generalize ([] : List (Str × Str)) = m
  generalize (Γ.files pkg).flatten = l
  induction l generalizing m with
  | nil => rfl
  | cons d l ih =>
    rw [List.foldl_cons, List.flatMap_cons, List.foldl_append, ih]
    cases d <;> simp [typeDocDecl, typeSpecs, List.foldl_map]

theorem typeDocEntry_get (doc : Option Str) (m : List (Str × Str)) (s : TypeSpec) (n : Str) :
    mget (typeDocEntry doc m s) n = if s.name = n ∧ (s.doc <|> doc).isSome then (s.doc <|> doc) else mget m n := by
  cases hd : s.doc with
  | some d =>
    simp only [typeDocEntry, hd, mget_mset]
    by_cases h : s.name = n <;> simp [h]
  | none =>
    cases doc with
    | none => simp [typeDocEntry, hd]
    | some d =>
      simp only [typeDocEntry, hd, mget_mset]
      by_cases h : s.name = n <;> simp [h]

/-- C55: in a package that declares each type name once, as every Go package does, the documentation of a type is its own
comment if it has one, else the comment of its declaration group, else empty. -/
theorem type_doc (Γ : TypeEnv) (pkg : Str) (hn : ((allTypeSpecs (Γ.files pkg)).map (·.2.name)).Nodup)
    (doc : Option Str) (s : TypeSpec) (hs : (doc, s) ∈ allTypeSpecs (Γ.files pkg)) :
    typeDoc Γ pkg s.name = match s.doc, doc with
      | some d, _ => formatDoc d
      | none, some d => formatDoc d
      | none, none => [] := by
  have key : ∀ (l : List (Option Str × TypeSpec)) m, (l.map (·.2.name)).Nodup → (doc, s) ∈ l → mget m s.name = none →
      mget (l.foldl (fun m e => typeDocEntry e.1 m e.2) m) s.name = (s.doc <|> doc) := by
    have frame : ∀ (l : List (Option Str × TypeSpec)) m n, n ∉ l.map (·.2.name) →
        mget (l.foldl (fun m e => typeDocEntry e.1 m e.2) m) n = mget m n := by
      intro l
      induction l with
      | nil => intros; rfl
      | cons e l ih =>
        intro m n h
        simp only [List.map_cons, List.mem_cons, not_or] at h
        rw [List.foldl_cons, ih _ _ h.2, typeDocEntry_get, if_neg (fun hh => h.1 hh.1.symm)]
    intro l
    induction l with
    | nil => intro m _ h; simp at h
    | cons e l ih =>
      intro m hnd hmem hm
      simp only [List.map_cons, List.nodup_cons] at hnd
      rw [List.foldl_cons]
      simp only [List.mem_cons] at hmem
      rcases hmem with rfl | hmem
      · rw [frame _ _ _ hnd.1, typeDocEntry_get]
        cases hd : s.doc with
        | some d => simp
        | none => cases doc <;> simp [hm]
      · apply ih _ hnd.2 hmem
        have : e.2.name ≠ s.name := by
          intro h
          exact hnd.1 (List.mem_map.2 ⟨(doc, s), hmem, h.symm⟩)
        rw [typeDocEntry_get, if_neg (fun hh => this hh.1), hm]
  unfold typeDoc
  rw [typeDocMap_specs, key _ [] hn hs rfl]
  cases s.doc <;> cases doc <;> rfl

/-- C55: a type without a declaration in the files has no documentation. -/
theorem type_doc_missing (Γ : TypeEnv) (pkg n : Str) (h : ∀ e ∈ allTypeSpecs (Γ.files pkg), e.2.name ≠ n) : typeDoc Γ pkg n = [] := by
  have frame : ∀ (l : List (Option Str × TypeSpec)) m, (∀ e ∈ l, e.2.name ≠ n) →
      mget (l.foldl (fun m e => typeDocEntry e.1 m e.2) m) n = mget m n := by
    intro l
    induction l with
    | nil => intros; rfl
    | cons e l ih =>
      intro m h
      rw [List.foldl_cons, ih _ (fun x hx => h x (by simp [hx])), typeDocEntry_get, if_neg (fun hh => h e (by simp) hh.1)]
  unfold typeDoc
  rw [typeDocMap_specs, frame _ [] h]
  rfl

def docFiles : List (List Decl) :=
  [[.type (some c!"Shapes.\n") [{ name := c!"Circle", doc := some c!"A circle.\n" }, { name := c!"Square" }]], [.type none [{ name := c!"Line" }]]]

example : ((allTypeSpecs ((statusEnv docFiles).files c!"p")).map (·.2.name)).Nodup := by decide
example : typeDoc (statusEnv docFiles) c!"p" c!"Circle" = c!"A circle." ∧ typeDoc (statusEnv docFiles) c!"p" c!"Square" = c!"Shapes."
    ∧ typeDoc (statusEnv docFiles) c!"p" c!"Line" = [] := by decide

end Astra.Props
