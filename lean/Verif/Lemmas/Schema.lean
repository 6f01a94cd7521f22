/-
Helper lemmas about schema generation.
-/
import Verif.Lemmas.OpenApi
import Verif.Spec.Schema

namespace Astra
open Spec

theorem componentToSchema_eq (E : SchemaEnv) (b : BTag) (f : Field) :
    componentToSchema E b f =
      if (E.mapping f.name f.package).isSome then some (mapTypeFormat E f.name f.package)
      else if f.type = c!"struct" then
        match structLoop E b f.structFields [] [] with
        | some (embedded, props) => some (composeStruct embedded props)
        | none => none
      else some (leafSchema E b f) := by
  cases f; simp only [componentToSchema]; rfl

/-- What one field does to the schema of its struct. -/
inductive Effect where
  | skip
  | embed (s : Schema)
  | prop (n : Str) (s : Schema)

/-- The effect of a field; `none` makes the whole struct unbound. -/
def fieldEffect (E : SchemaEnv) (b : BTag) (f : Field) : Option Effect :=
  if f.isEmbedded then
    match makeRef E.names b f.type f.package with
    | some r => some (.embed { ref := r })
    | none => some .skip
  else
    match fieldBinding f b with
    | none => none
    | some tag =>
      if tag.notShown then some .skip
      else match componentToSchema E b f with
        | some s => some (.prop tag.name s)
        | none => some .skip

theorem structLoop_cons (E : SchemaEnv) (b : BTag) (k : Str) (f : Field) (rest : List (Str × Field)) (e : List Schema)
    (p : List (Str × Schema)) :
    structLoop E b ((k, f) :: rest) e p =
      match fieldEffect E b f with
      | none => none
      | some .skip => structLoop E b rest e p
      | some (.embed s) => structLoop E b rest (e ++ [s]) p
      | some (.prop n s) => structLoop E b rest e (mset p n s) := by
  rw [structLoop]
  unfold fieldEffect
  split
  · cases makeRef E.names b f.type f.package <;> rfl
  · cases fieldBinding f b with
    | none => rfl
    | some tag =>
      simp only
      split
      · rfl
      · cases componentToSchema E b f <;> rfl

theorem structLoop_congr {E : SchemaEnv} {b : BTag} {k k' : Str} {f f' : Field} (h : fieldEffect E b f = fieldEffect E b f')
    {rest rest' : List (Str × Field)} (hr : ∀ e p, structLoop E b rest e p = structLoop E b rest' e p) (e : List Schema)
    (p : List (Str × Schema)) : structLoop E b ((k, f) :: rest) e p = structLoop E b ((k', f') :: rest') e p := by
  rw [structLoop_cons, structLoop_cons, h]
  split
  · rfl
  · exact hr _ _
  · exact hr _ _
  · exact hr _ _

theorem structLoop_append_congr {E : SchemaEnv} {b : BTag} (before : List (Str × Field)) {l l' : List (Str × Field)}
    (hr : ∀ e p, structLoop E b l e p = structLoop E b l' e p) (e : List Schema) (p : List (Str × Schema)) :
    structLoop E b (before ++ l) e p = structLoop E b (before ++ l') e p := by
  induction before generalizing e p with
  | nil => exact hr e p
  | cons x before ih =>
    obtain ⟨k, f⟩ := x
    exact structLoop_congr rfl ih e p

theorem componentToSchema_congr {E : SchemaEnv} {b : BTag} (f : Field) (l : List (Str × Field))
    (hr : structLoop E b f.structFields [] [] = structLoop E b l [] []) :
    componentToSchema E b f = componentToSchema E b { f with structFields := l } := by
  rw [componentToSchema_eq, componentToSchema_eq]
  simp only
  rw [hr]
  rfl

/-! ### Bound or not -/

theorem structLoop_isSome (E : SchemaEnv) (b : BTag) (l : List (Str × Field)) (e : List Schema) (p : List (Str × Schema)) :
    (structLoop E b l e p).isSome = true ↔ ∀ x ∈ l, x.2.isEmbedded = true ∨ (fieldBinding x.2 b).isSome = true := by
  induction l generalizing e p with
  | nil => simp [structLoop]
  | cons x l ih =>
    obtain ⟨k, f⟩ := x
    rw [structLoop_cons]
    simp only [List.mem_cons, forall_eq_or_imp]
    unfold fieldEffect
    by_cases he : f.isEmbedded = true
    · rw [if_pos he]
      cases makeRef E.names b f.type f.package with
      | none => simp [he, ih]
      | some r => simp [he, ih]
    · rw [if_neg he]
      cases fieldBinding f b with
      | none => simp [he]
      | some tag =>
        simp only [he]
        by_cases hn : tag.notShown = true
        · simp [hn, ih]
        · simp only [hn]
          cases componentToSchema E b f with
          | none => simp [ih]
          | some s => simp [ih]

/-! ### References -/

/-- Every reference of the schema is made from the name table, for the binding kind. -/
def RefsFrom (names : List (Str × Str)) (b : BTag) (s : Schema) : Prop :=
  ∀ r, HasRef s r → ∃ t pkg, makeRef names b t pkg = some r

theorem HasRef_iff {s : Schema} {r : Str} : HasRef s r ↔
    (s.ref ≠ [] ∧ r = s.ref) ∨ (∃ t ∈ s.allOf, HasRef t r) ∨ (∃ t, s.items = some t ∧ HasRef t r) ∨
    (∃ x ∈ s.properties, HasRef x.2 r) ∨ (∃ t, s.additionalProperties = some t ∧ HasRef t r) := by
  constructor
  · intro h
    cases h with
    | here h => exact Or.inl ⟨h, rfl⟩
    | allOf h1 h2 => exact Or.inr (Or.inl ⟨_, h1, h2⟩)
    | items h1 h2 => exact Or.inr (Or.inr (Or.inl ⟨_, h1, h2⟩))
    | properties h1 h2 => exact Or.inr (Or.inr (Or.inr (Or.inl ⟨_, h1, h2⟩)))
    | additional h1 h2 => exact Or.inr (Or.inr (Or.inr (Or.inr ⟨_, h1, h2⟩)))
  · rintro (⟨h, rfl⟩ | ⟨t, h1, h2⟩ | ⟨t, h1, h2⟩ | ⟨⟨k, t⟩, h1, h2⟩ | ⟨t, h1, h2⟩)
    · exact .here h
    · exact .allOf h1 h2
    · exact .items h1 h2
    · exact .properties h1 h2
    · exact .additional h1 h2

theorem refsFrom_plain {names : List (Str × Str)} {b : BTag} {s : Schema} (h1 : s.ref = []) (h2 : s.allOf = [])
    (h3 : s.items = none) (h4 : s.properties = []) (h5 : s.additionalProperties = none) : RefsFrom names b s := by
  intro r hr
  rw [HasRef_iff] at hr
  simp [h1, h2, h3, h4, h5] at hr

theorem refsFrom_ref {names : List (Str × Str)} {b : BTag} {r t pkg : Str} (h : makeRef names b t pkg = some r) :
    RefsFrom names b { ref := r } := by
  intro r' hr
  rw [HasRef_iff] at hr
  simp at hr
  exact ⟨t, pkg, by rw [h, hr.2]⟩

theorem refsFrom_format {names : List (Str × Str)} {b : BTag} (tf : Option TypeFormat) : RefsFrom names b (formatSchema tf) := by
  unfold formatSchema
  split
  · split
    · exact refsFrom_plain rfl rfl rfl rfl rfl
    · exact refsFrom_plain rfl rfl rfl rfl rfl
  · exact refsFrom_plain rfl rfl rfl rfl rfl

theorem refsFrom_elem (E : SchemaEnv) (b : BTag) (t pkg : Str) : RefsFrom E.names b (elemSchema E b t pkg) := by
  unfold elemSchema
  split
  · split
    · rename_i h; exact refsFrom_ref h
    · exact refsFrom_format _
  · exact refsFrom_format _

theorem formatSchema_plain (tf : Option TypeFormat) : (formatSchema tf).ref = [] ∧ (formatSchema tf).allOf = [] ∧
    (formatSchema tf).items = none ∧ (formatSchema tf).properties = [] ∧ (formatSchema tf).additionalProperties = none := by
  unfold formatSchema
  split
  · split <;> exact ⟨rfl, rfl, rfl, rfl, rfl⟩
  · exact ⟨rfl, rfl, rfl, rfl, rfl⟩

theorem refsFrom_leaf (E : SchemaEnv) (b : BTag) (c : Field) : RefsFrom E.names b (leafSchema E b c) := by
  unfold leafSchema
  split
  · intro r hr
    rw [HasRef_iff] at hr
    simp only [ne_eq, not_true, false_and, List.not_mem_nil, exists_false, Option.some.injEq, false_or, reduceCtorEq,
      or_false, exists_eq_left'] at hr
    exact refsFrom_elem _ _ _ _ _ hr
  · split
    · intro r hr
      rw [HasRef_iff] at hr
      simp only [ne_eq, not_true, false_and, List.not_mem_nil, exists_false, Option.some.injEq, false_or, reduceCtorEq,
        or_false, exists_eq_left'] at hr
      exact refsFrom_elem _ _ _ _ _ hr
    · split
      · intro r hr
        rw [HasRef_iff] at hr
        simp only [ne_eq, not_true, false_and, List.not_mem_nil, exists_false, Option.some.injEq, false_or, reduceCtorEq,
          exists_eq_left'] at hr
        exact refsFrom_elem _ _ _ _ _ hr
      · split
        · split
          · rename_i h; exact refsFrom_ref h
          · exact refsFrom_format _
        · obtain ⟨h1, h2, h3, h4, h5⟩ := formatSchema_plain (aget predefinedTypeMap c.type)
          exact refsFrom_plain h1 h2 h3 h4 h5

theorem refsFrom_compose {names : List (Str × Str)} {b : BTag} {e : List Schema} {p : List (Str × Schema)}
    (he : ∀ s ∈ e, RefsFrom names b s) (hp : ∀ x ∈ p, RefsFrom names b x.2) : RefsFrom names b (composeStruct e p) := by
  unfold composeStruct
  split
  · intro r hr
    rw [HasRef_iff] at hr
    simp only [ne_eq, not_true, false_and, List.not_mem_nil, exists_false, false_or, reduceCtorEq, or_false] at hr
    obtain ⟨x, hx, hr⟩ := hr
    exact hp x hx r hr
  · split
    · intro r hr
      rw [HasRef_iff] at hr
      simp only [ne_eq, not_true, false_and, List.not_mem_nil, exists_false, false_or, reduceCtorEq, or_false] at hr
      obtain ⟨x, hx, hr⟩ := hr
      exact he x hx r hr
    · intro r hr
      rw [HasRef_iff] at hr
      simp only [ne_eq, not_true, false_and, List.not_mem_nil, exists_false, false_or, reduceCtorEq, or_false,
        List.mem_append, List.mem_singleton] at hr
      obtain ⟨x, hx, hr⟩ := hr
      rcases hx with hx | rfl
      · exact he x hx r hr
      · rw [HasRef_iff] at hr
        simp only [ne_eq, not_true, false_and, List.not_mem_nil, exists_false, false_or, reduceCtorEq, or_false] at hr
        obtain ⟨y, hy, hr⟩ := hr
        exact hp y hy r hr

mutual
theorem refsFrom_component (E : SchemaEnv) (b : BTag) : (f : Field) → ∀ s, componentToSchema E b f = some s → RefsFrom E.names b s
  | ⟨package, type, name, enumValues, isRequired, isEmbedded, sliceType, arrayType, arrayLength, mapKeyPackage, mapKeyType,
      mapValueType, structFields, bindingTags, validationTags, doc⟩ => by
    intro s h
    simp only [componentToSchema] at h
    split at h
    · injection h with h; subst h; exact refsFrom_format _
    · split at h
      · split at h
        · rename_i e p hl
          injection h with h
          subst h
          obtain ⟨h1, h2⟩ := refsFrom_loop E b structFields [] [] e p hl (by simp) (by simp)
          exact refsFrom_compose h1 h2
        · simp at h
      · injection h with h; subst h; exact refsFrom_leaf _ _ _
theorem refsFrom_loop (E : SchemaEnv) (b : BTag) : (l : List (Str × Field)) → ∀ e p e' p', structLoop E b l e p = some (e', p') →
    (∀ s ∈ e, RefsFrom E.names b s) → (∀ x ∈ p, RefsFrom E.names b x.2) →
    (∀ s ∈ e', RefsFrom E.names b s) ∧ (∀ x ∈ p', RefsFrom E.names b x.2)
  | [] => by
    intro e p e' p' h he hp
    simp only [structLoop, Option.some.injEq, Prod.mk.injEq] at h
    obtain ⟨rfl, rfl⟩ := h
    exact ⟨he, hp⟩
  | (k, f) :: rest => by
    intro e p e' p' h he hp
    have ih := refsFrom_loop E b rest
    have ihf := refsFrom_component E b f
    rw [structLoop_cons] at h
    unfold fieldEffect at h
    by_cases hem : f.isEmbedded = true
    · rw [if_pos hem] at h
      cases hr : makeRef E.names b f.type f.package with
      | none => rw [hr] at h; exact ih _ _ _ _ h he hp
      | some r =>
        rw [hr] at h
        refine ih _ _ _ _ h ?_ hp
        intro s hs
        rcases List.mem_append.mp hs with hs | hs
        · exact he s hs
        · rw [List.mem_singleton.mp hs]; exact refsFrom_ref hr
    · rw [if_neg hem] at h
      cases hb : fieldBinding f b with
      | none => rw [hb] at h; simp at h
      | some tag =>
        rw [hb] at h
        simp only at h
        by_cases hn : tag.notShown = true
        · rw [if_pos hn] at h; exact ih _ _ _ _ h he hp
        · rw [if_neg hn] at h
          cases hc : componentToSchema E b f with
          | none => rw [hc] at h; exact ih _ _ _ _ h he hp
          | some s =>
            rw [hc] at h
            refine ih _ _ _ _ h he ?_
            intro x hx
            rcases mem_mset hx with hx | hx
            · rw [hx]; exact ihf s hc
            · exact hp x hx
end

theorem refsFrom_field (E : SchemaEnv) (b : BTag) (f : Field) (s : Schema) (h : mapFieldToSchema E b f = some s) :
    RefsFrom E.names b s := by
  obtain ⟨h1, h2, h3, h4, h5⟩ := formatSchema_plain (aget predefinedTypeMap f.type)
  unfold mapFieldToSchema at h
  split at h
  · cases hr : makeRef E.names b f.type f.package with
    | none => rw [hr] at h; simp at h
    | some r =>
      rw [hr] at h
      simp only [Option.map_some, Option.some.injEq] at h
      subst h
      exact refsFrom_ref hr
  · split at h
    · simp only [Option.some.injEq] at h
      subst h
      intro r hr
      rw [HasRef_iff] at hr
      simp only [mapPredefined, h1, h2, h4, h5, ne_eq, not_true, false_and, List.not_mem_nil, exists_false, false_or, reduceCtorEq,
        or_false, Option.some.injEq, exists_eq_left'] at hr
      revert hr
      split
      · split
        · rename_i hm; intro hr; exact refsFrom_ref hm r hr
        · intro hr; exact (refsFrom_plain (names := E.names) (b := b) rfl rfl rfl rfl rfl) r hr
      · intro hr; exact (refsFrom_plain (names := E.names) (b := b) rfl rfl rfl rfl rfl) r hr
    · split at h
      · simp only [Option.some.injEq] at h
        subst h
        intro r hr
        rw [HasRef_iff] at hr
        simp only [mapPredefined, h1, h2, h3, h4, ne_eq, not_true, false_and, List.not_mem_nil, exists_false, false_or, reduceCtorEq,
          Option.some.injEq, exists_eq_left'] at hr
        revert hr
        split
        · split
          · rename_i hm; intro hr; exact refsFrom_ref hm r hr
          · intro hr; exact (refsFrom_plain (names := E.names) (b := b) rfl rfl rfl rfl rfl) r hr
        · intro hr; exact refsFrom_format _ r hr
      · simp only [Option.some.injEq] at h
        subst h
        exact refsFrom_format _

theorem refsFrom_param (E : SchemaEnv) (b : BTag) (p : Param) (s : Schema) (h : mapParamToSchema E b p = some s) :
    RefsFrom E.names b s := by
  unfold mapParamToSchema at h
  split at h
  · exact refsFrom_field E b _ s h
  · split at h
    · simp only [Option.some.injEq] at h
      subst h
      intro r hr
      rw [HasRef_iff] at hr
      simp only [ne_eq, not_true, false_and, List.not_mem_nil, exists_false, false_or, reduceCtorEq,
        or_false, Option.some.injEq, exists_eq_left'] at hr
      revert hr
      split
      · split
        · rename_i hm; intro hr; exact refsFrom_ref hm r hr
        · intro hr; exact refsFrom_format _ r hr
      · intro hr; exact refsFrom_format _ r hr
    · split at h
      · simp only [Option.some.injEq] at h
        subst h
        intro r hr
        rw [HasRef_iff] at hr
        simp only [ne_eq, not_true, false_and, List.not_mem_nil, exists_false, false_or, reduceCtorEq,
          Option.some.injEq, exists_eq_left'] at hr
        revert hr
        split
        · split
          · rename_i hm; intro hr; exact refsFrom_ref hm r hr
          · intro hr; exact (refsFrom_plain (names := E.names) (b := b) rfl rfl rfl rfl rfl) r hr
        · intro hr; exact refsFrom_format _ r hr
      · simp only [Option.some.injEq] at h
        subst h
        exact refsFrom_format _

end Astra
