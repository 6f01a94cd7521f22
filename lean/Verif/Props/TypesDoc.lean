/-
C89, C90: the schemas of the Go types of a program. This file: from the definition of a type to its component to its schema.
-/
import Verif.Props.JsonDoc
import Verif.Props.Components
import Verif.Props.SchemaShape
import Verif.Props.Refs
import Verif.Props.Clean
import Verif.Props.Tags

namespace Astra.Props
open Astra.Spec

/-- The name of the schema of a defined type, for references of one binding kind. -/
def targetOf (names : List (Str × Str)) (m : Str) (b : BTag) (p n : Str) : Option Str := refName names b n (finalPackage m p)

/-! ### Single types -/

/-- The result of translating a single type. -/
def CoreResult (pkg : Option Str) : GoType → Result → Prop
  | .basic _ n, r => r = { type := n, package := pkg }
  | .named (some p) n _, r => r = { type := n, package := some p }
  | .interface, r => r = { type := c!"any", package := pkg }
  | .pointer e, r => CoreResult pkg e r
  | _, _ => False

theorem single_result (Γ : TypeEnv) (rec : TRec) {t : GoType} (h : Single t) (st : List Field) (pkg : Option Str) (st' : List Field)
    (r : Result) (ht : typeStep Γ true rec st pkg [] t = some (st', .ok r)) : CoreResult pkg t r := by
  induction h with
  | basic hn _ =>
    simp only [typeStep, if_true] at ht
    obtain ⟨_, h2⟩ := Prod.mk.inj (Option.some.inj ht)
    obtain ⟨_, h3⟩ := finishResult_ok h2
    exact h3
  | @named p n a hn _ _ _ _ =>
    simp only [typeStep, if_true] at ht
    split at ht
    · cases ht
    · cases hr : rec st (some p) n (Γ.underlying p n a) with
      | none => rw [hr] at ht; cases ht
      | some y =>
        obtain ⟨s2, res⟩ := y
        rw [hr] at ht
        cases res with
        | err e => cases ht
        | panic e => cases ht
        | ok r2 =>
          obtain ⟨_, h2⟩ := Prod.mk.inj (Option.some.inj ht)
          obtain ⟨_, h3⟩ := finishResult_ok h2
          exact h3
  | interface =>
    simp only [typeStep] at ht
    obtain ⟨_, h2⟩ := Prod.mk.inj (Option.some.inj ht)
    obtain ⟨_, h3⟩ := finishResult_ok h2
    exact h3
  | pointer _ ih =>
    simp only [typeStep] at ht
    exact ih ht

theorem any_facts : isAcceptedType c!"any" = true ∧ c!"any" ∉ [c!"slice", c!"array", c!"map", c!"struct"] ∧ '.' ∉ c!"any" := by decide +kernel

theorem primitive_no_dot : ∀ x ∈ primitives, '.' ∉ x.1 ∧ x.1 ≠ [] := by decide +kernel

/-- The schema of a single type, and what is known of the words used for it. -/
theorem single_shape {names : List (Str × Str)} {m : Str} {b : BTag} {pkg : Option Str} {t : GoType} {r : Result} (hs : Single t)
    (hc : CoreResult pkg t r) (htgt : ∀ x, Occurs t x → (targetOf names m b x.1 x.2.1).isSome = true) :
    (∃ s, TypeSchema (targetOf names m b) t s ∧
      ∀ q, (isAcceptedType r.type = true ∨ q = finalPackage m (r.package.getD [])) → NamedSchema (refName names b) q r.type s) ∧
    '.' ∉ r.type ∧ r.type ∉ [c!"slice", c!"array", c!"map", c!"struct"] ∧ r.type ≠ [] ∧
    r = { type := r.type, package := r.package } ∧ (isAcceptedType r.type = true → r.package = pkg) := by
  induction hs with
  | basic hn _ =>
    simp only [CoreResult] at hc
    obtain ⟨⟨n', type, fmt⟩, hp, rfl⟩ := List.mem_map.mp hn
    simp only at *
    subst hc
    have hf := primitive_facts _ hp
    refine ⟨⟨_, .primitive hp, fun q _ => .primitive hp⟩, (primitive_no_dot _ hp).1, hf.2.2.2, (primitive_no_dot _ hp).2, rfl, fun _ => rfl⟩
  | @named p n a hn har hd hne _ =>
    simp only [CoreResult] at hc
    subst hc
    obtain ⟨s, hsome⟩ := Option.isSome_iff_exists.mp (htgt (p, n, a) (.named p n a))
    have hna := not_accepted hn
    refine ⟨⟨_, .named hsome, ?_⟩, hd, ?_, hne, rfl, ?_⟩
    · rintro q (h | rfl)
      · simp only at h; rw [hna] at h; cases h
      · exact .defined hn hsome
    · intro h
      simp only at h
      simp only [List.mem_cons, List.not_mem_nil, or_false] at h
      rcases h with h | h | h | h
      · exact hn (by rw [h]; decide)
      · exact har h
      · exact hn (by rw [h]; decide)
      · exact hn (by rw [h]; decide)
    · intro h; simp only at h; rw [hna] at h; cases h
  | interface =>
    simp only [CoreResult] at hc
    subst hc
    exact ⟨⟨_, .interface, fun q _ => .anything⟩, any_facts.2.2, any_facts.2.1, by simp, rfl, fun _ => rfl⟩
  | pointer _ ih =>
    obtain ⟨⟨s, h1, h2⟩, h3⟩ := ih hc (fun x hx => htgt x (.pointer hx))
    exact ⟨⟨s, .pointer h1, h2⟩, h3⟩

/-- The result of translating a slice, map or struct without a name: only its word and its package matter to the type around it. -/
theorem composite_result (Γ : TypeEnv) (rec : TRec) {t : GoType} (h : Composite Γ t) : ∀ (st : List Field) (pkg : Option Str) (st' : List Field)
    (r : Result), typeStep Γ true rec st pkg [] t = some (st', .ok r) → ∃ ty, (r.type, ty) ∈ composites ∧ Outline t { type := ty } := by
  have hf : ∀ {r r' : Result}, finishResult [] r = .ok r' → r'.type = r.type := by
    intro r r' h
    obtain ⟨_, h3⟩ := finishResult_ok h
    rw [h3]
    simp
  induction h with
  | slice _ =>
    intro st pkg st' r ht
    refine ⟨_, ?_, .slice⟩
    simp only [typeStep] at ht
    split at ht
    · rw [hf (Prod.mk.inj (Option.some.inj ht)).2]; simp [composites]
    · rename_i hx; exact absurd ht (hx _ _)
  | map =>
    intro st pkg st' r ht
    refine ⟨_, ?_, .map⟩
    simp only [typeStep] at ht
    split at ht
    · split at ht
      · rw [hf (Prod.mk.inj (Option.some.inj ht)).2]; simp [composites]
      · rename_i hx; exact absurd ht (hx _ _)
    · rename_i hx; exact absurd ht (hx _ _)
  | struct =>
    intro st pkg st' r ht
    refine ⟨_, ?_, .struct⟩
    simp only [typeStep] at ht
    split at ht
    · cases ht
    · cases ht
    · cases ht
    · rw [hf (Prod.mk.inj (Option.some.inj ht)).2]; simp [composites]
  | pointer _ ih =>
    intro st pkg st' r ht
    simp only [typeStep] at ht
    obtain ⟨ty, h1, h2⟩ := ih st pkg st' r ht
    exact ⟨ty, h1, .pointer h2⟩

/-- The schema of the element type of a slice, array or map. -/
theorem element_shape (Γ : TypeEnv) (rec : TRec) {names : List (Str × Str)} {m : Str} {b : BTag} {e : GoType} (h : Single e ∨ Composite Γ e)
    (st : List Field) (pkg : Option Str) (st' : List Field) (r : Result) (ht : typeStep Γ true rec st pkg [] e = some (st', .ok r))
    (htgt : ∀ x, Occurs e x → (targetOf names m b x.1 x.2.1).isSome = true) :
    (∃ s, ((Single e ∧ TypeSchema (targetOf names m b) e s) ∨ Outline e s) ∧
      ∀ q, (isAcceptedType r.type = true ∨ q = finalPackage m (r.package.getD [])) → NamedSchema (refName names b) q r.type s) ∧
    '.' ∉ r.type ∧ r.type ≠ [] := by
  rcases h with hs | hc
  · obtain ⟨⟨s, h1, h2⟩, h3, _, h5, _⟩ := single_shape hs (single_result Γ rec hs st pkg st' r ht) htgt
    exact ⟨⟨s, Or.inl ⟨hs, h1⟩, h2⟩, h3, h5⟩
  · obtain ⟨ty, h1, h2⟩ := composite_result Γ rec hc st pkg st' r ht
    have hf := composite_facts _ h1
    exact ⟨⟨_, Or.inr h2, fun q _ => .composite h1⟩, hf.2.2.2.2.1, hf.2.2.2.2.2⟩

theorem nameless_not_substituted {f : Field} (h : f.name = []) : ¬ Substituted f := by
  unfold Substituted qualifiedName
  rw [h]
  by_cases hp : f.package = []
  · simp [hp]
  · rw [if_pos hp]
    rintro (e | e)
    · have := congrArg List.getLast? e
      simp at this
    · have := congrArg List.getLast? e
      simp at this

theorem set_name (name : Str) (r : Result) (h : r.name = []) : (if name ≠ [] then { r with name := name } else r) = { r with name := name } := by
  by_cases hn : name = []
  · subst hn
    rw [if_neg (by simp)]
    cases r
    simp only at h
    subst h
    rfl
  · rw [if_pos hn]

/-- What is known of the description of a (nameless or own) type after cleaning. -/
structure FieldOf (target : Str → Str → Option Str) (refs : Str → Str → Option Str) (t : GoType) (name : Str) (g : Result) (f : Field) (s : Schema) : Prop where
  type : TypeSchema target t s
  field : FieldSchema refs f s
  dots : '.' ∉ f.type ∧ '.' ∉ f.sliceType ∧ '.' ∉ f.arrayType ∧ '.' ∉ f.mapValueType
  name : f.name = name
  leaf : f.structFields = []
  notStruct : f.type ≠ c!"struct"
  embedded : f.isEmbedded = g.isEmbedded
  tags : f.bindingTags = g.bindingTags
  doc : f.doc = (if g.doc ≠ [] then trimSpace g.doc else [])
  noEnum : f.enumValues = []
  array : f.type = c!"array" → IsArray t

/-- Cleaning the description of a type without struct fields. -/
theorem leaf_field (m : Str) (g : Result) (hs : g.structFields = []) (hsub : ¬ Substituted (parseResultToField g)) :
    ∃ mk, cleanField m (parseResultToField g) =
      { type := g.type, name := g.name, enumValues := g.enumValues, isEmbedded := g.isEmbedded, sliceType := g.sliceType,
        arrayType := g.arrayType, arrayLength := g.arrayLength, mapKeyType := g.mapKeyType, mapValueType := g.mapValueType,
        bindingTags := g.bindingTags, validationTags := g.validationTags, doc := if g.doc ≠ [] then trimSpace g.doc else [],
        package := finalPackage m (if needsPackage g.type g.name g.sliceType g.arrayType g.mapValueType then nodePath g.package else []),
        mapKeyPackage := mk, structFields := [] } := by
  rw [clean_only_renames _ _ hsub]
  cases g
  simp only at hs
  subst hs
  exact ⟨_, rfl⟩

theorem needs_named {name : Str} (h : name ≠ []) (a b c d : Str) : needsPackage a name b c d = true := by
  simp [needsPackage, h]

theorem describable_shape_core (Γ : TypeEnv) (rec : TRec) {names : List (Str × Str)} {m : Str} {b : BTag} {t : GoType} (hd : Describable Γ t)
    (hptr : ∀ e, t = .pointer e → Single t) (st : List Field) (pkg : Option Str) (name : Str) (st' : List Field) (r : Result)
    (ht : typeStep Γ true rec st pkg name t = some (st', .ok r))
    (hname : name = [] ∨ ∃ p, pkg = some p ∧ OwnDefinition p t)
    (hsub : ∀ f : Field, f.name = name → (name = [] ∨ pkg = some f.package) → ¬ Substituted f)
    (henum : ∀ k n p, t = .basic k n → name ≠ [] → pkg = some p → enumValuesOf Γ p k name = [])
    (htgt : ∀ x, Occurs t x → (targetOf names m b x.1 x.2.1).isSome = true)
    (doc : Str) (emb : Bool) (tags : List (BTag × BindingTag)) (vtags : List (VTag × Bool)) :
    ∃ s, FieldOf (targetOf names m b) (refName names b) t name
      { r with doc := doc, isEmbedded := emb, bindingTags := tags, validationTags := vtags }
      (cleanField m (parseResultToField { r with doc := doc, isEmbedded := emb, bindingTags := tags, validationTags := vtags })) s := by
  -- the description is not substituted
  have nosub : ∀ {g : Result}, g.name = name → (name ≠ [] → g.package = pkg) → ¬ Substituted (parseResultToField g) := by
    intro g hg hpk
    refine hsub _ (by rw [parse_name, hg]) ?_
    rcases hname with h | ⟨p, hp, _⟩
    · exact Or.inl h
    · by_cases h : name = []
      · exact Or.inl h
      · right
        rw [parse_package _ (by rw [hg]; exact h), hpk h, hp]
        rfl
  -- a single type under a name
  have plain : ∀ {r0 : Result}, Single t → CoreResult pkg t r0 → r = { r0 with name := name } →
      (name = [] ∨ isAcceptedType r0.type = true) →
      ∃ s, FieldOf (targetOf names m b) (refName names b) t name
        { r with doc := doc, isEmbedded := emb, bindingTags := tags, validationTags := vtags }
        (cleanField m (parseResultToField { r with doc := doc, isEmbedded := emb, bindingTags := tags, validationTags := vtags })) s := by
    intro r0 hs hc hr hacc
    obtain ⟨⟨s, h1, h2⟩, h3, h4, h5, h6, h7⟩ := single_shape hs hc htgt
    rw [h6] at hr
    subst hr
    generalize r0.type = ty at *
    generalize r0.package = pk at *
    obtain ⟨mk, he⟩ := leaf_field m ⟨ty, pk, name, emb, [], none, [], [], [], [], 0, [], tags, vtags, doc⟩ rfl
      (nosub rfl (fun hne => h7 (hacc.resolve_left hne)))
    refine ⟨s, ?_⟩
    simp only
    rw [he]
    simp only [List.mem_cons, List.not_mem_nil, or_false, not_or] at h4
    refine ⟨h1, ?_, ⟨h3, by simp, by simp, by simp⟩, rfl, rfl, h4.2.2.2, rfl, rfl, rfl, rfl, fun h => absurd h h4.2.1⟩
    refine .plain ?_ rfl ?_
    · simp only [List.mem_cons, List.not_mem_nil, or_false, not_or]
      exact h4
    · refine h2 _ ?_
      cases ha : isAcceptedType ty with
      | true => exact Or.inl rfl
      | false =>
        right
        have : needsPackage ty name [] [] [] = true := by simp [needsPackage, ha]
        simp only [this, if_true, nodePath]
  have slices : ∀ {e : GoType}, t = .slice e → (Single e ∨ Composite Γ e) →
      ∃ s, FieldOf (targetOf names m b) (refName names b) t name
        { r with doc := doc, isEmbedded := emb, bindingTags := tags, validationTags := vtags }
        (cleanField m (parseResultToField { r with doc := doc, isEmbedded := emb, bindingTags := tags, validationTags := vtags })) s := by
    rintro e rfl hel
    simp only [typeStep] at ht
    cases hr : typeStep Γ true rec st pkg [] e with
    | none => rw [hr] at ht; cases ht
    | some y =>
      obtain ⟨s2, res⟩ := y
      rw [hr] at ht
      cases res with
      | err e => cases ht
      | panic m => cases ht
      | ok r0 =>
        obtain ⟨_, h2⟩ := Prod.mk.inj (Option.some.inj ht)
        obtain ⟨_, h3⟩ := finishResult_ok h2
        rw [set_name _ _ rfl] at h3
        obtain ⟨⟨s, k1, k2⟩, k3, k5⟩ := element_shape Γ rec hel st pkg s2 r0 hr (fun x hx => htgt x (.slice hx))
        have hpk : name ≠ [] → r0.package = pkg := by
          intro hne
          rcases hname with h | ⟨p, hp, h⟩
          · exact absurd h hne
          · rw [hp] at hr ⊢
            exact element_package Γ rec p e h _ _ _ _ hr
        subst h3
        generalize r0.type = ty at *
        generalize r0.package = pk at *
        obtain ⟨mk, he⟩ := leaf_field m ⟨c!"slice", pk, name, emb, [], none, [], [], ty, [], 0, [], tags, vtags, doc⟩ rfl (nosub rfl hpk)
        refine ⟨{ type := c!"array", items := some s }, ?_⟩
        simp only
        rw [he]
        refine ⟨k1.elim (fun h => .slice h.1 h.2) (fun h => .slices h), .slice rfl (k2 _ ?_), ⟨by simp, k3, by simp, by simp⟩, rfl, rfl, by simp, rfl, rfl, rfl, rfl, fun h => absurd h (by simp)⟩
        cases ha : isAcceptedType ty with
        | true => exact Or.inl rfl
        | false =>
          right
          have : needsPackage c!"slice" name ty [] [] = true := by simp [needsPackage, ha, k5]
          simp only [this, if_true, nodePath]
  have arrays : ∀ {l : Int} {e : GoType}, t = .array l e → (Single e ∨ Composite Γ e) →
      ∃ s, FieldOf (targetOf names m b) (refName names b) t name
        { r with doc := doc, isEmbedded := emb, bindingTags := tags, validationTags := vtags }
        (cleanField m (parseResultToField { r with doc := doc, isEmbedded := emb, bindingTags := tags, validationTags := vtags })) s := by
    rintro l e rfl hel
    simp only [typeStep] at ht
    cases hr : typeStep Γ true rec st pkg [] e with
    | none => rw [hr] at ht; cases ht
    | some y =>
      obtain ⟨s2, res⟩ := y
      rw [hr] at ht
      cases res with
      | err e => cases ht
      | panic m => cases ht
      | ok r0 =>
        obtain ⟨_, h2⟩ := Prod.mk.inj (Option.some.inj ht)
        obtain ⟨_, h3⟩ := finishResult_ok h2
        rw [set_name _ _ rfl] at h3
        obtain ⟨⟨s, k1, k2⟩, k3, k5⟩ := element_shape Γ rec hel st pkg s2 r0 hr (fun x hx => htgt x (.array hx))
        have hpk : name ≠ [] → r0.package = pkg := by
          intro hne
          rcases hname with h | ⟨p, hp, h⟩
          · exact absurd h hne
          · rw [hp] at hr ⊢
            exact element_package Γ rec p e h _ _ _ _ hr
        subst h3
        generalize r0.type = ty at *
        generalize r0.package = pk at *
        obtain ⟨mk, he⟩ := leaf_field m ⟨c!"array", pk, name, emb, [], none, [], [], [], ty, l, [], tags, vtags, doc⟩ rfl (nosub rfl hpk)
        refine ⟨{ type := c!"array", items := some s, maxLength := l }, ?_⟩
        simp only
        rw [he]
        refine ⟨k1.elim (fun h => .array h.1 h.2) (fun h => .arrays h), .array rfl (k2 _ ?_), ⟨by simp, by simp, k3, by simp⟩, rfl, rfl, by simp, rfl, rfl, rfl, rfl, fun _ => trivial⟩
        cases ha : isAcceptedType ty with
        | true => exact Or.inl rfl
        | false =>
          right
          have : needsPackage c!"array" name [] ty [] = true := by simp [needsPackage, ha, k5]
          simp only [this, if_true, nodePath]
  have maps : ∀ {k e : GoType}, t = .map k e → (Single e ∨ Composite Γ e) →
      ∃ s, FieldOf (targetOf names m b) (refName names b) t name
        { r with doc := doc, isEmbedded := emb, bindingTags := tags, validationTags := vtags }
        (cleanField m (parseResultToField { r with doc := doc, isEmbedded := emb, bindingTags := tags, validationTags := vtags })) s := by
    rintro k e rfl hel
    simp only [typeStep] at ht
    cases hk : typeStep Γ true rec st pkg [] k with
    | none => rw [hk] at ht; cases ht
    | some z =>
      obtain ⟨s1, res0⟩ := z
      rw [hk] at ht
      cases res0 with
      | err e => cases ht
      | panic m => cases ht
      | ok kr =>
        simp only at ht
        cases hr : typeStep Γ true rec s1 pkg [] e with
        | none => rw [hr] at ht; cases ht
        | some y =>
          obtain ⟨s2, res⟩ := y
          rw [hr] at ht
          cases res with
          | err e => cases ht
          | panic m => cases ht
          | ok r0 =>
            obtain ⟨_, h2⟩ := Prod.mk.inj (Option.some.inj ht)
            obtain ⟨_, h3⟩ := finishResult_ok h2
            rw [set_name _ _ rfl] at h3
            obtain ⟨⟨s, k1, k2⟩, k3, k5⟩ := element_shape Γ rec hel s1 pkg s2 r0 hr (fun x hx => htgt x (.value hx))
            have hpk : name ≠ [] → r0.package = pkg := by
              intro hne
              rcases hname with h | ⟨p, hp, h⟩
              · exact absurd h hne
              · rw [hp] at hr ⊢
                exact element_package Γ rec p e h _ _ _ _ hr
            subst h3
            generalize r0.type = ty at *
            generalize r0.package = pk at *
            obtain ⟨mk, he⟩ := leaf_field m ⟨c!"map", pk, name, emb, [], kr.package, kr.type, ty, [], [], 0, [], tags, vtags, doc⟩ rfl (nosub rfl hpk)
            refine ⟨{ type := c!"object", additionalProperties := some s }, ?_⟩
            simp only
            rw [he]
            refine ⟨k1.elim (fun h => .map h.1 h.2) (fun h => .maps h), .map rfl (k2 _ ?_), ⟨by simp, by simp, by simp, k3⟩, rfl, rfl, by simp, rfl, rfl, rfl, rfl, fun h => absurd h (by simp)⟩
            cases ha : isAcceptedType ty with
            | true => exact Or.inl rfl
            | false =>
              right
              have : needsPackage c!"map" name [] [] ty = true := by simp [needsPackage, ha, k5]
              simp only [this, if_true, nodePath]
  cases hd with
  | single hs =>
    cases hs with
    | basic hn hx =>
      rename_i k n
      simp only [typeStep] at ht
      by_cases h0 : name = []
      · rw [if_pos h0] at ht
        obtain ⟨_, h2⟩ := Prod.mk.inj (Option.some.inj ht)
        obtain ⟨_, h3⟩ := finishResult_ok h2
        rw [set_name _ _ rfl] at h3
        exact plain (.basic hn hx) rfl h3 (Or.inl h0)
      · rw [if_neg h0] at ht
        cases hp : pkg with
        | none => rw [hp] at ht; cases ht
        | some p =>
          rw [hp] at ht
          simp only at ht
          split at ht
          · cases ht
          · obtain ⟨_, h2⟩ := Prod.mk.inj (Option.some.inj ht)
            obtain ⟨_, h3⟩ := finishResult_ok h2
            rw [set_name _ _ rfl, henum k n p rfl h0 hp] at h3
            subst hp
            obtain ⟨⟨n', type, fmt⟩, hpm, e⟩ := List.mem_map.mp hn
            simp only at e
            subst e
            exact plain (r0 := { type := n', package := some p }) (.basic hn hx) rfl h3 (Or.inr (primitive_facts _ hpm).2.2.1)
    | named h1 h2 h3 h4 h5 =>
      rename_i p n a
      have h0 : name = [] := by
        rcases hname with h | ⟨p, _, h⟩
        · exact h
        · exact absurd h (by simp [OwnDefinition])
      subst h0
      have hs : Single (.named (some p) n a) := .named h1 h2 h3 h4 h5
      have hc := single_result Γ rec hs st pkg st' r ht
      refine plain hs hc ?_ (Or.inl rfl)
      simp only [CoreResult] at hc
      rw [hc]
    | interface =>
      simp only [typeStep] at ht
      obtain ⟨_, h2⟩ := Prod.mk.inj (Option.some.inj ht)
      obtain ⟨_, h3⟩ := finishResult_ok h2
      rw [set_name _ _ rfl] at h3
      exact plain (r0 := { type := c!"any", package := pkg }) .interface rfl h3 (Or.inr any_facts.1)
    | pointer hs =>
      have h0 : name = [] := by
        rcases hname with h | ⟨p, _, h⟩
        · exact h
        · exact absurd h (by simp [OwnDefinition])
      subst h0
      have hs := Single.pointer hs
      have hc := single_result Γ rec hs st pkg st' r ht
      refine plain hs hc ?_ (Or.inl rfl)
      obtain ⟨_, _, _, _, h6, _⟩ := single_shape hs hc htgt
      rw [h6]
  | slice hs _ => exact slices rfl (Or.inl hs)
  | array hs => exact arrays rfl (Or.inl hs)
  | map hs => exact maps rfl (Or.inl hs)
  | slices hc => exact slices rfl (Or.inr hc)
  | arrays hc => exact arrays rfl (Or.inr hc)
  | maps hc => exact maps rfl (Or.inr hc)
  | pointer hd' =>
    have hs := hptr _ rfl
    have h0 : name = [] := by
      rcases hname with h | ⟨p, _, h⟩
      · exact h
      · exact absurd h (by simp [OwnDefinition])
    subst h0
    have hc := single_result Γ rec hs st pkg st' r ht
    refine plain hs hc ?_ (Or.inl rfl)
    obtain ⟨_, _, _, _, h6, _⟩ := single_shape hs hc htgt
    rw [h6]

theorem describable_shape (Γ : TypeEnv) (rec : TRec) {names : List (Str × Str)} {m : Str} {b : BTag} {t : GoType} (hd : Describable Γ t)
    (st : List Field) (pkg : Option Str) (name : Str) (st' : List Field) (r : Result)
    (ht : typeStep Γ true rec st pkg name t = some (st', .ok r))
    (hname : name = [] ∨ ∃ p, pkg = some p ∧ OwnDefinition p t)
    (hsub : ∀ f : Field, f.name = name → (name = [] ∨ pkg = some f.package) → ¬ Substituted f)
    (henum : ∀ k n p, t = .basic k n → name ≠ [] → pkg = some p → enumValuesOf Γ p k name = [])
    (htgt : ∀ x, Occurs t x → (targetOf names m b x.1 x.2.1).isSome = true)
    (doc : Str) (emb : Bool) (tags : List (BTag × BindingTag)) (vtags : List (VTag × Bool)) :
    ∃ s, FieldOf (targetOf names m b) (refName names b) t name
      { r with doc := doc, isEmbedded := emb, bindingTags := tags, validationTags := vtags }
      (cleanField m (parseResultToField { r with doc := doc, isEmbedded := emb, bindingTags := tags, validationTags := vtags })) s := by
  induction hd with
  | single hs => exact describable_shape_core Γ rec (.single hs) (fun _ _ => hs) st pkg name st' r ht hname hsub henum htgt doc emb tags vtags
  | slice hs hb =>
    exact describable_shape_core Γ rec (.slice hs hb) (fun _ h => by cases h) st pkg name st' r ht hname hsub henum htgt doc emb tags vtags
  | array hs =>
    exact describable_shape_core Γ rec (.array hs) (fun _ h => by cases h) st pkg name st' r ht hname hsub henum htgt doc emb tags vtags
  | map hs =>
    exact describable_shape_core Γ rec (.map hs) (fun _ h => by cases h) st pkg name st' r ht hname hsub henum htgt doc emb tags vtags
  | slices hc =>
    exact describable_shape_core Γ rec (.slices hc) (fun _ h => by cases h) st pkg name st' r ht hname hsub henum htgt doc emb tags vtags
  | arrays hc =>
    exact describable_shape_core Γ rec (.arrays hc) (fun _ h => by cases h) st pkg name st' r ht hname hsub henum htgt doc emb tags vtags
  | maps hc =>
    exact describable_shape_core Γ rec (.maps hc) (fun _ h => by cases h) st pkg name st' r ht hname hsub henum htgt doc emb tags vtags
  | pointer _ ih =>
    have h0 : name = [] := by
      rcases hname with h | ⟨p, _, h⟩
      · exact h
      · exact absurd h (by simp [OwnDefinition])
    subst h0
    simp only [typeStep] at ht
    obtain ⟨s, hs⟩ := ih ht (Or.inl rfl) (fun k n p _ hne _ => absurd rfl hne) (fun x hx => htgt x (.pointer hx))
    exact ⟨s, { hs with type := .pointer hs.type, array := hs.array }⟩

end Astra.Props
