/-
C27, C28, C29: hidden fields, independence of map iteration order, and references.
-/
import Verif.Lemmas.Schema
import Verif.Props.OpenApi

namespace Astra.Props
open Spec

/-! ### C27 -/

theorem hidden_effect {E : SchemaEnv} {b : BTag} {g : Field} {t : BindingTag} (he : g.isEmbedded = false)
    (ht : aget g.bindingTags b = some t) (hn : t.notShown = true) : fieldEffect E b g = some .skip := by
  unfold fieldEffect
  rw [if_neg (by simp [he])]
  have hz : t ≠ {} := by rintro rfl; simp at hn
  have : fieldBinding g b = some t := by
    unfold fieldBinding
    simp only [ht, Option.getD_some]
    rw [if_neg (fun h => hz h.1), if_neg hz]
  rw [this]
  simp [hn]

theorem DropHidden.same {b : BTag} {f f' : Field} (h : DropHidden b f f') :
    f'.isEmbedded = f.isEmbedded ∧ f'.bindingTags = f.bindingTags ∧ f'.type = f.type ∧ f'.package = f.package := by
  cases h with
  | here => exact ⟨rfl, rfl, rfl, rfl⟩
  | inner => exact ⟨rfl, rfl, rfl, rfl⟩

/-- C27 (partial): removing from a component a field that is hidden for the binding kind (tag `-`), at any depth, does not
change the schema generated for that kind. Missing: hidden embedded fields, which are documented all the same
(`hidden_embedded_field_documented`). -/
theorem hidden_field_absent_partial (E : SchemaEnv) (b : BTag) (f f' : Field) (h : DropHidden b f f') :
    componentToSchema E b f = componentToSchema E b f' := by
  induction h with
  | here f hf he ht hn =>
    apply componentToSchema_congr
    rw [hf]
    apply structLoop_append_congr
    intro e p
    rw [structLoop_cons, hidden_effect he ht hn]
  | inner f hf hd ih =>
    apply componentToSchema_congr
    rw [hf]
    apply structLoop_append_congr
    apply structLoop_congr
    · obtain ⟨h1, h2, h3, h4⟩ := DropHidden.same hd
      unfold fieldEffect
      rw [h1, h3, h4, ih]
      unfold fieldBinding
      rw [h2]
    · intro e p; rfl

/-- A struct with a JSON field and one hidden from JSON. -/
def secretStruct : Field :=
  { name := c!"User", package := c!"p", type := c!"struct", structFields := [
    (c!"Name", { type := c!"string", bindingTags := [(.json, { name := c!"name" })] }),
    (c!"Secret", { type := c!"string", bindingTags := [(.json, { name := c!"Secret", notShown := true })] })] }

/-- Non-vacuity: the hidden field can be dropped, and the other one is shown. -/
example : DropHidden .json secretStruct { secretStruct with structFields := secretStruct.structFields.take 1 } :=
  DropHidden.here secretStruct (before := secretStruct.structFields.take 1) (after := []) (k := c!"Secret")
    (g := { type := c!"string", bindingTags := [(.json, { name := c!"Secret", notShown := true })] })
    (t := { name := c!"Secret", notShown := true }) rfl rfl rfl rfl
example : (componentToSchema {} .json secretStruct).map (fun s => mkeys s.properties) = some [c!"name"] := by decide +kernel

/-- A struct embedding another one with the tag `json:"-"`. -/
def hiddenEmbedded : Field :=
  let base : Field := {
    type := c!"Base", package := c!"p", isEmbedded := true,
    bindingTags := [(.json, { name := c!"Base", notShown := true })] }
  { name := c!"T", package := c!"p", type := c!"struct", structFields := [(c!"Base", base)] }

/-- C27, violated: an embedded field with the tag `json:"-"` is still in the schema. -/
theorem hidden_embedded_field_documented :
    (componentToSchema { names := [(c!"p.json.Base", c!"p.Base")] } .json hiddenEmbedded).map (fun s => s.allOf.map (·.ref))
    = some [c!"#/components/schemas/p.Base"] := by decide +kernel

/-- A hidden field still decides the binding kinds for which its struct has a schema: it must be tagged for the kind. -/
theorem struct_schema_iff_tagged (E : SchemaEnv) (b : BTag) (c : Field) (hs : c.type = c!"struct")
    (hm : E.mapping c.name c.package = none) :
    (componentToSchema E b c).isSome = true ↔ ∀ x ∈ c.structFields, x.2.isEmbedded = true ∨
      (∃ t, t ≠ {} ∧ (aget x.2.bindingTags b = some t ∨ aget x.2.bindingTags .none = some t)) := by
  rw [componentToSchema_eq, hm]
  simp only [Option.isSome_none, Bool.false_eq_true, if_false, hs, if_true]
  have h := structLoop_isSome E b c.structFields [] []
  have hb : ∀ f : Field, (fieldBinding f b).isSome = true ↔
      ∃ t, t ≠ {} ∧ (aget f.bindingTags b = some t ∨ aget f.bindingTags .none = some t) := by
    intro f
    unfold fieldBinding
    simp only
    cases h1 : aget f.bindingTags b with
    | none =>
      cases h2 : aget f.bindingTags .none with
      | none => simp
      | some t2 =>
        by_cases hz : t2 = {}
        · simp [hz]
        · simp [hz]
    | some t1 =>
      cases h2 : aget f.bindingTags .none with
      | none =>
        by_cases hz : t1 = {}
        · simp [hz]
        · simp [hz]
      | some t2 =>
        by_cases hz : t1 = {}
        · by_cases hz2 : t2 = {}
          · simp [hz, hz2]
          · simp only [hz, hz2, Option.getD_some, and_false, if_false, if_true, Option.isSome_some, true_iff]
            exact ⟨t2, hz2, Or.inr rfl⟩
        · simp only [hz, Option.getD_some, false_and, if_false, Option.isSome_some, true_iff]
          exact ⟨t1, hz, Or.inl rfl⟩
  simp only [← hb]
  rw [← h]
  cases structLoop E b c.structFields [] [] with
  | none => simp
  | some x => simp

example : (componentToSchema {} .json secretStruct).isSome = true ∧ (componentToSchema {} .form secretStruct).isSome = false := by
  decide +kernel

/-! ### C28 -/

/-- Two fields of a struct that do not compete: not both embedded, and not shown under the same name. -/
def Independent (b : BTag) (x y : Str × Field) : Prop :=
  ¬ (x.2.isEmbedded = true ∧ y.2.isEmbedded = true) ∧ ∀ n, ShownAs b x.2 n → ¬ ShownAs b y.2 n

/-- A type description in which, at every level, tag maps have one entry per kind and the fields of a struct are pairwise
independent. -/
inductive Tidy (b : BTag) : Field → Prop
  | mk {f : Field} : (f.bindingTags.map (·.1)).Nodup → f.structFields.Pairwise (Independent b) →
      (∀ x ∈ f.structFields, Tidy b x.2) → Tidy b f

theorem fieldBinding_perm {f f' : Field} {b : BTag} (hp : f.bindingTags.Perm f'.bindingTags)
    (hn : (f.bindingTags.map (·.1)).Nodup) : fieldBinding f b = fieldBinding f' b := by
  unfold fieldBinding
  rw [aget_perm hp hn, aget_perm hp hn]

/-- A shown property is one the specification calls shown. -/
theorem shownAs_of_binding {f : Field} {b : BTag} {t : BindingTag} (h : fieldBinding f b = some t) (hs : t.notShown = false)
    (hn : (f.bindingTags.map (·.1)).Nodup) : ShownAs b f t.name := by
  unfold fieldBinding at h
  simp only at h
  split at h
  · simp at h
  · rename_i hz
    split at h
    · rename_i h0
      injection h with h
      have hne : t ≠ {} := by
        rintro rfl
        exact hz ⟨h0, h⟩
      refine ⟨t, rfl, hs, hne, Or.inr ⟨?_, ?_⟩⟩
      · cases h2 : aget f.bindingTags .none with
        | none => rw [h2] at h; exact absurd h.symm hne
        | some t' =>
          rw [h2] at h
          simp only [Option.getD_some] at h
          subst h
          exact aget_some_mem h2
      · intro t' ht'
        rw [aget_of_mem_nodup hn ht'] at h0
        exact h0
    · rename_i h0
      injection h with h
      refine ⟨t, rfl, hs, by rw [← h]; exact h0, Or.inl ?_⟩
      cases h1 : aget f.bindingTags b with
      | none => rw [h1] at h0; exact absurd rfl h0
      | some t' =>
        rw [h1] at h
        simp only [Option.getD_some] at h
        subst h
        exact aget_some_mem h1

theorem effect_embed {E : SchemaEnv} {b : BTag} {f : Field} {s : Schema} (h : fieldEffect E b f = some (.embed s)) :
    f.isEmbedded = true := by
  unfold fieldEffect at h
  by_cases he : f.isEmbedded = true
  · exact he
  · rw [if_neg he] at h
    cases hb : fieldBinding f b with
    | none => rw [hb] at h; simp at h
    | some tag =>
      rw [hb] at h
      simp only at h
      split at h
      · simp at h
      · cases hc : componentToSchema E b f with
        | none => rw [hc] at h; simp at h
        | some s' => rw [hc] at h; simp at h

theorem effect_prop {E : SchemaEnv} {b : BTag} {f : Field} {n : Str} {s : Schema} (h : fieldEffect E b f = some (.prop n s))
    (hn : (f.bindingTags.map (·.1)).Nodup) : ShownAs b f n := by
  unfold fieldEffect at h
  split at h
  · cases hr : makeRef E.names b f.type f.package with
    | none => rw [hr] at h; simp at h
    | some r => rw [hr] at h; simp at h
  · cases hb : fieldBinding f b with
    | none => rw [hb] at h; simp at h
    | some tag =>
      rw [hb] at h
      simp only at h
      split at h
      · simp at h
      · rename_i hsn
        cases hc : componentToSchema E b f with
        | none => rw [hc] at h; simp at h
        | some s' =>
          rw [hc] at h
          simp only [Option.some.injEq, Effect.prop.injEq] at h
          obtain ⟨rfl, _⟩ := h
          exact shownAs_of_binding hb (by simpa using hsn) hn

theorem structLoop_perm (E : SchemaEnv) (b : BTag) {l l' : List (Str × Field)} (hp : l.Perm l')
    (hi : l.Pairwise (Independent b)) (hn : ∀ x ∈ l, (x.2.bindingTags.map (·.1)).Nodup) (e : List Schema)
    (p : List (Str × Schema)) (hs : MSorted p) : structLoop E b l e p = structLoop E b l' e p := by
  have hsym : ∀ {x y : Str × Field}, Independent b x y → Independent b y x := by
    intro x y h
    exact ⟨fun h' => h.1 ⟨h'.2, h'.1⟩, fun n h1 h2 => h.2 n h2 h1⟩
  induction hp generalizing e p with
  | nil => rfl
  | cons x _ ih =>
    obtain ⟨k, f⟩ := x
    rw [List.pairwise_cons] at hi
    rw [structLoop_cons, structLoop_cons]
    have hn' : ∀ x ∈ _, ((x : Str × Field).2.bindingTags.map (·.1)).Nodup := fun x hx => hn x (List.mem_cons_of_mem _ hx)
    split
    · rfl
    · exact ih hi.2 hn' e p hs
    · exact ih hi.2 hn' _ p hs
    · exact ih hi.2 hn' e _ (MSorted_mset hs _ _)
  | swap x y l =>
    obtain ⟨kx, fx⟩ := x
    obtain ⟨ky, fy⟩ := y
    rw [List.pairwise_cons] at hi
    have hind := hi.1 (kx, fx) (by simp)
    have hnx := hn (kx, fx) (by simp)
    have hny := hn (ky, fy) (by simp)
    simp only at hnx hny
    rw [structLoop_cons, structLoop_cons]
    simp only [structLoop_cons]
    cases hx : fieldEffect E b fx with
    | none =>
      cases hy : fieldEffect E b fy with
      | none => rfl
      | some ey => cases ey <;> rfl
    | some ex =>
      cases hy : fieldEffect E b fy with
      | none => cases ex <;> rfl
      | some ey =>
        cases ex with
        | skip => cases ey <;> rfl
        | embed sx =>
          cases ey with
          | skip => rfl
          | embed sy => exact absurd ⟨effect_embed hy, effect_embed hx⟩ hind.1
          | prop ny sy => rfl
        | prop nx sx =>
          cases ey with
          | skip => rfl
          | embed sy => rfl
          | prop ny sy =>
            have hne : nx ≠ ny := by
              rintro rfl
              exact hind.2 nx (effect_prop hy hny) (effect_prop hx hnx)
            simp only
            rw [mset_comm hs _ _ hne]
  | trans h1 h2 ih1 ih2 =>
    rw [ih1 hi hn e p hs]
    exact ih2 ((h1.pairwise_iff hsym).mp hi) (fun x hx => hn x (h1.mem_iff.mpr hx)) e p hs

theorem independent_congr {b : BTag} {x y y' : Str × Field} (he : y'.2.isEmbedded = y.2.isEmbedded)
    (ht : y.2.bindingTags.Perm y'.2.bindingTags) : Independent b x y ↔ Independent b x y' := by
  have hs : ∀ n, ShownAs b y.2 n ↔ ShownAs b y'.2 n := by
    intro n
    unfold ShownAs
    simp only [ht.mem_iff]
  unfold Independent
  rw [he]
  simp only [hs]

theorem independent_congr_left {b : BTag} {x y y' : Str × Field} (he : y'.2.isEmbedded = y.2.isEmbedded)
    (ht : y.2.bindingTags.Perm y'.2.bindingTags) : Independent b y x ↔ Independent b y' x := by
  have hs : ∀ n, ShownAs b y.2 n ↔ ShownAs b y'.2 n := by
    intro n
    unfold ShownAs
    simp only [ht.mem_iff]
  unfold Independent
  rw [he]
  simp only [hs]

/-- Listing the same Go value in another order keeps it tidy and changes nothing that schema generation reads. -/
theorem sameField_spec {b : BTag} {f f' : Field} (h : SameField f f') (ht : Tidy b f) :
    Tidy b f' ∧ f'.isEmbedded = f.isEmbedded ∧ f.bindingTags.Perm f'.bindingTags ∧ f'.type = f.type ∧
      f'.package = f.package ∧ f'.name = f.name ∧ f'.doc = f.doc ∧
      ∀ E : SchemaEnv, componentToSchema E b f = componentToSchema E b f' := by
  induction h with
  | refl f => exact ⟨ht, rfl, List.Perm.refl _, rfl, rfl, rfl, rfl, fun _ => rfl⟩
  | trans h1 h2 ih1 ih2 =>
    obtain ⟨a1, a2, a3, a4, a5, a6, a7, a8⟩ := ih1 ht
    obtain ⟨b1, b2, b3, b4, b5, b6, b7, b8⟩ := ih2 a1
    exact ⟨b1, b2.trans a2, a3.trans b3, b4.trans a4, b5.trans a5, b6.trans a6, b7.trans a7, fun E => (a8 E).trans (b8 E)⟩
  | tags f hp =>
    cases ht with
    | mk h1 h2 h3 =>
      refine ⟨⟨(hp.map _).nodup_iff.mp h1, h2, h3⟩, rfl, hp, rfl, rfl, rfl, rfl, fun E => ?_⟩
      rw [componentToSchema_eq, componentToSchema_eq]
      rfl
  | validations f hp =>
    cases ht with
    | mk h1 h2 h3 =>
      refine ⟨⟨h1, h2, h3⟩, rfl, List.Perm.refl _, rfl, rfl, rfl, rfl, fun E => ?_⟩
      rw [componentToSchema_eq, componentToSchema_eq]
      rfl
  | fields f hp =>
    cases ht with
    | mk h1 h2 h3 =>
      have hsym : ∀ {x y : Str × Field}, Independent b x y → Independent b y x := by
        intro x y h
        exact ⟨fun h' => h.1 ⟨h'.2, h'.1⟩, fun n h1 h2 => h.2 n h2 h1⟩
      refine ⟨⟨h1, (hp.pairwise_iff hsym).mp h2, fun x hx => h3 x (hp.mem_iff.mpr hx)⟩, rfl, List.Perm.refl _, rfl, rfl, rfl,
        rfl, fun E => ?_⟩
      apply componentToSchema_congr
      apply structLoop_perm E b hp h2 _ [] [] MSorted_nil
      intro x hx
      cases h3 x hx with
      | mk h _ _ => exact h
  | inner f hf hs ih =>
    rename_i before after k g g'
    cases ht with
    | mk h1 h2 h3 =>
      rw [hf] at h2 h3
      obtain ⟨i1, i2, i3, i4, i5, i6, i7, i8⟩ := ih (h3 (k, g) (by simp))
      rw [List.pairwise_append, List.pairwise_cons] at h2
      refine ⟨⟨h1, ?_, ?_⟩, rfl, List.Perm.refl _, rfl, rfl, rfl, rfl, fun E => ?_⟩
      · simp only
        rw [List.pairwise_append, List.pairwise_cons]
        refine ⟨h2.1, ⟨?_, h2.2.1.2⟩, ?_⟩
        · intro x hx
          exact (independent_congr_left (y := (k, g)) i2 i3).mp (h2.2.1.1 x hx)
        · intro x hx y hy
          rcases List.mem_cons.mp hy with rfl | hy
          · exact (independent_congr (y := (k, g)) i2 i3).mp (h2.2.2 x hx (k, g) (by simp))
          · exact h2.2.2 x hx y (by simp [hy])
      · intro x hx
        simp only [List.mem_append, List.mem_cons] at hx
        rcases hx with hx | rfl | hx
        · exact h3 x (by simp [hx])
        · exact i1
        · exact h3 x (by simp [hx])
      · apply componentToSchema_congr
        rw [hf]
        apply structLoop_append_congr
        apply structLoop_congr
        · have hnd : (g.bindingTags.map (·.1)).Nodup := by
            cases h3 (k, g) (by simp) with
            | mk h _ _ => exact h
          unfold fieldEffect
          rw [i2, i4, i5, i8 E, fieldBinding_perm i3 hnd]
        · intro e p; rfl

/-- C28 (partial): the schema of a component does not depend on the order in which the runtime lists the field map and the tag
maps, at any level, provided every struct in it has at most one embedded field and shows no two fields under one name.
Missing: structs with several embedded fields or with two fields of the same name, for which the order matters
(`embedded_order_matters`, `duplicate_name_order_matters`). -/
theorem schema_order_independent_partial (E : SchemaEnv) (b : BTag) (f f' : Field) (h : SameField f f') (ht : Tidy b f) :
    componentToSchema E b f = componentToSchema E b f' :=
  (sameField_spec h ht).2.2.2.2.2.2.2 E

theorem secretStruct_tidy : Tidy .json secretStruct := by
  refine ⟨by decide, ?_, ?_⟩
  · simp only [secretStruct, List.pairwise_cons, List.mem_singleton, forall_eq, List.not_mem_nil, false_implies, implies_true,
      List.Pairwise.nil, and_true]
    refine ⟨by simp, ?_⟩
    rintro n ⟨t, rfl, h1, h2, h3⟩ ⟨t', h4, h5, h6, h7⟩
    simp only [List.mem_singleton, Prod.mk.injEq, true_and, reduceCtorEq, false_and, or_false] at h3 h7
    subst h3 h7
    simp at h5
  · intro x hx
    simp only [secretStruct, List.mem_cons, List.not_mem_nil, or_false] at hx
    rcases hx with rfl | rfl
    · exact ⟨by simp, List.Pairwise.nil, by simp⟩
    · exact ⟨by simp, List.Pairwise.nil, by simp⟩

/-- Non-vacuity: a tidy struct and the same struct listed in the other order. -/
example : Tidy .json secretStruct ∧ SameField secretStruct { secretStruct with structFields := secretStruct.structFields.reverse } ∧
    secretStruct.structFields.reverse ≠ secretStruct.structFields :=
  ⟨secretStruct_tidy, .fields _ (List.reverse_perm _).symm, by decide +kernel⟩

/-- Two structs embedded in a third. -/
def twoEmbedded : Field :=
  { name := c!"T", package := c!"p", type := c!"struct", structFields := [
    (c!"A", { type := c!"A", package := c!"p", isEmbedded := true, bindingTags := [(.none, { name := c!"A" })] }),
    (c!"B", { type := c!"B", package := c!"p", isEmbedded := true, bindingTags := [(.none, { name := c!"B" })] })] }

/-- C28, violated: with two embedded structs the order of `allOf` is the iteration order. -/
theorem embedded_order_matters :
    SameField twoEmbedded { twoEmbedded with structFields := twoEmbedded.structFields.reverse } ∧
    componentToSchema { names := [(c!"p.A", c!"p.A"), (c!"p.B", c!"p.B")] } .json twoEmbedded ≠
    componentToSchema { names := [(c!"p.A", c!"p.A"), (c!"p.B", c!"p.B")] } .json
      { twoEmbedded with structFields := twoEmbedded.structFields.reverse } :=
  ⟨.fields _ (List.reverse_perm _).symm, by decide +kernel⟩

/-- Two fields with the same JSON name. -/
def duplicateNames : Field :=
  { name := c!"T", package := c!"p", type := c!"struct", structFields := [
    (c!"A", { type := c!"string", bindingTags := [(.json, { name := c!"id" })] }),
    (c!"B", { type := c!"int", bindingTags := [(.json, { name := c!"id" })] })] }

/-- C28, violated: of two fields with one name the schema of either may win. -/
theorem duplicate_name_order_matters :
    SameField duplicateNames { duplicateNames with structFields := duplicateNames.structFields.reverse } ∧
    componentToSchema {} .json duplicateNames ≠
    componentToSchema {} .json { duplicateNames with structFields := duplicateNames.structFields.reverse } :=
  ⟨.fields _ (List.reverse_perm _).symm, by decide +kernel⟩

end Astra.Props
