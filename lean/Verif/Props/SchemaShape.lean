/-
C61: schemas reflect Go types.
-/
import Verif.Spec.Shape
import Verif.Props.Schema

namespace Astra.Props
open Spec

theorem primitive_facts : ∀ x ∈ primitives, mapPredefined x.1 = { type := x.2.1, format := x.2.2 } ∧ x.2.1 ≠ [] ∧
    isAcceptedType x.1 = true ∧ x.1 ∉ [c!"slice", c!"array", c!"map", c!"struct"] := by decide +kernel

theorem composite_facts : ∀ x ∈ composites, mapPredefined x.1 = { type := x.2 } ∧ x.2 ≠ [] ∧ isAcceptedType x.1 = true ∧
    x.1 ∈ [c!"slice", c!"array", c!"map", c!"struct"] ∧ '.' ∉ x.1 ∧ x.1 ≠ [] := by decide +kernel

theorem accepted_reserved : ∀ t ∈ acceptedTypes, t ∈ reserved := by decide +kernel

theorem predefined_reserved : ∀ x ∈ predefinedTypeMap, x.1 ∈ reserved ∨ '.' ∈ x.1 := by decide +kernel

theorem not_accepted {t : Str} (h : t ∉ reserved) : isAcceptedType t = false := by
  rw [← Bool.not_eq_true]
  intro h'
  exact h (accepted_reserved t (elemB_iff.mp h'))

theorem mapPredefined_defined {t : Str} (h : t ∉ reserved) (hd : '.' ∉ t) : mapPredefined t = {} := by
  unfold mapPredefined
  cases hg : aget predefinedTypeMap t with
  | none => rfl
  | some v => exact absurd (predefined_reserved _ (aget_some_mem hg)) (fun h' => h'.elim h hd)

theorem elemSchema_named {E : SchemaEnv} {b : BTag} {t pkg : Str} {s : Schema}
    (h : NamedSchema (refName E.names b) pkg t s) (hd : '.' ∉ t) : elemSchema E b t pkg = s := by
  unfold elemSchema
  cases h with
  | primitive hp =>
    obtain ⟨h1, h2, h3, _⟩ := primitive_facts _ hp
    simp only at h1 h2 h3
    rw [h1, if_neg (by simp [h2])]
  | anything =>
    have h1 : mapPredefined c!"any" = {} := by decide +kernel
    rw [if_neg (by decide +kernel), h1]
  | composite hc =>
    obtain ⟨h1, h2, h3, _⟩ := composite_facts _ hc
    simp only at h1 h2 h3
    rw [h1, if_neg (by simp [h2])]
  | defined hr hn =>
    have hna := not_accepted hr
    rw [mapPredefined_defined hr hd, if_pos ⟨rfl, hna⟩]
    unfold makeRef
    rw [hn]
    rfl

/-- C61: the schema a property (or a component that is not a struct) gets is the one its Go type calls for: the type and format
of the primitive, an array of the element's schema with the array length, an object of the value's schema, a reference to
the schema of a defined type; the values of an enum are listed. Here `target` is what references to a defined type resolve
to (see C29, C30). -/
theorem property_schema (E : SchemaEnv) (b : BTag) (f : Field) (s : Schema)
    (h : FieldSchema (refName E.names b) f s) (hm : E.mapping f.name f.package = none)
    (hd : '.' ∉ f.type ∧ '.' ∉ f.sliceType ∧ '.' ∉ f.arrayType ∧ '.' ∉ f.mapValueType) :
    componentToSchema E b f = some s := by
  rw [componentToSchema_eq, hm]
  simp only [Option.isSome_none, Bool.false_eq_true, if_false]
  cases h with
  | plain hk he hs =>
    simp only [List.mem_cons, List.not_mem_nil, or_false, not_or] at hk
    have hst := hk.2.2.2
    rw [if_neg hst]
    unfold leafSchema
    rw [if_neg hk.1, if_neg hk.2.1, if_neg hk.2.2.1]
    generalize f.type = t at *
    cases hs with
    | primitive hp =>
      obtain ⟨h1, h2, h3, _⟩ := primitive_facts _ hp
      simp only at h1 h2 h3
      rw [h1, if_neg (by simp [h2]), he]
    | anything =>
      have : mapPredefined c!"any" = {} := by decide +kernel
      rw [if_neg (by decide), this, he]
    | composite hc => exact absurd (composite_facts _ hc).2.2.2.1 (by simp [hk])
    | defined hr hn =>
      have hna := not_accepted hr
      rw [mapPredefined_defined hr hd.1, if_pos ⟨rfl, hna⟩]
      unfold makeRef
      rw [hn]
      rfl
  | enum hp =>
    obtain ⟨h1, h2, h3, h4⟩ := primitive_facts _ hp
    simp only [List.mem_cons, List.not_mem_nil, or_false, not_or] at h1 h2 h3 h4
    rw [if_neg h4.2.2.2]
    unfold leafSchema
    rw [if_neg h4.1, if_neg h4.2.1, if_neg h4.2.2.1, h1, if_neg (by simp [h2])]
  | slice ht hs =>
    rw [if_neg (by rw [ht]; decide)]
    unfold leafSchema
    rw [if_pos ht, elemSchema_named hs hd.2.1]
  | array ht hs =>
    rw [if_neg (by rw [ht]; decide)]
    unfold leafSchema
    rw [if_neg (by rw [ht]; decide), if_pos ht, elemSchema_named hs hd.2.2.1]
  | map ht hs =>
    rw [if_neg (by rw [ht]; decide)]
    unfold leafSchema
    rw [if_neg (by rw [ht]; decide), if_neg (by rw [ht]; decide), if_pos ht, elemSchema_named hs hd.2.2.2]

/-- Non-vacuity: a slice of a defined type and an enum. -/
example : FieldSchema (refName [(c!"p.User", c!"p.User")] .json) { type := c!"slice", sliceType := c!"User", package := c!"p" }
      { type := c!"array", items := some { ref := c!"#/components/schemas/p.User" } } ∧
    FieldSchema (refName [] .json) { type := c!"int", enumValues := [.int 1, .int 2] }
      { type := c!"integer", format := c!"int32", enum := [.int 1, .int 2] } :=
  ⟨.slice rfl (.defined (n := c!"p.User") (by decide +kernel) (by decide +kernel)), .enum (f := { type := c!"int", enumValues := [.int 1, .int 2] }) (by decide +kernel)⟩

/-- C61 (partial): the schema of a request or response body, or of a bound parameter, is the one its Go type calls for, except
that the items of a slice lose their format (`slice_item_format_lost`). Missing: Go arrays, which are not documented at all
(`array_body_undocumented`), and enum values. -/
theorem body_schema_partial (E : SchemaEnv) (b : BTag) (f : Field) (s : Schema)
    (h : FieldSchema (refName E.names b) f s) (ha : f.type ≠ c!"array") (he : f.enumValues = [])
    (hd : '.' ∉ f.type ∧ '.' ∉ f.sliceType ∧ '.' ∉ f.arrayType ∧ '.' ∉ f.mapValueType) :
    mapFieldToSchema E b f = some { s with items := s.items.map dropFormat } := by
  have hprim : ∀ {ty fmt : Str}, (f.type, ty, fmt) ∈ primitives → mapFieldToSchema E b f = some { type := ty, format := fmt } := by
    intro ty fmt hp
    obtain ⟨h1, h2, h3, h4⟩ := primitive_facts _ hp
    simp only [List.mem_cons, List.not_mem_nil, or_false, not_or] at h1 h2 h3 h4
    unfold mapFieldToSchema
    rw [h3, if_neg (by simp), if_neg h4.1, if_neg h4.2.2.1, h1]
  cases h with
  | plain hk _ hs =>
    simp only [List.mem_cons, List.not_mem_nil, or_false, not_or] at hk
    generalize ht : f.type = t at hs
    cases hs with
    | primitive hp => rw [← ht] at hp; exact hprim hp
    | anything =>
      unfold mapFieldToSchema
      rw [ht]
      have : mapPredefined c!"any" = {} := by decide +kernel
      rw [this]
      rfl
    | composite hc => exact absurd (composite_facts _ hc).2.2.2.1 (by rw [← ht]; simp [hk])
    | defined hr hn =>
      have hna := not_accepted hr
      unfold mapFieldToSchema
      rw [ht, hna, if_pos rfl]
      unfold makeRef
      rw [hn]
      rfl
  | enum hp => rw [he]; exact hprim hp
  | slice ht hs =>
    have hacc : isAcceptedType f.type = true := by rw [ht]; decide +kernel
    have hmp : mapPredefined f.type = { type := c!"array" } := by rw [ht]; decide +kernel
    unfold mapFieldToSchema
    rw [hacc, if_neg (by simp), if_pos ht, hmp]
    simp only
    generalize f.sliceType = t at *
    cases hs with
    | primitive hp =>
      obtain ⟨h1, h2, h3, h4⟩ := primitive_facts _ hp
      simp only at h1 h2 h3
      rw [h3, if_neg (by simp), h1]
      rfl
    | anything =>
      have : mapPredefined c!"any" = {} := by decide +kernel
      rw [this]
      rfl
    | composite hc =>
      obtain ⟨h1, h2, h3, _⟩ := composite_facts _ hc
      simp only at h1 h2 h3
      rw [h3, if_neg (by simp), h1]
      rfl
    | defined hr hn =>
      rw [not_accepted hr, if_pos rfl]
      unfold makeRef
      rw [hn]
      rfl
  | array ht _ => exact absurd ht ha
  | map ht hs =>
    have hacc : isAcceptedType f.type = true := by rw [ht]; decide +kernel
    have hmp : mapPredefined f.type = { type := c!"object" } := by rw [ht]; decide +kernel
    unfold mapFieldToSchema
    rw [hacc, if_neg (by simp), if_neg (by rw [ht]; decide), if_pos ht, hmp]
    simp only
    generalize f.mapValueType = t at *
    cases hs with
    | primitive hp =>
      obtain ⟨h1, h2, h3, h4⟩ := primitive_facts _ hp
      simp only at h1 h2 h3
      rw [h3, if_neg (by simp), h1]
      rfl
    | anything =>
      have : mapPredefined c!"any" = {} := by decide +kernel
      rw [this]
      rfl
    | composite hc =>
      obtain ⟨h1, h2, h3, _⟩ := composite_facts _ hc
      simp only at h1 h2 h3
      rw [h3, if_neg (by simp), h1]
      rfl
    | defined hr hn =>
      rw [not_accepted hr, if_pos rfl]
      unfold makeRef
      rw [hn]
      rfl

/-- C61: an unbound parameter gets the schema of its type, an array of it when it is repeated and an object of it when it is a
map. -/
theorem param_schema (E : SchemaEnv) (b : BTag) (p : Param) (s : Schema) (hp : p.isBound = false)
    (hs : NamedSchema (refName E.names b) p.field.package p.field.type s) (hd : '.' ∉ p.field.type) :
    (p.isArray = true → mapParamToSchema E b p = some { type := c!"array", items := some s }) ∧
    (p.isArray = false → p.isMap = true → mapParamToSchema E b p = some { type := c!"object", additionalProperties := some s }) ∧
    (p.isArray = false → p.isMap = false → p.field.type ∈ reserved → mapParamToSchema E b p = some s) := by
  unfold mapParamToSchema
  rw [hp]
  simp only [Bool.false_eq_true, if_false]
  generalize p.field.type = t at *
  have hany : mapPredefined c!"any" = {} := by decide +kernel
  refine ⟨?_, ?_, ?_⟩
  · intro ha
    rw [if_pos ha]
    cases hs with
    | primitive hpr =>
      obtain ⟨h1, h2, h3, h4⟩ := primitive_facts _ hpr
      simp only at h1 h2 h3
      rw [h3, if_neg (by simp), h1]
    | anything => rw [hany]; rfl
    | composite hc =>
      obtain ⟨h1, h2, h3, _⟩ := composite_facts _ hc
      simp only at h1 h2 h3
      rw [h3, if_neg (by simp), h1]
    | defined hr hn =>
      rw [not_accepted hr, if_pos rfl]
      unfold makeRef
      rw [hn]
      rfl
  · intro ha hm
    rw [if_neg (by simp [ha]), if_pos hm]
    cases hs with
    | primitive hpr =>
      obtain ⟨h1, h2, h3, h4⟩ := primitive_facts _ hpr
      simp only at h1 h2 h3
      rw [h3, if_neg (by simp), h1]
    | anything => rw [hany]; rfl
    | composite hc =>
      obtain ⟨h1, h2, h3, _⟩ := composite_facts _ hc
      simp only at h1 h2 h3
      rw [h3, if_neg (by simp), h1]
    | defined hr hn =>
      rw [not_accepted hr, if_pos rfl]
      unfold makeRef
      rw [hn]
      rfl
  · intro ha hm hres
    rw [if_neg (by simp [ha]), if_neg (by simp [hm])]
    cases hs with
    | primitive hpr => rw [(primitive_facts _ hpr).1]
    | anything => rw [hany]
    | composite hc => rw [(composite_facts _ hc).1]
    | defined hr hn => exact absurd hres hr

example : mapParamToSchema {} .form { name := c!"ids", isArray := true, field := { type := c!"int" } } =
    some { type := c!"array", items := some { type := c!"integer", format := c!"int32" } } := by decide +kernel

/-- C61, violated: a body of type `[]int64` is documented as an array of integers of no particular format. -/
theorem slice_item_format_lost :
    mapFieldToSchema {} .json { type := c!"slice", sliceType := c!"int64" } =
      some { type := c!"array", items := some { type := c!"integer" } } := by decide +kernel

/-- C61, violated: a body of a Go array type is not documented. -/
theorem array_body_undocumented (E : SchemaEnv) (b : BTag) (f : Field) (ht : f.type = c!"array")
    (hn : refName E.names b c!"array" f.package = none) : mapFieldToSchema E b f = none := by
  unfold mapFieldToSchema
  have : isAcceptedType c!"array" = false := by decide +kernel
  rw [ht, this, if_pos rfl]
  unfold makeRef
  rw [hn]
  rfl

/-- C61, violated: a user-defined type whose name is a reserved word, such as `type file struct`, is documented as that word,
whatever the name table says. -/
theorem reserved_type_name : ∀ (names : List (Str × Str)) (b : BTag),
    mapFieldToSchema { names := names } b { type := c!"file", package := c!"p" } = some { type := c!"string", format := c!"binary" } := by
  intro names b
  unfold mapFieldToSchema
  have h1 : isAcceptedType c!"file" = true := by decide +kernel
  have h2 : mapPredefined c!"file" = { type := c!"string", format := c!"binary" } := by decide +kernel
  simp only [h1, h2]
  rfl

/-! ### C62: struct schemas -/

/-- The property a field gives, if any. -/
def propOf (E : SchemaEnv) (b : BTag) (x : Str × Field) : Option (Str × Schema) :=
  match fieldEffect E b x.2 with
  | some (.prop n s) => some (n, s)
  | _ => none

theorem structLoop_spec (E : SchemaEnv) (b : BTag) (l : List (Str × Field)) (e e' : List Schema) (p p' : List (Str × Schema))
    (h : structLoop E b l e p = some (e', p')) :
    (∀ t, t ∈ e' ↔ t ∈ e ∨ ∃ x ∈ l, fieldEffect E b x.2 = some (.embed t)) ∧
    (∀ n, mget p' n = (lastFor (l.filterMap (propOf E b)) n).or (mget p n)) ∧ (MSorted p → MSorted p') := by
  induction l generalizing e p with
  | nil =>
    simp only [structLoop, Option.some.injEq, Prod.mk.injEq] at h
    obtain ⟨rfl, rfl⟩ := h
    exact ⟨by simp, by simp [lastFor], id⟩
  | cons x l ih =>
    obtain ⟨k, f⟩ := x
    rw [structLoop_cons] at h
    cases hf : fieldEffect E b f with
    | none => rw [hf] at h; simp at h
    | some ef =>
      rw [hf] at h
      cases ef with
      | skip =>
        obtain ⟨h1, h2, h3⟩ := ih e p h
        refine ⟨?_, ?_, h3⟩
        · intro t
          rw [h1]
          simp [hf]
        · intro n
          rw [h2, List.filterMap_cons]
          simp [propOf, hf]
      | embed s =>
        obtain ⟨h1, h2, h3⟩ := ih _ p h
        refine ⟨?_, ?_, h3⟩
        · intro t
          rw [h1]
          simp only [List.mem_append, List.mem_cons, List.not_mem_nil, or_false, exists_eq_or_imp, hf, Option.some.injEq,
            Effect.embed.injEq]
          constructor
          · rintro ((h | h) | h)
            · exact Or.inl h
            · exact Or.inr (Or.inl h.symm)
            · exact Or.inr (Or.inr h)
          · rintro (h | h | h)
            · exact Or.inl (Or.inl h)
            · exact Or.inl (Or.inr h.symm)
            · exact Or.inr h
        · intro n
          rw [h2, List.filterMap_cons]
          simp [propOf, hf]
      | prop n0 s =>
        obtain ⟨h1, h2, h3⟩ := ih e _ h
        refine ⟨?_, ?_, fun hs => h3 (MSorted_mset hs _ _)⟩
        · intro t
          rw [h1]
          simp [hf]
        · intro n
          rw [h2, List.filterMap_cons, mget_mset]
          have : propOf E b (k, f) = some (n0, s) := by simp [propOf, hf]
          rw [this, lastFor_cons]
          cases lastFor (l.filterMap (propOf E b)) n with
          | some v => simp
          | none =>
            by_cases hn : n0 = n
            · simp [hn]
            · simp [hn]

theorem binding_of_shownAs {f : Field} {b : BTag} {n : Str} (h : ShownAs b f n) (hn : (f.bindingTags.map (·.1)).Nodup) :
    ∃ t, fieldBinding f b = some t ∧ t.name = n ∧ t.notShown = false := by
  obtain ⟨t, h1, h2, h3, h4⟩ := h
  refine ⟨t, ?_, h1, h2⟩
  unfold fieldBinding
  simp only
  rcases h4 with h4 | ⟨h4, h5⟩
  · rw [aget_of_mem_nodup hn h4]
    simp [h3]
  · rw [aget_of_mem_nodup hn h4]
    have : (aget f.bindingTags b).getD {} = {} := by
      cases hg : aget f.bindingTags b with
      | none => rfl
      | some t' => exact h5 t' (aget_some_mem hg)
    rw [this]
    simp [h3]

/-- The schema requires the property `n` to have schema `t`, directly or through `allOf`. -/
def HasProperty (s : Schema) (n : Str) (t : Schema) : Prop := (n, t) ∈ s.properties ∨ ∃ a ∈ s.allOf, (n, t) ∈ a.properties

/-- C62: the schema of a struct for a binding kind is an object whose properties are exactly the fields that are not embedded and
are shown for the kind, each under its shown name and with its own schema, and whose `allOf` refers to exactly the embedded
types that have a schema name; it has nothing else. (For structs in which no two fields that are not embedded are shown under one
name; the tag map of a field has one entry per kind.) -/
theorem struct_schema_exact (E : SchemaEnv) (b : BTag) (c : Field) (s : Schema) (hs : c.type = c!"struct")
    (hm : E.mapping c.name c.package = none) (hnod : ∀ x ∈ c.structFields, (x.2.bindingTags.map (·.1)).Nodup)
    (hpw : c.structFields.Pairwise (fun x y => x.2.isEmbedded = false → y.2.isEmbedded = false → ∀ n, ShownAs b x.2 n → ¬ ShownAs b y.2 n))
    (h : componentToSchema E b c = some s) :
    (∃ props parts, s = { type := c!"object", properties := props, allOf := parts }) ∧
    (∀ n t, HasProperty s n t ↔
      ∃ x ∈ c.structFields, x.2.isEmbedded = false ∧ ShownAs b x.2 n ∧ componentToSchema E b x.2 = some t) ∧
    (∀ r, r ≠ [] → ({ ref := r } ∈ s.allOf ↔
      ∃ x ∈ c.structFields, x.2.isEmbedded = true ∧ makeRef E.names b x.2.type x.2.package = some r)) ∧
    (∀ a ∈ s.allOf, (∃ r, a = { ref := r } ∧ r ≠ []) ∨ ∃ props, a = { properties := props }) := by
  rw [componentToSchema_eq, hm] at h
  simp only [Option.isSome_none, Bool.false_eq_true, if_false, hs, if_true] at h
  cases hl : structLoop E b c.structFields [] [] with
  | none => rw [hl] at h; simp at h
  | some ep =>
    obtain ⟨e, p⟩ := ep
    rw [hl] at h
    simp only [Option.some.injEq] at h
    obtain ⟨h1, h2, h3⟩ := structLoop_spec E b _ _ _ _ _ hl
    have hsorted := h3 MSorted_nil
    · have hentries : ((c.structFields.filterMap (propOf E b)).map (·.1)).Nodup := by
        unfold List.Nodup
        rw [List.pairwise_map, List.pairwise_filterMap]
        refine List.Pairwise.imp_of_mem ?_ hpw
        intro x y hx hy hxy q hq q' hq' heq
        have g : ∀ x ∈ c.structFields, ∀ q, propOf E b x = some q → x.2.isEmbedded = false ∧ ShownAs b x.2 q.1 := by
          intro x hx q hq
          unfold propOf at hq
          split at hq
          · rename_i n s hf
            injection hq with hq
            subst hq
            refine ⟨?_, effect_prop hf (hnod x hx)⟩
            unfold fieldEffect at hf
            by_cases he : x.2.isEmbedded = true
            · rw [if_pos he] at hf
              cases hr : makeRef E.names b x.2.type x.2.package with
              | none => rw [hr] at hf; simp at hf
              | some r => rw [hr] at hf; simp at hf
            · simpa using he
          · simp at hq
        exact hxy (g x hx q hq).1 (g y hy q' hq').1 q.1 (g x hx q hq).2 (heq ▸ (g y hy q' hq').2)
      have hp : ∀ n t, (n, t) ∈ p ↔ ∃ x ∈ c.structFields, x.2.isEmbedded = false ∧ ShownAs b x.2 n ∧
          componentToSchema E b x.2 = some t := by
        intro n t
        have e1 : (n, t) ∈ p ↔ mget p n = some t := ⟨fun h => hsorted.mget_of_mem h, fun h => mget_some_mem h⟩
        have e2 : mget p n = some t ↔ (n, t) ∈ c.structFields.filterMap (propOf E b) := by
          rw [h2]
          simp only [mget, Option.or_none]
          exact ⟨fun h => lastFor_mem h, fun h => lastFor_of_nodup hentries h⟩
        rw [e1, e2, List.mem_filterMap]
        constructor
        · rintro ⟨x, hx, hq⟩
          unfold propOf at hq
          split at hq
          · rename_i n' s' hf
            simp only [Option.some.injEq, Prod.mk.injEq] at hq
            obtain ⟨rfl, rfl⟩ := hq
            have hsh := effect_prop hf (hnod x hx)
            refine ⟨x, hx, ?_, hsh, ?_⟩
            · unfold fieldEffect at hf
              by_cases he : x.2.isEmbedded = true
              · rw [if_pos he] at hf
                cases hr : makeRef E.names b x.2.type x.2.package with
                | none => rw [hr] at hf; simp at hf
                | some r => rw [hr] at hf; simp at hf
              · simpa using he
            · unfold fieldEffect at hf
              split at hf
              · cases hr : makeRef E.names b x.2.type x.2.package with
                | none => rw [hr] at hf; simp at hf
                | some r => rw [hr] at hf; simp at hf
              · cases hb : fieldBinding x.2 b with
                | none => rw [hb] at hf; simp at hf
                | some tag =>
                  rw [hb] at hf
                  simp only at hf
                  split at hf
                  · simp at hf
                  · cases hc : componentToSchema E b x.2 with
                    | none => rw [hc] at hf; simp at hf
                    | some s' =>
                      rw [hc] at hf
                      simp only [Option.some.injEq, Effect.prop.injEq] at hf
                      rw [hf.2]
          · simp at hq
        · rintro ⟨x, hx, he, hsh, hc⟩
          refine ⟨x, hx, ?_⟩
          obtain ⟨tag, hb, hna, hsn⟩ := binding_of_shownAs hsh (hnod x hx)
          have hf : fieldEffect E b x.2 = some (.prop n t) := by
            unfold fieldEffect
            rw [if_neg (by simp [he]), hb]
            simp only [hsn, Bool.false_eq_true, if_false, hc, hna]
          simp [propOf, hf]
      have he : ∀ a, a ∈ e ↔ ∃ x ∈ c.structFields, x.2.isEmbedded = true ∧ ∃ r, makeRef E.names b x.2.type x.2.package = some r ∧
          a = { ref := r } := by
        intro a
        rw [h1]
        simp only [List.not_mem_nil, false_or]
        constructor
        · rintro ⟨x, hx, hf⟩
          have hemb := effect_embed hf
          refine ⟨x, hx, hemb, ?_⟩
          unfold fieldEffect at hf
          rw [if_pos hemb] at hf
          cases hr : makeRef E.names b x.2.type x.2.package with
          | none => rw [hr] at hf; simp at hf
          | some r =>
            rw [hr] at hf
            simp only [Option.some.injEq, Effect.embed.injEq] at hf
            exact ⟨r, rfl, hf.symm⟩
        · rintro ⟨x, hx, hemb, r, hr, rfl⟩
          refine ⟨x, hx, ?_⟩
          unfold fieldEffect
          rw [if_pos hemb, hr]
      have heprop : ∀ a ∈ e, a.properties = [] := by
        intro a ha
        obtain ⟨x, _, _, r, _, rfl⟩ := (he a).mp ha
        rfl
      have heref : ∀ r, { ref := r } ∈ e ↔ ∃ x ∈ c.structFields, x.2.isEmbedded = true ∧
          makeRef E.names b x.2.type x.2.package = some r := by
        intro r
        constructor
        · intro ha
          obtain ⟨x, hx, h1, r', hr, e'⟩ := (he _).mp ha
          cases e'
          exact ⟨x, hx, h1, hr⟩
        · rintro ⟨x, hx, h1, hr⟩
          exact (he _).mpr ⟨x, hx, h1, r, hr, rfl⟩
      have heparts : ∀ a ∈ e, ∃ r, a = { ref := r } ∧ r ≠ [] := by
        intro a ha
        obtain ⟨x, _, _, r, hr, rfl⟩ := (he a).mp ha
        refine ⟨r, rfl, ?_⟩
        unfold makeRef at hr
        obtain ⟨n, _, rfl⟩ := Option.map_eq_some_iff.mp hr
        simp [refPrefix]
      have hno : ∀ n t, ¬ ∃ a ∈ e, (n, t) ∈ a.properties := by
        rintro n t ⟨a, ha, hx⟩
        rw [heprop a ha] at hx
        simp at hx
      subst h
      unfold composeStruct
      by_cases h0 : e = []
      · rw [if_pos h0]
        refine ⟨⟨p, [], rfl⟩, ?_, ?_, by intro a ha; cases ha⟩
        · intro n t
          rw [← hp]
          simp [HasProperty]
        · intro r _
          rw [← heref, h0]
      · rw [if_neg h0]
        by_cases h00 : p = []
        · rw [if_pos h00]
          refine ⟨⟨[], e, rfl⟩, ?_, fun r _ => heref r, fun a ha => Or.inl (heparts a ha)⟩
          intro n t
          rw [← hp, h00]
          simp only [HasProperty, List.not_mem_nil, false_or, iff_false]
          exact hno n t
        · rw [if_neg h00]
          refine ⟨⟨[], _, rfl⟩, ?_, ?_, ?_⟩
          · intro n t
            rw [← hp]
            simp only [HasProperty, List.not_mem_nil, false_or, List.mem_append, List.mem_singleton]
            constructor
            · rintro ⟨a, ha | rfl, hx⟩
              · exact absurd ⟨a, ha, hx⟩ (hno n t)
              · exact hx
            · intro hx
              exact ⟨_, Or.inr rfl, hx⟩
          · intro r hr
            rw [← heref]
            simp only [List.mem_append, List.mem_singleton]
            constructor
            · rintro (ha | hx)
              · exact ha
              · exact absurd (congrArg Schema.ref hx) hr
            · exact Or.inl
          · intro a ha
            simp only [List.mem_append, List.mem_singleton] at ha
            rcases ha with ha | rfl
            · exact Or.inl (heparts a ha)
            · exact Or.inr ⟨p, rfl⟩

/-- Non-vacuity: a struct with two embedded types and two fields of its own. -/
def pairStruct : Field :=
  { name := c!"Pair", type := c!"struct", package := c!"p", structFields :=
    [(c!"A", { type := c!"A", package := c!"q", isEmbedded := true, bindingTags := [(.none, { name := c!"A" })] }),
     (c!"B", { type := c!"B", package := c!"q", isEmbedded := true, bindingTags := [(.none, { name := c!"B" })] }),
     (c!"ID", { type := c!"int", package := c!"p", bindingTags := [(.json, { name := c!"id" })] }),
     (c!"Name", { type := c!"string", package := c!"p", bindingTags := [(.json, { name := c!"name" })] })] }

def pairNames : List (Str × Str) :=
  match makeNames id [{ name := c!"A", type := c!"struct", package := c!"q" }, { name := c!"B", type := c!"struct", package := c!"q" }] [] with
  | .ok names => names
  | _ => []

theorem pairStruct_schema : componentToSchema { names := pairNames } .json pairStruct =
    some { type := c!"object", allOf := [{ ref := c!"#/components/schemas/q.A" }, { ref := c!"#/components/schemas/q.B" },
      { properties := [(c!"id", { type := c!"integer", format := c!"int32" }), (c!"name", { type := c!"string" })] }] } := by decide +kernel

example : pairStruct.type = c!"struct" ∧ SchemaEnv.mapping { names := pairNames } pairStruct.name pairStruct.package = none ∧
    (∀ x ∈ pairStruct.structFields, (x.2.bindingTags.map (·.1)).Nodup) ∧
    pairStruct.structFields.Pairwise (fun x y => x.2.isEmbedded = false → y.2.isEmbedded = false → ∀ n, ShownAs .json x.2 n → ¬ ShownAs .json y.2 n) := by
  refine ⟨rfl, by decide +kernel, by decide, ?_⟩
  simp only [pairStruct, List.pairwise_cons, List.mem_cons, List.not_mem_nil, or_false, List.Pairwise.nil, and_true]
  refine ⟨?_, ?_, ?_, by simp⟩
  · intro y _ h; cases h
  · intro y _ h; cases h
  · rintro y rfl _ _ n ⟨t, e1, _, _, h⟩ ⟨t', e1', _, _, h'⟩
    simp only [List.mem_singleton, Prod.mk.injEq, reduceCtorEq, false_and, or_false, true_and] at h h'
    subst h h'
    rw [← e1'] at e1
    exact absurd e1 (by decide)

end Astra.Props
