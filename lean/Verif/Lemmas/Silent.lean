/-
Which schemas carry descriptions.
-/
import Verif.Spec.Comments
import Verif.Lemmas.Refs

namespace Astra
open Spec

theorem undescribed_of {s : Schema} (h0 : s.description = []) (h : ∀ t, PartOf t s → Undescribed t) : Undescribed s := by
  intro t ht
  cases ht with
  | self => exact h0
  | part hp hw => exact h _ hp t hw

theorem undescribed_part {s t : Schema} (h : Undescribed s) (hp : PartOf t s) : Undescribed t := fun u hu => h u (.part hp hu)

theorem undescribed_plain {s : Schema} (h0 : s.description = []) (h1 : s.allOf = []) (h2 : s.items = none) (h3 : s.properties = [])
    (h4 : s.additionalProperties = none) : Undescribed s :=
  undescribed_of h0 (fun t ht => by simp [PartOf, h1, h2, h3, h4] at ht)

theorem undescribed_format (tf : Option TypeFormat) : Undescribed (formatSchema tf) := by
  unfold formatSchema
  split
  · split <;> exact undescribed_plain rfl rfl rfl rfl rfl
  · exact undescribed_plain rfl rfl rfl rfl rfl

theorem undescribed_ref (r : Str) : Undescribed { ref := r } := undescribed_plain rfl rfl rfl rfl rfl

theorem undescribed_elem (E : SchemaEnv) (b : BTag) (t pkg : Str) : Undescribed (elemSchema E b t pkg) := by
  unfold elemSchema
  split
  · split
    · exact undescribed_ref _
    · exact undescribed_format _
  · exact undescribed_format _

theorem undescribed_enum {s : Schema} (h : Undescribed s) (e : List EnumVal) : Undescribed { s with enum := e } :=
  undescribed_of (h s (.self s)) (fun _ ht => undescribed_part h ht)

theorem undescribed_items {s : Schema} (h : Undescribed s) (t : Str) (n : Int) : Undescribed { type := t, items := some s, maxLength := n } :=
  undescribed_of rfl (fun u hu => by
    simp [PartOf] at hu
    subst hu
    exact h)

theorem undescribed_leaf (E : SchemaEnv) (b : BTag) (c : Field) : Undescribed (leafSchema E b c) := by
  unfold leafSchema
  split
  · exact undescribed_items (undescribed_elem E b _ _) _ _
  · split
    · exact undescribed_items (undescribed_elem E b _ _) _ _
    · split
      · exact undescribed_of rfl (fun u hu => by
          simp [PartOf] at hu
          subst hu
          exact undescribed_elem E b _ _)
      · split
        · split
          · exact undescribed_ref _
          · exact undescribed_format _
        · exact undescribed_enum (undescribed_format _) _

theorem undescribed_compose {em : List Schema} {ps : List (Str × Schema)} (h1 : ∀ s ∈ em, Undescribed s) (h2 : ∀ x ∈ ps, Undescribed x.2) :
    Undescribed (composeStruct em ps) := by
  have hp : ∀ (ty : Str), Undescribed { type := ty, properties := ps } := fun ty => undescribed_of rfl (fun u hu => by
    simp [PartOf] at hu
    obtain ⟨k, hk⟩ := hu
    exact h2 _ hk)
  unfold composeStruct
  split
  · exact hp _
  · split
    · exact undescribed_of rfl (fun u hu => by
        simp [PartOf] at hu
        exact h1 _ hu)
    · refine undescribed_of rfl (fun u hu => ?_)
      simp only [PartOf, List.mem_append, List.mem_singleton, List.not_mem_nil, exists_false, reduceCtorEq, or_false] at hu
      rcases hu with hu | hu
      · exact h1 _ hu
      · subst hu
        exact hp []

mutual
theorem undescribed_component (E : SchemaEnv) (b : BTag) : ∀ (c : Field) (s : Schema), componentToSchema E b c = some s → Undescribed s
  | ⟨package, type, name, enumValues, isRequired, isEmbedded, sliceType, arrayType, arrayLength, mapKeyPackage, mapKeyType,
      mapValueType, structFields, bindingTags, validationTags, doc⟩, s, h => by
    simp only [componentToSchema] at h
    split at h
    · cases h
      exact undescribed_format _
    · split at h
      · cases hl : structLoop E b structFields [] [] with
        | none => rw [hl] at h; cases h
        | some y =>
          rw [hl] at h
          have := undescribed_loop E b structFields [] [] y.1 y.2 (by simp) (by simp) hl
          cases h
          exact undescribed_compose this.1 this.2
      · cases h
        exact undescribed_leaf E b _
theorem undescribed_loop (E : SchemaEnv) (b : BTag) : ∀ (l : List (Str × Field)) (em : List Schema) (ps : List (Str × Schema)) (em' : List Schema)
    (ps' : List (Str × Schema)), (∀ s ∈ em, Undescribed s) → (∀ x ∈ ps, Undescribed x.2) → structLoop E b l em ps = some (em', ps') →
    (∀ s ∈ em', Undescribed s) ∧ ∀ x ∈ ps', Undescribed x.2
  | [], em, ps, em', ps', h1, h2, h => by
    simp only [structLoop] at h
    cases h
    exact ⟨h1, h2⟩
  | (k, f) :: rest, em, ps, em', ps', h1, h2, h => by
    simp only [structLoop] at h
    split at h
    · split at h
      · refine undescribed_loop E b rest _ _ _ _ ?_ h2 h
        intro s hs
        rcases List.mem_append.1 hs with hs | hs
        · exact h1 s hs
        · rw [List.mem_singleton.1 hs]
          exact undescribed_ref _
      · exact undescribed_loop E b rest _ _ _ _ h1 h2 h
    · split at h
      · cases h
      · split at h
        · exact undescribed_loop E b rest _ _ _ _ h1 h2 h
        · split at h
          · rename_i s hs
            refine undescribed_loop E b rest _ _ _ _ h1 ?_ h
            intro x hx
            rcases mem_mset hx with rfl | hx
            · exact undescribed_component E b f s hs
            · exact h2 x hx
          · exact undescribed_loop E b rest _ _ _ _ h1 h2 h
end

theorem undescribed_with_items {s t : Schema} (h : Undescribed s) (ht : Undescribed t) : Undescribed { s with items := some t } :=
  undescribed_of (h s (.self s)) (fun u hu => by
    rcases hu with hu | hu | hu | hu
    · exact undescribed_part h (Or.inl hu)
    · cases hu; exact ht
    · exact undescribed_part h (Or.inr (Or.inr (Or.inl hu)))
    · exact undescribed_part h (Or.inr (Or.inr (Or.inr hu))))

theorem undescribed_with_values {s t : Schema} (h : Undescribed s) (ht : Undescribed t) : Undescribed { s with additionalProperties := some t } :=
  undescribed_of (h s (.self s)) (fun u hu => by
    rcases hu with hu | hu | hu | hu
    · exact undescribed_part h (Or.inl hu)
    · exact undescribed_part h (Or.inr (Or.inl hu))
    · exact undescribed_part h (Or.inr (Or.inr (Or.inl hu)))
    · cases hu; exact ht)

theorem undescribed_zero : Undescribed {} := undescribed_plain rfl rfl rfl rfl rfl

theorem undescribed_field (E : SchemaEnv) (b : BTag) (f : Field) (s : Schema) (h : mapFieldToSchema E b f = some s) : Undescribed s := by
  unfold mapFieldToSchema at h
  split at h
  · rw [Option.map_eq_some_iff] at h
    obtain ⟨r, _, rfl⟩ := h
    exact undescribed_ref _
  · split at h
    · cases h
      refine undescribed_with_items (undescribed_format _) ?_
      split
      · split
        · exact undescribed_ref _
        · exact undescribed_plain rfl rfl rfl rfl rfl
      · exact undescribed_plain rfl rfl rfl rfl rfl
    · split at h
      · cases h
        refine undescribed_with_values (undescribed_format _) ?_
        split
        · split
          · exact undescribed_ref _
          · exact undescribed_zero
        · exact undescribed_format _
      · cases h
        exact undescribed_format _

theorem undescribed_param (E : SchemaEnv) (b : BTag) (p : Param) (s : Schema) (h : mapParamToSchema E b p = some s) : Undescribed s := by
  unfold mapParamToSchema at h
  split at h
  · exact undescribed_field E b _ s h
  · split at h
    · cases h
      refine undescribed_with_items (s := { type := c!"array" }) (undescribed_plain rfl rfl rfl rfl rfl) ?_
      split
      · split
        · exact undescribed_ref _
        · exact undescribed_format _
      · exact undescribed_format _
    · split at h
      · cases h
        refine undescribed_with_values (s := { type := c!"object" }) (undescribed_plain rfl rfl rfl rfl rfl) ?_
        split
        · split
          · exact undescribed_ref _
          · exact undescribed_zero
        · exact undescribed_format _
      · cases h
        exact undescribed_format _

theorem undescribed_body {s : Schema} (h : Undescribed s) (bp : BodyParam) : Undescribed (bodySchema bp s) := by
  unfold bodySchema
  split
  · refine undescribed_of rfl (fun u hu => ?_)
    simp [PartOf] at hu
    obtain ⟨_, rfl⟩ := hu
    exact h
  · exact h

/-- The schemas of an operation carry no descriptions. -/
theorem undescribed_operation (E : SchemaEnv) (cs : List Field) (ch : RouteChoice) (hs : ∀ l, (ch.sort l).Perm l)
    (hit : ∀ n l, (ch.iter n l).Perm l) (r : Route) (s : Schema) (h : InOperation (operationOf E cs ch r) s) : Undescribed s := by
  have hquery : ∀ (ps : List Param) n, ∀ p ∈ queryParameters E cs ch.iter n ps, Undescribed p.schema := by
    intro ps
    induction ps with
    | nil => simp [queryParameters]
    | cons q ps ih =>
      intro n p hp
      rw [queryParameters, List.mem_append] at hp
      rcases hp with hp | hp
      · unfold queryParametersOf at hp
        split at hp
        · simp at hp
        · rename_i s hs
          split at hp
          · split at hp
            · simp at hp
            · split at hp
              · simp at hp
              · rename_i comp hcomp
                obtain ⟨x, hx, rfl⟩ := List.mem_map.mp hp
                exact undescribed_part (undescribed_component E _ _ _ hcomp) (Or.inr (Or.inr (Or.inl ⟨x.1, (hit n _).mem_iff.mp hx⟩)))
          · simp only [List.mem_singleton] at hp
            subst hp
            exact undescribed_param E _ _ _ hs
      · exact ih _ p hp
  have hbody : ∀ (bps : List BodyParam) (rb : Option (List (Str × Schema))), (∀ content, rb = some content → ∀ x ∈ content, Undescribed x.2) →
      ∀ content, bps.foldl (bodyStep E) rb = some content → ∀ x ∈ content, Undescribed x.2 := by
    intro bps
    induction bps with
    | nil => exact fun rb h => h
    | cons bp bps ih =>
      intro rb h
      rw [List.foldl_cons]
      apply ih
      intro content hc x hx
      unfold bodyStep at hc
      split at hc
      · exact h content hc x hx
      · rename_i s hs
        injection hc with hc
        subst hc
        rcases mem_mset hx with rfl | hx
        · exact undescribed_body (undescribed_field E _ _ _ hs) bp
        · cases hrb : rb with
          | none => rw [hrb] at hx; simp at hx
          | some c => rw [hrb] at hx; exact h c hrb x hx
  have hheaders : ∀ x ∈ responseHeaders E r.responseHeaders, Undescribed x.2.schema := by
    have : ∀ (ps : List Param) (m : List (Str × OHeader)), (∀ x ∈ m, Undescribed x.2.schema) →
        ∀ x ∈ ps.foldl (fun m p => match mapParamToSchema E .header p with
          | some s => mset m p.name { required := p.isRequired, schema := s }
          | none => m) m, Undescribed x.2.schema := by
      intro ps
      induction ps with
      | nil => exact fun m h => h
      | cons p ps ih =>
        intro m h
        rw [List.foldl_cons]
        apply ih
        cases hs : mapParamToSchema E .header p with
        | none => exact h
        | some s =>
          intro x hx
          rcases mem_mset hx with rfl | hx
          · exact undescribed_param E _ _ _ hs
          · exact h x hx
    exact this _ [] (by simp)
  have hresp : ∀ (rts : List ReturnType) (m : List (Str × OResponse)),
      (∀ x ∈ m, (∀ y ∈ x.2.content, Undescribed y.2) ∧ ∀ y ∈ x.2.headers, Undescribed y.2.schema) →
      ∀ x ∈ rts.foldl (responseStep E (responseHeaders E r.responseHeaders)) m,
        (∀ y ∈ x.2.content, Undescribed y.2) ∧ ∀ y ∈ x.2.headers, Undescribed y.2.schema := by
    intro rts
    induction rts with
    | nil => exact fun m h => h
    | cons rt rts ih =>
      intro m h
      rw [List.foldl_cons]
      apply ih
      unfold responseStep
      have h' : ∀ x ∈ (if (mget m (itoa rt.statusCode)).isSome then m else mset m (itoa rt.statusCode) { headers := responseHeaders E r.responseHeaders }),
          (∀ y ∈ x.2.content, Undescribed y.2) ∧ ∀ y ∈ x.2.headers, Undescribed y.2.schema := by
        intro x hx
        split at hx
        · exact h x hx
        · rcases mem_mset hx with rfl | hx
          · exact ⟨by simp, hheaders⟩
          · exact h x hx
      generalize (if (mget m (itoa rt.statusCode)).isSome then m else mset m (itoa rt.statusCode) { headers := responseHeaders E r.responseHeaders }) = m' at *
      simp only
      intro x hx
      split at hx
      · rcases mem_mset hx with rfl | hx
        · simp only
          have hr : (∀ y ∈ ((mget m' (itoa rt.statusCode)).getD {}).content, Undescribed y.2) ∧
              ∀ y ∈ ((mget m' (itoa rt.statusCode)).getD {}).headers, Undescribed y.2.schema := by
            cases hg : mget m' (itoa rt.statusCode) with
            | none => exact ⟨by simp, by simp⟩
            | some r => exact h' _ (mget_some_mem hg)
          refine ⟨?_, hr.2⟩
          intro y hy
          rcases mem_mset hy with rfl | hy
          · simp only
            cases hs : mapFieldToSchema E (contentTypeToBindingTag rt.contentType) rt.field with
            | none => exact undescribed_zero
            | some s => exact undescribed_field E _ _ _ hs
          · exact hr.1 y hy
        · exact h' x hx
      · exact h' x hx
  cases h with
  | parameter hp =>
    have hp := (hs _).mem_iff.mp hp
    simp only [List.mem_append] at hp
    rcases hp with (hp | hp) | hp
    · simp only [pathParameters, List.mem_filterMap] at hp
      obtain ⟨q, _, hq⟩ := hp
      cases hm : mapParamToSchema E .uri q with
      | none => rw [hm] at hq; simp at hq
      | some s =>
        rw [hm] at hq
        simp only [Option.map_some, Option.some.injEq] at hq
        subst hq
        exact undescribed_param E _ _ _ hm
    · simp only [headerParameters, List.mem_filterMap] at hp
      obtain ⟨q, _, hq⟩ := hp
      cases hm : mapParamToSchema E .header q with
      | none => rw [hm] at hq; simp at hq
      | some s =>
        rw [hm] at hq
        simp only [Option.map_some, Option.some.injEq] at hq
        subst hq
        exact undescribed_param E _ _ _ hm
    · exact hquery _ _ _ hp
  | body hb hx => exact hbody r.body none (by simp) _ hb _ hx
  | response hr hx => exact (hresp r.returnTypes [] (by simp) _ hr).1 _ hx
  | header hr hx => exact (hresp r.returnTypes [] (by simp) _ hr).2 _ hx

end Astra
