/-
C82: the generated document satisfies the OpenAPI 3.0 standard.
-/
import Verif.Spec.Standard
import Verif.Props.Refs
import Verif.Props.Paths
import Verif.Props.Reproducible
import Verif.Props.OpenApiFile
import Verif.Props.AzureOutput

namespace Astra.Props
open Spec

/-! ### The conditions -/

/-- The type a value is used with is not a slice of slices or a map of slices. -/
def PlainUse (f : Field) : Prop := f.sliceType ≠ c!"slice" ∧ f.mapValueType ≠ c!"slice"

/-- A type, and the types of its fields: not called `slice`, and not a slice, array or map of slices. -/
inductive PlainType : Field → Prop
  | mk {f : Field} : f.name ≠ c!"slice" → f.sliceType ≠ c!"slice" → f.arrayType ≠ c!"slice" → f.mapValueType ≠ c!"slice" →
      (∀ e ∈ f.structFields, PlainType e.2) → PlainType f

/-- A parameter that is not bound to a struct: it has a name and is not itself a slice type (a repeated parameter is marked as
an array instead). -/
def PlainParam (p : Param) : Prop := p.isBound = false ∧ p.name ≠ [] ∧ p.field.type ≠ c!"slice"

/-- The type mappings lead to types of the standard, and only the entry for slices leads to an array. -/
def StandardMapping (types : List (Str × TypeFormat)) : Prop :=
  ∀ e ∈ types, e.1 = c!"slice" ∨ (StandardType e.2.type ∧ e.2.type ≠ c!"array")

/-- The fields of the component that are shown are shown under a name. -/
def NamedFields (c : Field) : Prop := ∀ x ∈ c.structFields, ∀ t ∈ x.2.bindingTags, t.2.notShown = true ∨ t.2.name ≠ []

/-- A route as the standard can express it. -/
structure OrderlyRoute (r : Route) : Prop where
  slash : ∃ rest, r.path = '/' :: rest
  braces : '{' ∉ r.path ∧ '}' ∉ r.path
  /-- the path parameters are those of the path, distinct, and none of them is a catch-all -/
  pathParams : r.pathParams = extractParams r.path
  named : ∀ p ∈ extractParams r.path, p.isRequired = true
  distinct : ((extractParams r.path).map (·.name)).Nodup
  /-- the header parameters are plain and distinct -/
  headers : (∀ p ∈ r.requestHeaders, PlainParam p) ∧ (r.requestHeaders.map (·.name)).Nodup
  /-- the query parameters are plain and distinct, or one struct is bound to the query -/
  query : ((∀ p ∈ r.queryParams, PlainParam p) ∧ (r.queryParams.map (·.name)).Nodup) ∨
    ∃ q, r.queryParams = [q] ∧ q.isBound = true
  responseHeaders : ∀ p ∈ r.responseHeaders, PlainParam p
  /-- something is returned, always with a status code -/
  returns : r.returnTypes ≠ [] ∧ ∀ rt ∈ r.returnTypes, 100 ≤ rt.statusCode ∧ rt.statusCode ≤ 599
  types : (∀ b ∈ r.body, PlainUse b.field) ∧ ∀ rt ∈ r.returnTypes, PlainUse rt.field

/-- A service as the standard can express it. -/
structure OrderlyService (s : OpenApiInput) : Prop where
  routes : ∀ r ∈ s.routes, OrderlyRoute r
  /-- routes with the same operation id are documented at the same place -/
  ids : ∀ r ∈ s.routes, ∀ r' ∈ s.routes, r.operationId ≠ [] → r.operationId = r'.operationId →
    r.path = r'.path ∧ r.method = r'.method
  mapping : StandardMapping s.types
  components : ∀ c ∈ s.components, PlainType c ∧ NamedFields c
  /-- names are made of the characters the standard allows; package paths have slashes, too -/
  names : ∀ c ∈ s.components, (∀ x ∈ c.name, NameChar x) ∧ ∀ x ∈ c.package, NameChar x ∨ x = '/'

/-! ### Schemas -/

theorem std_leaf {s : Schema} (h1 : StandardType s.type) (h2 : s.type ≠ c!"array") (h3 : s.allOf = []) (h4 : s.items = none)
    (h5 : s.properties = []) (h6 : s.additionalProperties = none) : StandardSchema s :=
  .mk h1 (fun h => absurd h h2) (by simp [h3]) (by simp [h4]) (by simp [h5]) (by simp [h6])

theorem std_zero : StandardSchema {} := std_leaf (by simp [StandardType]) (by simp) rfl rfl rfl rfl
theorem std_ref (r : Str) : StandardSchema { ref := r } := std_leaf (by simp [StandardType]) (by simp) rfl rfl rfl rfl

theorem std_format {tf : TypeFormat} (h1 : StandardType tf.type) (h2 : tf.type ≠ c!"array") : StandardSchema (formatSchema (some tf)) := by
  simp only [formatSchema]
  split
  · exact std_zero
  · exact std_leaf h1 h2 rfl rfl rfl rfl

theorem predefined_type {t : Str} (ht : t ≠ c!"slice") {tf : TypeFormat} (h : aget predefinedTypeMap t = some tf) :
    StandardType tf.type ∧ tf.type ≠ c!"array" := by
  have hm := aget_some_mem h
  have key : ∀ e ∈ predefinedTypeMap, e.1 = c!"slice" ∨ (e.2.type ∈ [[], c!"array", c!"boolean", c!"integer", c!"number", c!"object", c!"string"] ∧ e.2.type ≠ c!"array") := by decide +kernel
  exact (key _ hm).resolve_left ht

theorem std_predefined {t : Str} (ht : t ≠ c!"slice") : StandardSchema (mapPredefined t) := by
  unfold mapPredefined
  cases h : aget predefinedTypeMap t with
  | none => exact std_zero
  | some tf => exact std_format (predefined_type ht h).1 (predefined_type ht h).2

theorem std_typeOnly {t : Str} (ht : t ≠ c!"slice") : StandardSchema { type := (mapPredefined t).type } := by
  have h := std_predefined ht
  cases h with
  | mk h1 h2 =>
    refine std_leaf h1 (fun h => ?_) rfl rfl rfl rfl
    refine h2 h ?_
    exact (format_parts _).2.2.1

theorem std_elem (E : SchemaEnv) (b : BTag) {t : Str} (pkg : Str) (ht : t ≠ c!"slice") : StandardSchema (elemSchema E b t pkg) := by
  unfold elemSchema
  split
  · split
    · exact std_ref _
    · exact std_predefined ht
  · exact std_predefined ht

theorem std_array {s : Schema} (h0 : s.type = c!"array") (h3 : s.allOf = []) {t : Schema} (h4 : s.items = some t) (ht : StandardSchema t)
    (h5 : s.properties = []) (h6 : s.additionalProperties = none) : StandardSchema s :=
  .mk (by rw [h0]; simp [StandardType]) (by simp [h4]) (by simp [h3]) (by rw [h4]; rintro _ ⟨⟩; exact ht) (by simp [h5]) (by simp [h6])

theorem std_map {s : Schema} (h0 : s.type = c!"object") (h3 : s.allOf = []) (h4 : s.items = none) (h5 : s.properties = []) {t : Schema}
    (h6 : s.additionalProperties = some t) (ht : StandardSchema t) : StandardSchema s :=
  .mk (by rw [h0]; simp [StandardType]) (by rw [h0]; simp) (by simp [h3]) (by simp [h4]) (by simp [h5]) (by rw [h6]; rintro _ ⟨⟩; exact ht)

theorem std_leafSchema (E : SchemaEnv) (b : BTag) {c : Field} (h1 : c.sliceType ≠ c!"slice") (h2 : c.arrayType ≠ c!"slice")
    (h3 : c.mapValueType ≠ c!"slice") : StandardSchema (leafSchema E b c) := by
  have hp := format_parts (aget predefinedTypeMap c.type)
  unfold leafSchema
  split
  · exact std_array rfl rfl rfl (std_elem _ _ _ h1) rfl rfl
  rename_i hs
  split
  · exact std_array rfl rfl rfl (std_elem _ _ _ h2) rfl rfl
  split
  · exact std_map rfl rfl rfl rfl rfl (std_elem _ _ _ h3)
  split
  · split
    · exact std_ref _
    · exact std_predefined hs
  · cases std_predefined hs with
    | mk k1 k2 => exact std_leaf k1 (fun h => k2 h hp.2.2.1) hp.2.1 hp.2.2.1 hp.2.2.2.1 hp.2.2.2.2

theorem std_compose {embedded : List Schema} {props : List (Str × Schema)} (h1 : ∀ s ∈ embedded, StandardSchema s)
    (h2 : ∀ e ∈ props, StandardSchema e.2) : StandardSchema (composeStruct embedded props) := by
  have hp : StandardSchema { properties := props } := .mk (by simp [StandardType]) (by simp) (by simp) (by simp) h2 (by simp)
  unfold composeStruct
  split
  · exact .mk (by simp [StandardType]) (by simp) (by simp) (by simp) h2 (by simp)
  split
  · exact .mk (by simp [StandardType]) (by simp) h1 (by simp) (by simp) (by simp)
  · refine .mk (by simp [StandardType]) (by simp) ?_ (by simp) (by simp) (by simp)
    intro a ha
    rcases List.mem_append.mp ha with ha | ha
    · exact h1 a ha
    · rw [List.mem_singleton] at ha
      subst ha
      exact hp

theorem std_structLoop (E : SchemaEnv) (b : BTag) (fs : List (Str × Field))
    (h : ∀ e ∈ fs, ∀ s, componentToSchema E b e.2 = some s → StandardSchema s) :
    ∀ embedded props r, (∀ s ∈ embedded, StandardSchema s) → (∀ e ∈ props, StandardSchema e.2) → structLoop E b fs embedded props = some r →
      (∀ s ∈ r.1, StandardSchema s) ∧ ∀ e ∈ r.2, StandardSchema e.2 := by
  induction fs with
  | nil =>
    intro embedded props r h1 h2 hr
    rw [structLoop] at hr
    cases hr
    exact ⟨h1, h2⟩
  | cons e fs ih =>
    obtain ⟨k, f⟩ := e
    have ih := ih (fun e he => h e (List.mem_cons_of_mem _ he))
    intro embedded props r h1 h2 hr
    rw [structLoop] at hr
    split at hr
    · split at hr
      · refine ih _ _ _ ?_ h2 hr
        intro s hs
        rcases List.mem_append.mp hs with hs | hs
        · exact h1 s hs
        · rw [List.mem_singleton] at hs; subst hs; exact std_ref _
      · exact ih _ _ _ h1 h2 hr
    · split at hr
      · cases hr
      · split at hr
        · exact ih _ _ _ h1 h2 hr
        · split at hr
          · rename_i s hs
            refine ih _ _ _ h1 ?_ hr
            intro e he
            rcases mem_mset he with rfl | he
            · exact h (k, f) (by simp) s hs
            · exact h2 e he
          · exact ih _ _ _ h1 h2 hr

theorem mappingKey_slice {name pkg : Str} (h : typeMappingKey name pkg = c!"slice") : name = c!"slice" := by
  unfold typeMappingKey at h
  split at h
  · exact h
  · exfalso
    have hd : '.' ∈ c!"slice" := by rw [← h]; simp
    revert hd
    decide

theorem std_mapping {E : SchemaEnv} (hE : StandardMapping E.types) {name pkg : Str} (hn : name ≠ c!"slice") : StandardSchema (mapTypeFormat E name pkg) := by
  unfold mapTypeFormat SchemaEnv.mapping
  cases h : mget E.types (typeMappingKey name pkg) with
  | none => exact std_zero
  | some tf =>
    obtain ⟨h1, h2⟩ := (hE _ (mget_some_mem h)).resolve_left (fun e => hn (mappingKey_slice e))
    exact std_format h1 h2

theorem std_component {E : SchemaEnv} (hE : StandardMapping E.types) (b : BTag) {f : Field} (h : PlainType f) :
    ∀ s, componentToSchema E b f = some s → StandardSchema s := by
  induction h with
  | @mk f h1 h2 h3 h4 _ ih =>
    obtain ⟨package, type, name, enumValues, isRequired, isEmbedded, sliceType, arrayType, arrayLength, mapKeyPackage, mapKeyType,
      mapValueType, structFields, bindingTags, validationTags, doc⟩ := f
    simp only at h1 h2 h3 h4 ih
    intro s hs
    rw [componentToSchema] at hs
    split at hs
    · cases hs; exact std_mapping hE h1
    split at hs
    · split at hs
      · rename_i hr
        cases hs
        obtain ⟨k1, k2⟩ := std_structLoop E b structFields ih _ _ _ (by simp) (by simp) hr
        exact std_compose k1 k2
      · cases hs
    · cases hs
      exact std_leafSchema _ _ h2 h3 h4

theorem std_mapField (E : SchemaEnv) (b : BTag) {f : Field} (hf : PlainUse f) : ∀ s, mapFieldToSchema E b f = some s → StandardSchema s := by
  intro s hs
  unfold mapFieldToSchema at hs
  split at hs
  · obtain ⟨r, _, rfl⟩ := Option.map_eq_some_iff.mp hs
    exact std_ref _
  split at hs
  · rename_i ht
    cases hs
    refine std_array (by simp only [ht]; decide +kernel) (format_parts _).2.1 rfl ?_ (format_parts _).2.2.2.1 (format_parts _).2.2.2.2
    split
    · split
      · exact std_ref _
      · exact std_typeOnly hf.1
    · exact std_typeOnly hf.1
  rename_i hns
  split at hs
  · rename_i ht
    cases hs
    refine std_map (by simp only [ht]; decide +kernel) (format_parts _).2.1 (format_parts _).2.2.1 (format_parts _).2.2.2.1 rfl ?_
    split
    · split
      · exact std_ref _
      · exact std_zero
    · exact std_predefined hf.2
  · cases hs; exact std_predefined hns

theorem std_mapParam (E : SchemaEnv) (b : BTag) {p : Param} (hp : PlainParam p) : ∀ s, mapParamToSchema E b p = some s → StandardSchema s := by
  intro s hs
  unfold mapParamToSchema at hs
  rw [if_neg (by simp [hp.1])] at hs
  split at hs
  · cases hs
    refine std_array rfl rfl rfl ?_ rfl rfl
    split
    · split
      · exact std_ref _
      · exact std_predefined hp.2.2
    · exact std_predefined hp.2.2
  split at hs
  · cases hs
    refine std_map rfl rfl rfl rfl rfl ?_
    split
    · split
      · exact std_ref _
      · exact std_zero
    · exact std_predefined hp.2.2
  · cases hs; exact std_predefined hp.2.2

theorem std_properties {s : Schema} (h : StandardSchema s) : ∀ e ∈ s.properties, StandardSchema e.2 := by
  cases h with
  | mk _ _ _ _ h => exact h

/-! ### Operations -/

theorem fieldBinding_mem {f : Field} {b : BTag} {t : BindingTag} (h : fieldBinding f b = some t) : ∃ k, (k, t) ∈ f.bindingTags := by
  unfold fieldBinding at h
  simp only at h
  split at h
  · cases h
  rename_i hz
  split at h
  · rename_i ho
    cases h
    cases hg : aget f.bindingTags .none with
    | none => exact absurd ⟨ho, by rw [hg]; rfl⟩ hz
    | some t' => exact ⟨_, aget_some_mem hg⟩
  · rename_i ho
    cases h
    cases hg : aget f.bindingTags b with
    | none => exact absurd (by rw [hg]; rfl) ho
    | some t' => exact ⟨_, aget_some_mem hg⟩

theorem named_structLoop (E : SchemaEnv) (b : BTag) (fs : List (Str × Field))
    (h : ∀ x ∈ fs, ∀ t ∈ x.2.bindingTags, t.2.notShown = true ∨ t.2.name ≠ []) :
    ∀ embedded props r, MSorted props → (∀ e ∈ props, e.1 ≠ []) → structLoop E b fs embedded props = some r →
      MSorted r.2 ∧ ∀ e ∈ r.2, e.1 ≠ [] := by
  induction fs with
  | nil =>
    intro embedded props r h1 h2 hr
    rw [structLoop] at hr
    cases hr
    exact ⟨h1, h2⟩
  | cons e fs ih =>
    obtain ⟨k, f⟩ := e
    have ih := ih (fun e he => h e (List.mem_cons_of_mem _ he))
    intro embedded props r h1 h2 hr
    rw [structLoop] at hr
    split at hr
    · split at hr
      · exact ih _ _ _ h1 h2 hr
      · exact ih _ _ _ h1 h2 hr
    · split at hr
      · cases hr
      · rename_i tag htag
        split at hr
        · exact ih _ _ _ h1 h2 hr
        · rename_i hns
          split at hr
          · refine ih _ _ _ (MSorted_mset h1 _ _) ?_ hr
            intro e he
            rcases mem_mset he with rfl | he
            · obtain ⟨k', hk'⟩ := fieldBinding_mem htag
              exact (h (k, f) (by simp) _ hk').resolve_left hns
            · exact h2 e he
          · exact ih _ _ _ h1 h2 hr

theorem named_component {E : SchemaEnv} {b : BTag} {c : Field} (h : NamedFields c) {s : Schema} (hs : componentToSchema E b c = some s) :
    (s.properties.map (·.1)).Nodup ∧ ∀ e ∈ s.properties, e.1 ≠ [] := by
  obtain ⟨package, type, name, enumValues, isRequired, isEmbedded, sliceType, arrayType, arrayLength, mapKeyPackage, mapKeyType,
    mapValueType, structFields, bindingTags, validationTags, doc⟩ := c
  rw [componentToSchema] at hs
  split at hs
  · cases hs
    rw [mapTypeFormat_properties]
    simp
  split at hs
  · split at hs
    · rename_i hr
      cases hs
      obtain ⟨k1, k2⟩ := named_structLoop E b structFields h _ _ _ MSorted_nil (by simp) hr
      unfold composeStruct
      split
      · exact ⟨k1.nodup, k2⟩
      split <;> simp
    · cases hs
  · cases hs
    unfold leafSchema
    have hp := (format_parts (aget predefinedTypeMap type)).2.2.2.1
    repeat' split
    all_goals simp [mapPredefined, hp]

theorem documented_plain (E : SchemaEnv) (b : BTag) (loc : Str) {ps : List Param} (h : ∀ p ∈ ps, p.isBound = false) :
    (documented E b loc ps).map (fun p => (p.name, p.loc, p.required)) = ps.map (fun p => (p.name, loc, p.isRequired)) := by
  induction ps with
  | nil => rfl
  | cons p ps ih =>
    have ih := ih (fun q hq => h q (List.mem_cons_of_mem _ hq))
    have hs : ∃ s, mapParamToSchema E b p = some s := by
      unfold mapParamToSchema
      rw [if_neg (by simp [h p (by simp)])]
      split
      · exact ⟨_, rfl⟩
      · split <;> exact ⟨_, rfl⟩
    obtain ⟨s, hs⟩ := hs
    simp only [documented, List.flatMap_cons, hs, List.cons_append, List.nil_append, List.map_cons] at ih ⊢
    rw [ih]

theorem queryDoc_eq (name : Str) (required : Bool) (s : Schema) : (queryDoc name required s).name = name ∧ (queryDoc name required s).loc = c!"query" ∧ (queryDoc name required s).schema = s := by
  unfold queryDoc
  split <;> exact ⟨rfl, rfl, rfl⟩

theorem query_plain (E : SchemaEnv) (cs : List Field) {ps : List Param} (h : ∀ p ∈ ps, p.isBound = false) :
    (documentedQuery E cs ps).map (fun p => (p.name, p.loc)) = ps.map (fun p => (p.name, c!"query")) := by
  induction ps with
  | nil => rfl
  | cons p ps ih =>
    have ih := ih (fun q hq => h q (List.mem_cons_of_mem _ hq))
    have hs : ∃ s, mapParamToSchema E .form p = some s := by
      unfold mapParamToSchema
      rw [if_neg (by simp [h p (by simp)])]
      split
      · exact ⟨_, rfl⟩
      · split <;> exact ⟨_, rfl⟩
    obtain ⟨s, hs⟩ := hs
    simp only [documentedQuery, List.flatMap_cons, hs, h p (by simp), Bool.false_eq_true, if_false, List.cons_append, List.nil_append, List.map_cons] at ih ⊢
    rw [ih, (queryDoc_eq _ _ _).1, (queryDoc_eq _ _ _).2.1]

theorem query_orderly {E : SchemaEnv} (hE : StandardMapping E.types) {cs : List Field} (hcs : ∀ c ∈ cs, PlainType c ∧ NamedFields c) {ps : List Param}
    (h : ((∀ p ∈ ps, PlainParam p) ∧ (ps.map (·.name)).Nodup) ∨ ∃ q, ps = [q] ∧ q.isBound = true) :
    ((documentedQuery E cs ps).map (·.name)).Nodup ∧
      ∀ p ∈ documentedQuery E cs ps, p.name ≠ [] ∧ p.loc = c!"query" ∧ StandardSchema p.schema := by
  rcases h with ⟨h1, h2⟩ | ⟨q, rfl, hb⟩
  · have he := query_plain E cs (fun p hp => (h1 p hp).1)
    have hn : (documentedQuery E cs ps).map (·.name) = ps.map (·.name) := by
      have := congrArg (List.map (fun x : Str × Str => x.1)) he
      simpa [List.map_map, Function.comp_def] using this
    refine ⟨hn ▸ h2, ?_⟩
    intro p hp
    obtain ⟨q, hq, hp⟩ := List.mem_flatMap.mp hp
    split at hp
    · cases hp
    rename_i s hs
    rw [if_neg (by simp [(h1 q hq).1]), List.mem_singleton] at hp
    subst hp
    obtain ⟨e1, e2, e3⟩ := queryDoc_eq q.name q.isRequired s
    rw [e1, e2, e3]
    exact ⟨(h1 q hq).2.1, rfl, std_mapParam E _ (h1 q hq) s hs⟩
  · simp only [documentedQuery, List.flatMap_cons, List.flatMap_nil, List.append_nil, hb, if_true]
    split
    · simp
    split
    · simp
    rename_i c hc
    split
    · simp
    rename_i form hform
    obtain ⟨hp, hn⟩ := hcs c (List.mem_of_find?_eq_some hc)
    obtain ⟨k1, k2⟩ := named_component hn hform
    have k3 := std_properties (std_component hE .form hp form hform)
    constructor
    · rw [List.map_map, show ((fun p : OParam => p.name) ∘ fun x : Str × Schema => queryDoc x.1 q.isRequired x.2) = (·.1) from
        funext fun x => (queryDoc_eq _ _ _).1]
      exact k1
    · intro p hp
      obtain ⟨x, hx, rfl⟩ := List.mem_map.mp hp
      obtain ⟨e1, e2, e3⟩ := queryDoc_eq x.1 q.isRequired x.2
      rw [e1, e2, e3]
      exact ⟨k2 x hx, rfl, k3 x hx⟩

theorem plain_extracted {path : Str} {p : Param} (h : p ∈ extractParams path) : PlainParam p := by
  have hn := (extractParams_names path p h).1
  rw [extractParams_exact] at h
  obtain ⟨w, _, rfl⟩ := List.mem_map.mp h
  exact ⟨rfl, hn, by simp⟩

theorem documented_std (E : SchemaEnv) (b : BTag) (loc : Str) {ps : List Param} (h : ∀ p ∈ ps, PlainParam p) :
    ∀ o ∈ documented E b loc ps, (∃ p ∈ ps, o.name = p.name ∧ o.loc = loc ∧ o.required = p.isRequired) ∧ o.name ≠ [] ∧ StandardSchema o.schema := by
  intro o ho
  obtain ⟨p, hp, ho⟩ := List.mem_flatMap.mp ho
  split at ho
  · rename_i s hs
    rw [List.mem_singleton] at ho
    subst ho
    exact ⟨⟨p, hp, rfl, rfl, rfl⟩, (h p hp).2.1, std_mapParam E b (h p hp) s hs⟩
  · cases ho

theorem nodup_pair {l : List OParam} {loc : Str} (h : ∀ o ∈ l, o.loc = loc) (hn : (l.map (·.name)).Nodup) :
    (l.map (fun o => (o.name, o.loc))).Nodup := by
  rw [List.map_congr_left (g := fun o => (o.name, loc)) (fun o ho => by rw [h o ho]),
    show (fun o : OParam => (o.name, loc)) = (fun n : Str => (n, loc)) ∘ (·.name) from rfl, ← List.map_map]
  exact List.Pairwise.map _ (fun a b hab e => hab (congrArg Prod.fst e)) hn

theorem body_nonempty (E : SchemaEnv) (bs : List BodyParam) : ∀ rb : Option (List (Str × Schema)), (∀ c, rb = some c → c ≠ []) →
    ∀ c, bs.foldl (bodyStep E) rb = some c → c ≠ [] := by
  induction bs with
  | nil => exact fun rb h => h
  | cons b bs ih =>
    intro rb h
    refine ih _ ?_
    unfold bodyStep
    split
    · exact h
    · rename_i s hs
      rintro c ⟨⟩ e
      have : mget (mset (rb.getD []) b.contentType (bodySchema b s)) b.contentType = mget [] b.contentType := by rw [e]
      rw [mget_mset_self] at this
      cases this

/-- The operation of an orderly route is an operation of the standard. -/
theorem std_operation {E : SchemaEnv} (hE : StandardMapping E.types) {cs : List Field} (hcs : ∀ c ∈ cs, PlainType c ∧ NamedFields c)
    {ch : RouteChoice} (hch : ValidChoice ch) {r : Route} (hr : OrderlyRoute r) :
    StandardOperation (openapiPath r.path) (operationOf E cs ch r) := by
  have hperm := (parameters_sorted_complete E cs ch hch r).2
  have hp := documented_std E .uri c!"path" (ps := r.pathParams) (fun p hp => plain_extracted (hr.pathParams ▸ hp))
  have hh := documented_std E .header c!"header" hr.headers.1
  obtain ⟨q1, q2⟩ := query_orderly hE hcs hr.query
  have hpn : (documented E .uri c!"path" r.pathParams).map (·.name) = (extractParams r.path).map (·.name) := by
    have := congrArg (List.map (fun x : Str × Str × Bool => x.1)) (documented_plain E .uri c!"path" (ps := r.pathParams)
      (fun p hp => (plain_extracted (hr.pathParams ▸ hp)).1))
    rw [hr.pathParams] at this ⊢
    simpa [List.map_map, Function.comp_def] using this
  have hhn : (documented E .header c!"header" r.requestHeaders).map (·.name) = r.requestHeaders.map (·.name) := by
    have := congrArg (List.map (fun x : Str × Str × Bool => x.1)) (documented_plain E .header c!"header" (ps := r.requestHeaders)
      (fun p hp => (hr.headers.1 p hp).1))
    simpa [List.map_map, Function.comp_def] using this
  constructor
  · intro p hm
    have hm := hperm.mem_iff.mp hm
    rw [List.mem_append, List.mem_append] at hm
    rcases hm with (hm | hm) | hm
    · obtain ⟨⟨q, hq, e1, e2, e3⟩, h2, _⟩ := hp p hm
      refine ⟨h2, Or.inl e2, fun _ => ?_⟩
      rw [e3]
      exact hr.named q (hr.pathParams ▸ hq)
    · obtain ⟨⟨q, hq, e1, e2, e3⟩, h2, _⟩ := hh p hm
      refine ⟨h2, Or.inr (Or.inr e2), fun e => ?_⟩
      rw [e2] at e
      cases e
    · obtain ⟨h1, h2, _⟩ := q2 p hm
      refine ⟨h1, Or.inr (Or.inl h2), fun e => ?_⟩
      rw [h2] at e
      cases e
  · refine (hperm.map _).nodup_iff.mpr ?_
    rw [List.map_append, List.map_append, List.nodup_append, List.nodup_append]
    have l1 : ∀ o ∈ documented E .uri c!"path" r.pathParams, o.loc = c!"path" := fun o ho => by
      obtain ⟨⟨q, _, _, e, _⟩, _⟩ := hp o ho; exact e
    have l2 : ∀ o ∈ documented E .header c!"header" r.requestHeaders, o.loc = c!"header" := fun o ho => by
      obtain ⟨⟨q, _, _, e, _⟩, _⟩ := hh o ho; exact e
    refine ⟨⟨nodup_pair l1 (hpn ▸ hr.distinct), nodup_pair l2 (hhn ▸ hr.headers.2), ?_⟩, nodup_pair (fun o ho => (q2 o ho).2.1) q1, ?_⟩
    · intro a ha b hb e
      obtain ⟨x, hx, rfl⟩ := List.mem_map.mp ha
      obtain ⟨y, hy, rfl⟩ := List.mem_map.mp hb
      have := congrArg Prod.snd e
      simp only [l1 x hx, l2 y hy] at this
      cases this
    · intro a ha b hb e
      obtain ⟨y, hy, rfl⟩ := List.mem_map.mp hb
      rcases List.mem_append.mp ha with ha | ha
      · obtain ⟨x, hx, rfl⟩ := List.mem_map.mp ha
        have := congrArg Prod.snd e
        simp only [l1 x hx, (q2 y hy).2.1] at this
        cases this
      · obtain ⟨x, hx, rfl⟩ := List.mem_map.mp ha
        have := congrArg Prod.snd e
        simp only [l2 x hx, (q2 y hy).2.1] at this
        cases this
  · intro x
    rw [template_vars_match_partial r.path hr.braces hr.named, ← hpn, List.mem_map]
    constructor
    · rintro ⟨o, ho, rfl⟩
      obtain ⟨⟨q, _, _, e, _⟩, _⟩ := hp o ho
      exact ⟨o, hperm.mem_iff.mpr (by simp [ho]), e, rfl⟩
    · rintro ⟨o, ho, e, rfl⟩
      have ho := hperm.mem_iff.mp ho
      rw [List.mem_append, List.mem_append] at ho
      rcases ho with (ho | ho) | ho
      · exact ⟨o, ho, rfl⟩
      · obtain ⟨⟨q, _, _, e', _⟩, _⟩ := hh o ho
        rw [e'] at e; cases e
      · rw [(q2 o ho).2.1] at e; cases e
  · have hk := (responses_exact_partial E cs ch r).1
    constructor
    · intro e
      obtain ⟨rt, hrt⟩ := List.exists_mem_of_ne_nil _ hr.returns.1
      have := (hk (itoa rt.statusCode)).mpr ⟨rt, hrt, rfl⟩
      rw [e] at this
      cases this
    · intro e he
      obtain ⟨rt, hrt, e'⟩ := (hk e.1).mp (List.mem_map.mpr ⟨e, he, rfl⟩)
      exact ⟨rt.statusCode, (hr.returns.2 rt hrt).1, (hr.returns.2 rt hrt).2, e'.symm⟩
  · exact body_nonempty E r.body none (by simp)

def StdResponse (r : OResponse) : Prop := (∀ e ∈ r.headers, StandardSchema e.2.schema) ∧ ∀ e ∈ r.content, StandardSchema e.2

theorem std_bodyFold (E : SchemaEnv) (bs : List BodyParam) (hb : ∀ b ∈ bs, PlainUse b.field) : ∀ rb : Option (List (Str × Schema)),
    (∀ c, rb = some c → ∀ e ∈ c, StandardSchema e.2) → ∀ c, bs.foldl (bodyStep E) rb = some c → ∀ e ∈ c, StandardSchema e.2 := by
  induction bs with
  | nil => exact fun rb h => h
  | cons b bs ih =>
    intro rb h
    refine ih (fun x hx => hb x (List.mem_cons_of_mem _ hx)) _ ?_
    unfold bodyStep
    split
    · exact h
    · rename_i s hs
      rintro c ⟨⟩ e he
      rcases mem_mset he with rfl | he
      · have hg := std_mapField E _ (hb b (by simp)) s hs
        show StandardSchema (bodySchema b s)
        unfold bodySchema
        split
        · exact .mk (by simp [StandardType]) (by simp) (by simp) (by simp) (by simpa using hg) (by simp)
        · exact hg
      · cases rb with
        | none => cases he
        | some c' => exact h c' rfl e he

theorem std_headers (E : SchemaEnv) (ps : List Param) (hp : ∀ p ∈ ps, PlainParam p) : ∀ e ∈ responseHeaders E ps, StandardSchema e.2.schema := by
  unfold responseHeaders
  suffices ∀ (ps : List Param), (∀ p ∈ ps, PlainParam p) → ∀ (m : List (Str × OHeader)), (∀ e ∈ m, StandardSchema e.2.schema) → ∀ e ∈ ps.foldl (fun m p => match mapParamToSchema E .header p with
    | some s => mset m p.name { required := p.isRequired, schema := s }
    | none => m) m, StandardSchema e.2.schema from this ps hp [] (by simp)
  intro ps
  induction ps with
  | nil => exact fun _ m h => h
  | cons p ps ih =>
    intro hp m h
    refine ih (fun x hx => hp x (List.mem_cons_of_mem _ hx)) _ ?_
    dsimp only
    split
    · rename_i s hs
      intro e he
      rcases mem_mset he with rfl | he
      · exact std_mapParam E _ (hp p (by simp)) s hs
      · exact h e he
    · exact h

theorem std_responses (E : SchemaEnv) {headers : List (Str × OHeader)} (hh : ∀ e ∈ headers, StandardSchema e.2.schema) (rts : List ReturnType)
    (hr : ∀ rt ∈ rts, PlainUse rt.field) : ∀ m : List (Str × OResponse), (∀ e ∈ m, StdResponse e.2) →
    ∀ e ∈ rts.foldl (responseStep E headers) m, StdResponse e.2 := by
  induction rts with
  | nil => exact fun m h => h
  | cons rt rts ih =>
    intro m h
    rw [List.foldl_cons]
    apply ih (fun x hx => hr x (List.mem_cons_of_mem _ hx))
    unfold responseStep
    have h' : ∀ x ∈ (if (mget m (itoa rt.statusCode)).isSome then m else mset m (itoa rt.statusCode) { headers := headers }),
        StdResponse x.2 := by
      intro x hx
      split at hx
      · exact h x hx
      · rcases mem_mset hx with rfl | hx
        · exact ⟨hh, by simp⟩
        · exact h x hx
    generalize (if (mget m (itoa rt.statusCode)).isSome then m else mset m (itoa rt.statusCode) { headers := headers }) = m' at *
    simp only
    intro x hx
    split at hx
    · rcases mem_mset hx with rfl | hx
      · simp only
        have hr' : StdResponse ((mget m' (itoa rt.statusCode)).getD {}) := by
          cases hg : mget m' (itoa rt.statusCode) with
          | none => exact ⟨by simp, by simp⟩
          | some r => exact h' _ (mget_some_mem hg)
        refine ⟨hr'.1, ?_⟩
        intro y hy
        rcases mem_mset hy with rfl | hy
        · simp only
          cases hs : mapFieldToSchema E (contentTypeToBindingTag rt.contentType) rt.field with
          | none => exact std_zero
          | some s => exact std_mapField E _ (hr rt (by simp)) s hs
        · exact hr'.2 y hy
      · exact h' x hx
    · exact h' x hx

/-- The schemas in the operation of an orderly route are schemas of the standard. -/
theorem std_inOperation {E : SchemaEnv} (hE : StandardMapping E.types) {cs : List Field} (hcs : ∀ c ∈ cs, PlainType c ∧ NamedFields c)
    {ch : RouteChoice} (hch : ValidChoice ch) {r : Route} (hr : OrderlyRoute r) {s : Schema} (h : InOperation (operationOf E cs ch r) s) :
    StandardSchema s := by
  have hresp := std_responses E (std_headers E r.responseHeaders hr.responseHeaders) r.returnTypes hr.types.2 [] (by simp)
  cases h with
  | parameter hm =>
    have hm := (parameters_sorted_complete E cs ch hch r).2.mem_iff.mp hm
    rw [List.mem_append, List.mem_append] at hm
    rcases hm with (hm | hm) | hm
    · exact (documented_std E .uri c!"path" (ps := r.pathParams) (fun p hp => plain_extracted (hr.pathParams ▸ hp)) _ hm).2.2
    · exact (documented_std E .header c!"header" hr.headers.1 _ hm).2.2
    · exact ((query_orderly hE hcs hr.query).2 _ hm).2.2
  | body hb hx => exact std_bodyFold E r.body hr.types.1 none (by simp) _ hb _ hx
  | response he hx => exact (hresp _ he).2 _ hx
  | header he hx => exact (hresp _ he).1 _ hx

/-! ### Names -/

theorem mem_join {c : Char} {sep : Str} {l : List Str} (h : c ∈ join sep l) : c ∈ sep ∨ ∃ x ∈ l, c ∈ x := by
  induction l with
  | nil => cases h
  | cons a l ih =>
    cases l with
    | nil => exact Or.inr ⟨a, by simp, by simpa [join] using h⟩
    | cons b l =>
      rw [join_cons (by simp)] at h
      rcases List.mem_append.mp h with h | h
      · rcases List.mem_append.mp h with h | h
        · exact Or.inr ⟨a, by simp, h⟩
        · exact Or.inl h
      · rcases ih h with h | ⟨x, hx, h⟩
        · exact Or.inl h
        · exact Or.inr ⟨x, List.mem_cons_of_mem _ hx, h⟩

theorem pkgPart_chars {k : Nat} {pkg : Str} (h : ∀ x ∈ pkg, NameChar x ∨ x = '/') : ∀ x ∈ pkgPart k pkg, NameChar x := by
  have hseg : ∀ seg ∈ split '/' pkg, ∀ x ∈ seg, NameChar x := fun seg hseg x hx =>
    (h x (mem_split hseg hx)).resolve_right (fun e => split_no_sep seg hseg (e ▸ hx))
  intro x hx
  unfold pkgPart at hx
  split at hx
  · rcases mem_join hx with hx | ⟨seg, hs, hx⟩
    · exact Or.inr (Or.inl (by simpa using hx))
    · exact hseg seg (List.drop_subset _ _ hs) x hx
  · unfold lastSegment Spec.segments at hx
    cases hl : (split '/' pkg).getLast? with
    | none => rw [List.getLastD_eq_getLast?, hl] at hx; cases hx
    | some seg =>
      rw [List.getLastD_eq_getLast?, hl] at hx
      exact hseg seg (List.mem_of_getLast? hl) x hx

theorem btag_chars (b : BTag) : ∀ x ∈ b.toStr, NameChar x := by
  have h : ∀ x ∈ b.toStr, x.isAlphanum = true := by cases b <;> decide
  exact fun x hx => Or.inl (h x hx)

theorem safeName_chars {k : Nat} {u : Bool} {b : BTag} {c : Field} {n : Str} (h : safeName k u b c = .ok n)
    (h1 : ∀ x ∈ c.name, NameChar x) (h2 : ∀ x ∈ c.package, NameChar x ∨ x = '/') : n ≠ [] ∧ ∀ x ∈ n, NameChar x := by
  have hp := pkgPart_chars (k := k) h2
  have hb := btag_chars b
  have hdot : NameChar '.' := Or.inr (Or.inl rfl)
  rw [safeName_eq h]
  refine ⟨by simp, ?_⟩
  intro x hx
  split at hx <;> simp only [List.mem_append, List.mem_cons] at hx
  · rcases hx with (hx | rfl | hx) | rfl | hx
    all_goals first | exact hdot | exact hp x hx | exact hb x hx | exact h1 x hx
  · rcases hx with hx | rfl | hx
    all_goals first | exact hdot | exact hp x hx | exact h1 x hx

theorem addComponentSchemas_sorted (E : SchemaEnv) (c : Field) (bs : List BTag) : ∀ m : List (Str × Schema), MSorted m → MSorted (addComponentSchemas E c bs m) := by
  induction bs with
  | nil => exact fun m h => h
  | cons b bs ih =>
    intro m h
    rw [addComponentSchemas]
    split
    · exact ih m h
    · simp only
      split
      · exact ih _ (MSorted_mset h _ _)
      · exact ih m h

theorem componentSchemas_sorted (E : SchemaEnv) (cs : List Field) : MSorted (componentSchemas E cs) := by
  unfold componentSchemas
  suffices ∀ (cs : List Field) (m : List (Str × Schema)), MSorted m → MSorted (cs.foldl (fun m c => addComponentSchemas E c bindingTags m) m) from this cs [] MSorted_nil
  intro cs
  induction cs with
  | nil => exact fun m h => h
  | cons c cs ih => exact fun m h => ih _ (addComponentSchemas_sorted E c _ m h)

theorem openapiPath_slash (rest : Str) : openapiPath ('/' :: rest) = '/' :: openapiPath rest := by
  unfold openapiPath
  rw [mapPathParams_eq, mapPathParams_eq]
  unfold mapPath
  rw [split_cons_sep, List.map_cons, join_cons (by simp [split_ne_nil])]
  rfl

theorem op_method {i : PathItem} {m : Str} {op : Operation} (h : i.op m = some op) : m ∈ documentedMethods := by
  unfold PathItem.op at h
  repeat' (split at h)
  all_goals first
    | (rename_i e; subst e; decide)
    | cases h

/-! ### The document -/

/-- C82 (partial): the document of an orderly service satisfies the OpenAPI 3.0 standard, whatever the runtime chooses. The last
four hypotheses are those of `refs_resolve_partial`. Missing: each of the conditions in `OrderlyRoute` and `OrderlyService` is
needed; the theorems below show services that violate one of them and get a document the standard rejects. -/
theorem document_standard_partial (ch : Choices) (hord : AnyOrder ch.groups) (hch : ∀ n, ValidChoice (ch.route n))
    (s : OpenApiInput) (d : Document) (hgen : generateDoc ch [] s = .ok d) (hs : OrderlyService s)
    (hname : ∀ c ∈ s.components, '.' ∉ c.name ∧ '.' ∉ lastSegment c.package)
    (hdist : ∀ c ∈ s.components, ∀ c' ∈ s.components, c.name = c'.name → c.package = c'.package → c = c')
    (hz : ∀ c ∈ s.components, NoZeroTags c.structFields) (hem : ∀ c ∈ s.components, Emittable s.types c) : Standard d := by
  have hrefs := refs_resolve_partial ch hord hch s d hgen hname hdist hz hem
  obtain ⟨names, hm, hops, hkeys⟩ := operation_of_last_route ch [] s d hgen
  have hd : d.openapi = c!"3.0.0" ∧ d.paths = addRoutes { types := s.types, names := names } s.components ch.route 0 s.routes [] ∧
      d.schemas = componentSchemas { types := s.types, names := names } s.components := by
    unfold generateDoc at hgen
    cases hc : s.config with
    | none => rw [hc] at hgen; cases hgen
    | some cfg =>
      rw [hc, hm] at hgen
      simp only [Res.ok.injEq] at hgen
      subst hgen
      exact ⟨rfl, rfl, rfl⟩
  have hpaths : MSorted d.paths := by rw [hd.2.1]; exact addRoutes_sorted _ _ _ _ _ _ MSorted_nil
  have hroute : ∀ path i m op, (path, i) ∈ d.paths → i.op m = some op →
      ∃ n, ∃ r ∈ s.routes, openapiPath r.path = path ∧ r.method = m ∧
        op = operationOf { types := s.types, names := names } s.components (ch.route n) r := by
    intro path i m op hi ho
    have e := hops path m (op_method ho)
    unfold Document.operation opAt at e
    rw [hpaths.mget_of_mem hi] at e
    simp only [Option.bind_some, ho] at e
    cases hf : s.routes.zipIdx.reverse.find? (fun x => openapiPath x.1.path = path ∧ x.1.method = m) with
    | none => rw [hf] at e; cases e
    | some x =>
      rw [hf] at e
      have hx := List.mem_of_find?_eq_some hf
      rw [List.mem_reverse] at hx
      have hp := List.find?_some hf
      simp only [decide_eq_true_eq] at hp
      exact ⟨x.2, x.1, (List.mem_zipIdx hx).2.2 ▸ List.getElem_mem _, hp.1, hp.2, by simpa using e⟩
  refine ⟨hd.1, ⟨hpaths.nodup, ?_⟩, ?_, ?_, ⟨?_, ?_⟩, ?_, fun sch r h1 h2 => hrefs sch h1 r h2⟩
  · intro e he
    obtain ⟨r, hr, e'⟩ := (hkeys e.1).mp (List.mem_map.mpr ⟨e, he, rfl⟩)
    obtain ⟨rest, hslash⟩ := (hs.routes r hr).slash
    exact ⟨_, by rw [← e', hslash, openapiPath_slash]⟩
  · intro path i op hi ho
    obtain ⟨m, _, ho⟩ := op_of_ofItem ho
    obtain ⟨n, r, hr, rfl, _, rfl⟩ := hroute path i m op hi ho
    exact std_operation (E := { types := s.types, names := names }) hs.mapping hs.components (hch n) (hs.routes r hr)
  · intro path i m op path' i' m' op' hi ho hi' ho' hne heq
    obtain ⟨n, r, hr, rfl, rfl, rfl⟩ := hroute path i m op hi ho
    obtain ⟨n', r', hr', rfl, rfl, rfl⟩ := hroute path' i' m' op' hi' ho'
    obtain ⟨e1, e2⟩ := hs.ids r hr r' hr' hne heq
    exact ⟨by rw [e1], e2⟩
  · rw [hd.2.2]
    exact (componentSchemas_sorted _ _).nodup
  · intro e he
    rw [hd.2.2] at he
    obtain ⟨c, hc, b, sch, _, hn, _⟩ := schemas_sound _ _ e he
    obtain ⟨k, hk⟩ : ∃ k, mget names k = some e.1 := by
      unfold refName at hn
      split at hn
      · rename_i n' hk
        injection hn with hn
        subst hn
        exact ⟨_, hk⟩
      · exact ⟨_, hn⟩
    obtain ⟨c', hc', b', _, _, hsafe⟩ := (makeNames_spec hord hm).1 k e.1 hk
    exact safeName_chars hsafe (hs.names c' hc').1 (hs.names c' hc').2
  · intro sch hin
    cases hin with
    | component he =>
      rw [hd.2.2] at he
      obtain ⟨c, hc, b, s0, _, _, hs0, e⟩ := schemas_sound _ _ _ he
      have h0 := std_component (E := { types := s.types, names := names }) hs.mapping b (hs.components c hc).1 s0 hs0
      simp only at e
      subst e
      unfold withDoc
      split
      · exact h0
      · cases h0 with
        | mk h1 h2 h3 h4 h5 h6 => exact .mk h1 h2 h3 h4 h5 h6
    | operation hi ho hin =>
      obtain ⟨m, _, ho⟩ := op_of_ofItem ho
      obtain ⟨n, r, hr, _, _, rfl⟩ := hroute _ _ m _ hi ho
      exact std_inOperation (E := { types := s.types, names := names }) hs.mapping hs.components (hch n) (hs.routes r hr) hin

/-! ### A service the theorem applies to -/

/-- A service with path, header and query parameters, a struct bound to the query, a request body and references. -/
def shopService : OpenApiInput :=
  { refService with
    routes := [
      { method := c!"GET", path := c!"/pets/:id", operationId := c!"getPet", pathParams := extractParams c!"/pets/:id",
        queryParams := [{ name := c!"tag", isArray := true, field := { type := c!"string" } }],
        requestHeaders := [{ name := c!"X-Trace", field := { type := c!"string" } }],
        returnTypes := [
          { statusCode := 200, contentType := c!"application/json", field := { type := c!"A", package := c!"p" } },
          { statusCode := 404, contentType := c!"application/json", field := { type := c!"nil" } }] },
      { method := c!"GET", path := c!"/pets", operationId := c!"findPets",
        queryParams := [{ isBound := true, field := { type := c!"F", package := c!"p" } }],
        returnTypes := [{ statusCode := 200, contentType := c!"application/json", field := { type := c!"slice", sliceType := c!"A", package := c!"p" } }] },
      { method := c!"POST", path := c!"/pets", operationId := c!"addPet",
        body := [{ contentType := c!"application/json", field := { type := c!"A", package := c!"p" } }],
        returnTypes := [{ statusCode := 201, field := { type := c!"nil" } }] }],
    components := refService.components ++ [
      { name := c!"F", package := c!"p", type := c!"struct", structFields := [
        (c!"Limit", { type := c!"int", bindingTags := [(.form, { name := c!"limit" })] }),
        (c!"Tags", { type := c!"slice", sliceType := c!"string", bindingTags := [(.form, { name := c!"tags" })] })] }] }

def docOf (s : OpenApiInput) : Document := match generateDoc someChoices [] s with | .ok d => d | _ => {}

theorem plainType_leaf {f : Field} (h : f.name ≠ c!"slice" ∧ f.sliceType ≠ c!"slice" ∧ f.arrayType ≠ c!"slice" ∧ f.mapValueType ≠ c!"slice")
    (h' : f.structFields = []) : PlainType f := .mk h.1 h.2.1 h.2.2.1 h.2.2.2 (by simp [h'])

instance (c : Char) : Decidable (NameChar c) := inferInstanceAs (Decidable (_ ∨ _))
instance (t : Str) : Decidable (StandardType t) := inferInstanceAs (Decidable (_ ∈ _))
instance (p : Param) : Decidable (PlainParam p) := inferInstanceAs (Decidable (_ ∧ _))
instance (f : Field) : Decidable (PlainUse f) := inferInstanceAs (Decidable (_ ∧ _))
instance (c : Field) : Decidable (NamedFields c) := inferInstanceAs (Decidable (∀ x ∈ c.structFields, _))
instance (l : List (Str × TypeFormat)) : Decidable (StandardMapping l) := inferInstanceAs (Decidable (∀ e ∈ l, _))

theorem shop_orderly : OrderlyService shopService := by
  refine ⟨?_, by decide +kernel, by decide +kernel, ?_, by decide +kernel⟩
  · intro r hr
    simp only [shopService, List.mem_cons, List.not_mem_nil, or_false] at hr
    rcases hr with rfl | rfl | rfl
    · exact ⟨⟨_, rfl⟩, by decide, rfl, by decide, by decide, by decide, Or.inl (by decide), by decide, by decide, by decide⟩
    · exact ⟨⟨_, rfl⟩, by decide, by decide, by decide, by decide, by decide, Or.inr ⟨_, rfl, rfl⟩, by decide, by decide, by decide⟩
    · exact ⟨⟨_, rfl⟩, by decide, by decide, by decide, by decide, by decide, Or.inl (by decide), by decide, by decide, by decide⟩
  · intro c hc
    simp only [shopService, refService, List.mem_cons, List.not_mem_nil, or_false, List.cons_append, List.nil_append] at hc
    rcases hc with rfl | rfl | rfl
    all_goals
      refine ⟨.mk (by decide) (by decide) (by decide) (by decide) ?_, by decide⟩
      intro e he
      simp only [List.mem_cons, List.not_mem_nil, or_false] at he
    · subst he; exact plainType_leaf (by decide) rfl
    · subst he; exact plainType_leaf (by decide) rfl
    · rcases he with rfl | rfl <;> exact plainType_leaf (by decide) rfl

theorem shop_emittable : ∀ c ∈ shopService.components, Emittable shopService.types c ∧ NoZeroTags c.structFields := by
  intro c hc
  simp only [shopService, refService, List.mem_cons, List.not_mem_nil, or_false, List.cons_append, List.nil_append] at hc
  rcases hc with rfl | rfl | rfl
  · exact ⟨emittable_one_kind _ _ .json (by decide) (by simp [HasTwoBindings]) (by simp [UsesKind]) (by simp), by simp [NoZeroTags]⟩
  · exact ⟨emittable_untagged _ _ (by simp), by simp [NoZeroTags]⟩
  · exact ⟨emittable_one_kind _ _ .form (by decide) (by simp [HasTwoBindings]) (by simp [UsesKind]) (by simp), by simp [NoZeroTags]⟩

/-- Non-vacuity: the hypotheses hold of `shopService`, and its document has operations, parameters and schemas. -/
example : Standard (docOf shopService) ∧
    (mkeys (docOf shopService).paths = [c!"/pets", c!"/pets/{id}"] ∧ mkeys (docOf shopService).schemas = [c!"p.A", c!"p.B", c!"p.F"]) ∧
    (opAt (docOf shopService).paths c!"/pets/{id}" c!"GET").map (fun o => o.parameters.map (fun p => (p.name, p.loc)))
      = some [(c!"X-Trace", c!"header"), (c!"id", c!"path"), (c!"tag", c!"query")] ∧
    (opAt (docOf shopService).paths c!"/pets" c!"GET").map (fun o => o.parameters.map (fun p => (p.name, p.schema.type)))
      = some [(c!"limit", c!"integer"), (c!"tags", c!"array")] := by
  refine ⟨document_standard_partial someChoices (fun l => List.Perm.refl _) (fun n => someChoice_valid) shopService _ ?_ shop_orderly
    (by decide +kernel) (by decide +kernel) (fun c hc => (shop_emittable c hc).2) (fun c hc => (shop_emittable c hc).1), by decide +kernel, by decide +kernel, by decide +kernel⟩
  decide +kernel

/-! ### Services whose document the standard rejects -/

theorem std_at {d : Document} (h : Standard d) {path m : Str} {op : Operation} (ho : opAt d.paths path m = some op) : StandardOperation path op := by
  unfold opAt at ho
  obtain ⟨i, hi, ho⟩ := Option.bind_eq_some_iff.mp ho
  exact h.operations path i op (mget_some_mem hi) (ofItem_of_op (op_method ho) ho)

/-- The route of `refService`, changed. -/
def withRoute (r : Route) : OpenApiInput := { refService with routes := [r] }

/-- A return value without a body. -/
def okReturn : ReturnType := { statusCode := 200, field := { type := c!"nil" } }

/-- C82, violated: a handler that returns nothing the analysis sees, such as one that serves a file, has no responses. -/
theorem no_responses_not_standard : generateDoc someChoices [] (withRoute { method := c!"GET", path := c!"/a" }) = .ok (docOf (withRoute { method := c!"GET", path := c!"/a" })) ∧
    ¬ Standard (docOf (withRoute { method := c!"GET", path := c!"/a" })) :=
  ⟨by decide +kernel, fun h => (std_at h (path := c!"/a") (m := c!"GET") (op := {}) (by decide +kernel)).responses.1 rfl⟩

def catchAllRoute : Route := { method := c!"GET", path := c!"/f/*rest", pathParams := extractParams c!"/f/*rest", returnTypes := [okReturn] }

/-- C82, violated: a catch-all parameter is templated under another name than it is declared under. -/
theorem catchAll_not_standard : generateDoc someChoices [] (withRoute catchAllRoute) = .ok (docOf (withRoute catchAllRoute)) ∧
    ¬ Standard (docOf (withRoute catchAllRoute)) := by
  refine ⟨by decide +kernel, fun h => ?_⟩
  have ho : opAt (docOf (withRoute catchAllRoute)).paths c!"/f/{rest*}" c!"GET" = some { parameters := [{ name := c!"rest", loc := c!"path", schema := { type := c!"string" } }], responses := [(c!"200", {})] } := by decide +kernel
  have := ((std_at h ho).template c!"rest*").mp (by decide +kernel)
  revert this
  decide +kernel

def twoQueriesRoute : Route := { method := c!"GET", path := c!"/a", queryParams := [{ name := c!"q", field := { type := c!"string" } }, { name := c!"q", field := { type := c!"string" } }], returnTypes := [okReturn] }

/-- C82, violated: a query parameter that the handler reads twice is declared twice. -/
theorem query_twice_not_standard : generateDoc someChoices [] (withRoute twoQueriesRoute) = .ok (docOf (withRoute twoQueriesRoute)) ∧
    ¬ Standard (docOf (withRoute twoQueriesRoute)) := by
  refine ⟨by decide +kernel, fun h => ?_⟩
  have ho : opAt (docOf (withRoute twoQueriesRoute)).paths c!"/a" c!"GET" = some { parameters := [{ name := c!"q", loc := c!"query", style := c!"form", schema := { type := c!"string" } }, { name := c!"q", loc := c!"query", style := c!"form", schema := { type := c!"string" } }], responses := [(c!"200", {})] } := by decide +kernel
  exact absurd (std_at h ho).unique (by decide +kernel)

def boundUriService : OpenApiInput :=
  { refService with
    routes := [{ method := c!"GET", path := c!"/a/:id", pathParams := extractParams c!"/a/:id" ++ [{ isBound := true, isRequired := true, field := { type := c!"U", package := c!"p" } }], returnTypes := [okReturn] }],
    components := [{ name := c!"U", package := c!"p", type := c!"struct", structFields := [
      (c!"ID", { type := c!"string", bindingTags := [(.uri, { name := c!"id" })] })] }] }

/-- C82, violated: a struct bound to the path parameters (`ShouldBindUri`) adds a path parameter without a name. -/
theorem bound_uri_not_standard : generateDoc someChoices [] boundUriService = .ok (docOf boundUriService) ∧
    ¬ Standard (docOf boundUriService) := by
  refine ⟨by decide +kernel, fun h => ?_⟩
  have ho : ∃ op, opAt (docOf boundUriService).paths c!"/a/{id}" c!"GET" = some op ∧ ∃ p ∈ op.parameters, p.name = [] := by
    have h1 : (opAt (docOf boundUriService).paths c!"/a/{id}" c!"GET").any (fun op => op.parameters.any (fun p => p.name = [])) = true := by decide +kernel
    obtain ⟨op, h2, h3⟩ := Option.any_eq_true _ _ |>.mp h1
    obtain ⟨p, h4, h5⟩ := List.any_eq_true.mp h3
    exact ⟨op, h2, p, h4, by simpa using h5⟩
  obtain ⟨op, h1, p, h2, h3⟩ := ho
  exact ((std_at h h1).parameters p h2).1 h3

def sameHandlerService : OpenApiInput :=
  { refService with routes := [{ method := c!"GET", path := c!"/a", operationId := c!"list", returnTypes := [okReturn] }, { method := c!"GET", path := c!"/b", operationId := c!"list", returnTypes := [okReturn] }] }

/-- C82, violated: a handler registered for two paths gives two operations with one operation id. -/
theorem same_handler_not_standard : generateDoc someChoices [] sameHandlerService = .ok (docOf sameHandlerService) ∧
    ¬ Standard (docOf sameHandlerService) := by
  refine ⟨by decide +kernel, fun h => ?_⟩
  have := h.operationIds c!"/a" { get := some { operationId := c!"list", responses := [(c!"200", {})] } } c!"GET" _ c!"/b" { get := some { operationId := c!"list", responses := [(c!"200", {})] } } c!"GET" _
    (by decide +kernel) rfl (by decide +kernel) rfl (by decide) rfl
  exact absurd this.1 (by decide)

def gridService : OpenApiInput :=
  { refService with routes := [], components := [
      { name := c!"Grid", package := c!"p", type := c!"struct", structFields := [
        (c!"Cells", { type := c!"slice", sliceType := c!"slice", bindingTags := [(.json, { name := c!"cells" })] })] }] }

/-- C82, violated: the inner slice of a slice of slices is an array without items. -/
theorem nested_slice_not_standard : generateDoc someChoices [] gridService = .ok (docOf gridService) ∧
    ¬ Standard (docOf gridService) := by
  refine ⟨by decide +kernel, fun h => ?_⟩
  have hs : (c!"p.Grid", ({ type := c!"object", properties := [(c!"cells", { type := c!"array", items := some { type := c!"array" } })] } : Schema)) ∈ (docOf gridService).schemas := by decide +kernel
  cases h.schemas _ (.component hs) with
  | mk _ _ _ _ h5 _ =>
    cases h5 _ (List.mem_singleton.mpr rfl) with
    | mk _ _ _ h4 _ _ =>
      cases h4 _ rfl with
      | mk _ h2 _ _ _ _ => exact h2 rfl rfl

def umlautService : OpenApiInput :=
  { refService with routes := [], components := [
      { name := c!"Größe", package := c!"p", type := c!"struct", structFields := [
        (c!"X", { type := c!"int", bindingTags := [(.json, { name := c!"x" })] })] }] }

/-- C82, violated: Go type names may have letters outside ASCII, keys of `components.schemas` may not. -/
theorem letters_not_standard : generateDoc someChoices [] umlautService = .ok (docOf umlautService) ∧
    ¬ Standard (docOf umlautService) := by
  refine ⟨by decide +kernel, fun h => ?_⟩
  have hs : (c!"p.Größe", ({ type := c!"object", properties := [(c!"x", { type := c!"integer", format := c!"int32" })] } : Schema)) ∈ (docOf umlautService).schemas := by decide +kernel
  have := (h.names.2 _ hs).2 'ö' (by decide)
  revert this
  decide

end Astra.Props
