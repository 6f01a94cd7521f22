/-
C58: what becomes of a bound struct, in general.
-/
import Verif.Props.OpenApi
import Verif.Model.ContextFunc

namespace Astra.Props

open Spec

theorem structLoop_embedded {E : SchemaEnv} {b : BTag} {l : List (Str × Field)} {e e' : List Schema} {p p' : List (Str × Schema)}
    (h : structLoop E b l e p = some (e', p'))
    (hx : e ≠ [] ∨ ∃ x ∈ l, x.2.isEmbedded = true ∧ (makeRef E.names b x.2.type x.2.package).isSome = true) : e' ≠ [] := by
  induction l generalizing e p with
  | nil =>
    simp only [structLoop, Option.some.injEq, Prod.mk.injEq] at h
    rcases hx with hx | ⟨x, hx, _⟩
    · rw [← h.1]; exact hx
    · simp at hx
  | cons y l ih =>
    obtain ⟨k, f⟩ := y
    rw [structLoop] at h
    by_cases hf : f.isEmbedded = true
    · rw [if_pos hf] at h
      cases hr : makeRef E.names b f.type f.package with
      | some r =>
        rw [hr] at h
        exact ih h (Or.inl (by simp))
      | none =>
        rw [hr] at h
        refine ih h (hx.imp id ?_)
        rintro ⟨x, hx, h1, h2⟩
        rcases List.mem_cons.mp hx with rfl | hx
        · rw [hr] at h2; cases h2
        · exact ⟨x, hx, h1, h2⟩
    · rw [if_neg hf] at h
      have hx' : e ≠ [] ∨ ∃ x ∈ l, x.2.isEmbedded = true ∧ (makeRef E.names b x.2.type x.2.package).isSome = true := by
        refine hx.imp id ?_
        rintro ⟨x, hx, h1, h2⟩
        rcases List.mem_cons.mp hx with rfl | hx
        · exact absurd h1 hf
        · exact ⟨x, hx, h1, h2⟩
      cases hb : fieldBinding f b with
      | none => rw [hb] at h; cases h
      | some tag =>
        rw [hb] at h
        simp only at h
        split at h
        · exact ih h hx'
        · split at h
          · exact ih h hx'
          · exact ih h hx'

/-- C58, violated in general: a struct bound to the query that embeds a documented type gives no parameter at all, whatever else it
contains. -/
theorem embedded_query_struct_always_lost (E : SchemaEnv) (components : List Field) (ch : RouteChoice) (hch : ValidChoice ch) (r : Route)
    (p : Param) (hr : r.pathParams = [] ∧ r.requestHeaders = [] ∧ r.queryParams = [p]) (hp : p.isBound = true) (c : Field)
    (hc : components.find? (fun c => c.package = p.field.package && c.name = p.field.type) = some c) (hs : c.type = c!"struct")
    (hm : E.mapping c.name c.package = none)
    (he : ∃ x ∈ c.structFields, x.2.isEmbedded = true ∧ (makeRef E.names .form x.2.type x.2.package).isSome = true) :
    (operationOf E components ch r).parameters = [] := by
  have h := (parameters_sorted_complete E components ch hch r).2
  obtain ⟨h1, h2, h3⟩ := hr
  rw [h1, h2, h3] at h
  have hnil : documentedQuery E components [p] = [] := by
    simp only [documentedQuery, List.flatMap_cons, List.flatMap_nil, List.append_nil, hp, if_true]
    cases mapParamToSchema E .form p with
    | none => rfl
    | some s =>
      simp only [findComponent, hc]
      cases hf : componentToSchema E .form c with
      | none => rfl
      | some form =>
        have : form.properties = [] := by
          cases c with
          | mk package type name enumValues isRequired isEmbedded sliceType arrayType arrayLength mapKeyPackage mapKeyType mapValueType structFields
            bindingTags validationTags doc =>
            simp only at hs hm he
            rw [componentToSchema, hm, if_neg (by simp), if_pos hs] at hf
            cases hl : structLoop E .form structFields [] [] with
            | none => rw [hl] at hf; cases hf
            | some x =>
              obtain ⟨e, props⟩ := x
              rw [hl] at hf
              simp only [Option.some.injEq] at hf
              have hne := structLoop_embedded hl (Or.inr he)
              rw [← hf]
              unfold composeStruct
              rw [if_neg hne]
              split <;> rfl
        simp only [this, List.map_nil]
  rw [hnil] at h
  simp only [documented, List.flatMap_nil, List.append_nil] at h
  exact List.Perm.eq_nil h

/-- Its hypotheses are met by the struct of `embedded_query_struct_lost`. -/
example : embeddingQueryStruct.type = c!"struct" ∧
    (∃ x ∈ embeddingQueryStruct.structFields, x.2.isEmbedded = true ∧
      (makeRef [(c!"p.Page", c!"p.Page"), (c!"p.form.Q", c!"p.Q")] .form x.2.type x.2.package).isSome = true) :=
  ⟨rfl, _, List.mem_append_right _ (List.mem_singleton.mpr rfl), rfl, by decide⟩

/-- C58, violated in general: a struct bound to the path or to the headers, which has a schema, becomes one parameter with the name of its entry,
and the entries of bound structs have no name (C13). -/
theorem bound_struct_one_parameter (E : SchemaEnv) (components : List Field) (ch : RouteChoice) (hch : ValidChoice ch) (r : Route)
    (p : Param) (s : Schema) (hp : p.isBound = true) :
    (p ∈ r.pathParams → mapFieldToSchema E .uri p.field = some s →
      { name := p.name, loc := c!"path", required := p.isRequired, schema := s } ∈ (operationOf E components ch r).parameters) ∧
    (p ∈ r.requestHeaders → mapFieldToSchema E .header p.field = some s →
      { name := p.name, loc := c!"header", required := p.isRequired, schema := s } ∈ (operationOf E components ch r).parameters) := by
  have h := (parameters_sorted_complete E components ch hch r).2
  constructor
  · intro hm hs
    refine h.mem_iff.mpr (List.mem_append_left _ (List.mem_append_left _ (List.mem_flatMap.mpr ⟨p, hm, ?_⟩)))
    simp [mapParamToSchema, hp, hs]
  · intro hm hs
    refine h.mem_iff.mpr (List.mem_append_left _ (List.mem_append_right _ (List.mem_flatMap.mpr ⟨p, hm, ?_⟩)))
    simp [mapParamToSchema, hp, hs]

/-- `Bind` adds such entries: without a name, bound to a struct. -/
example (x : Result) (route : Route) : ∃ f, bindMapper [.result x] = some f ∧
    (f route).pathParams = route.pathParams ++ [{ isBound := true, field := parseResultToField x }] ∧
    (f route).requestHeaders = route.requestHeaders ++ [{ isBound := true, field := parseResultToField x }] := ⟨_, rfl, rfl, rfl⟩

end Astra.Props
