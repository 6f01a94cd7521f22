/-
Changes of type descriptions that the OpenAPI generator does not see.
-/
import Verif.Spec.Required
import Verif.Model.OpenApi

namespace Astra
open Astra.Spec

/-- A change that keeps what the generator reads. -/
structure Harmless (g : Field → Field) : Prop where
  name : ∀ f, (g f).name = f.name
  package : ∀ f, (g f).package = f.package
  type : ∀ f, (g f).type = f.type
  sliceType : ∀ f, (g f).sliceType = f.sliceType
  mapValueType : ∀ f, (g f).mapValueType = f.mapValueType
  doc : ∀ f, (g f).doc = f.doc
  tags : ∀ f, extractBindingTags (g f).structFields = extractBindingTags f.structFields
  schema : ∀ E b f, componentToSchema E b (g f) = componentToSchema E b f

variable {g : Field → Field}

theorem nameTags_via (H : Harmless g) (k : Nat) (u : Bool) (c : Field) (bs : List BTag) (t : List (Str × Str)) :
    nameTags k u (g c) bs t = nameTags k u c bs t := by
  induction bs generalizing t with
  | nil => rfl
  | cons b bs ih =>
    simp only [nameTags, safeName, H.name, H.package]
    split
    · exact ih _
    · rfl
    · rfl

theorem nameGroups_via (H : Harmless g) (gs : List (Str × List Field)) (t : List (Str × Str)) :
    nameGroups (gs.map (groupVia g)) t = nameGroups gs t := by
  have hg : ∀ k (cs : List Field) t, nameGroup k (cs.map g) t = nameGroup k cs t := by
    intro k cs
    induction cs with
    | nil => intro t; rfl
    | cons c cs ih =>
      intro t
      simp only [List.map_cons, nameGroup, H.tags, nameTags_via H, ih]
  induction gs generalizing t with
  | nil => rfl
  | cons x gs ih =>
    obtain ⟨k, cs⟩ := x
    simp only [List.map_cons, groupVia, nameGroups, hg, List.map_map]
    rw [show ((fun x : Field => x.package) ∘ g) = (fun x => x.package) from funext H.package]
    split
    · exact ih _
    · rfl
    · rfl

theorem groupByPackage_via (H : Harmless g) (cs : List Field) :
    groupByPackage (cs.map g) = (groupByPackage cs).map (groupVia g) := by
  have hget : ∀ (m : List (Str × List Field)) k, aget (m.map (groupVia g)) k = (aget m k).map (List.map g) := by
    intro m k
    induction m with
    | nil => rfl
    | cons x m ih =>
      obtain ⟨k', v⟩ := x
      simp only [List.map_cons, groupVia, aget]
      split
      · rfl
      · exact ih
  have hset : ∀ (m : List (Str × List Field)) k v, aset (m.map (groupVia g)) k (v.map g) = (aset m k v).map (groupVia g) := by
    intro m k v
    induction m with
    | nil => rfl
    | cons x m ih =>
      obtain ⟨k', v'⟩ := x
      simp only [List.map_cons, groupVia, aset]
      split
      · rfl
      · rw [List.map_cons, ← ih]; rfl
  have key : ∀ (cs : List Field) m, (cs.map g).foldl (fun m c =>
      aset m (getPackageName c.package) ((aget m (getPackageName c.package)).getD [] ++ [c])) (m.map (groupVia g)) =
      (cs.foldl (fun m c => aset m (getPackageName c.package) ((aget m (getPackageName c.package)).getD [] ++ [c])) m).map (groupVia g) := by
    intro cs
    induction cs with
    | nil => intro m; rfl
    | cons c cs ih =>
      intro m
      rw [List.map_cons, List.foldl_cons, List.foldl_cons, ← ih, H.package, hget, ← hset]
      congr 3
      cases aget m (getPackageName c.package) <;> simp
  exact key cs []

theorem mapField_via (H : Harmless g) (E : SchemaEnv) (b : BTag) (f : Field) : mapFieldToSchema E b (g f) = mapFieldToSchema E b f := by
  unfold mapFieldToSchema
  simp only [H.type, H.package, H.sliceType, H.mapValueType]

theorem mapParam_via (H : Harmless g) (E : SchemaEnv) (b : BTag) (p : Param) :
    mapParamToSchema E b { p with field := g p.field } = mapParamToSchema E b p := by
  unfold mapParamToSchema
  simp only [H.type, H.package, mapField_via H]

theorem queryParametersOf_via (H : Harmless g) (E : SchemaEnv) (cs : List Field) (iter : List (Str × Schema) → List (Str × Schema)) (p : Param) :
    queryParametersOf E (cs.map g) iter { p with field := g p.field } = queryParametersOf E cs iter p := by
  have hf : ∀ pkg name, findComponent (cs.map g) pkg name = (findComponent cs pkg name).map g := by
    intro pkg name
    unfold findComponent
    induction cs with
    | nil => rfl
    | cons c cs ih =>
      rw [List.map_cons, List.find?_cons, List.find?_cons, H.name, H.package]
      split
      · rfl
      · exact ih
  unfold queryParametersOf
  rw [hf, mapParam_via H]
  simp only [H.type, H.package]
  split
  · rfl
  · split
    · cases findComponent cs p.field.package p.field.type with
      | none => rfl
      | some c => simp only [Option.map_some]; rw [H.schema]
    · rfl

theorem operationOf_via (H : Harmless g) (E : SchemaEnv) (cs : List Field) (ch : RouteChoice) (r : Route) :
    operationOf E (cs.map g) ch (routeVia g r) = operationOf E cs ch r := by
  have e1 : ∀ ps n, queryParameters E (cs.map g) ch.iter n (ps.map (fun p => { p with field := g p.field })) = queryParameters E cs ch.iter n ps := by
    intro ps
    induction ps with
    | nil => intro n; rfl
    | cons p ps ih => intro n; rw [List.map_cons, queryParameters, queryParameters, ih, queryParametersOf_via H]
  have e2 : ∀ ps, pathParameters E (ps.map (fun p => { p with field := g p.field })) = pathParameters E ps := by
    intro ps
    unfold pathParameters
    rw [List.filterMap_map]
    exact congrArg (fun h => List.filterMap h ps) (funext (fun p => by simp only [Function.comp, mapParam_via H]))
  have e3 : ∀ ps, headerParameters E (ps.map (fun p => { p with field := g p.field })) = headerParameters E ps := by
    intro ps
    unfold headerParameters
    rw [List.filterMap_map]
    exact congrArg (fun h => List.filterMap h ps) (funext (fun p => by simp only [Function.comp, mapParam_via H]))
  have e4 : ∀ ps, responseHeaders E (ps.map (fun p => { p with field := g p.field })) = responseHeaders E ps := by
    intro ps
    unfold responseHeaders
    rw [List.foldl_map]
    simp only [mapParam_via H]
  unfold operationOf
  simp only [routeVia, e1, e2, e3, e4, List.foldl_map]
  congr 1
  · simp only [bodyStep, mapField_via H]
    rfl
  · simp only [responseStep, mapField_via H]
    rfl

/-- The document does not show a harmless change. -/
theorem generateDoc_via (H : Harmless g) (ch : Choices) (table : List (Str × Str)) (s : OpenApiInput)
    (hord : ∀ gs, ch.groups (gs.map (groupVia g)) = (ch.groups gs).map (groupVia g)) :
    generateDoc ch table { s with routes := s.routes.map (routeVia g), components := s.components.map g } = generateDoc ch table s := by
  unfold generateDoc
  cases s.config with
  | none => rfl
  | some cfg =>
    simp only
    have hn : makeNames ch.groups (s.components.map g) table = makeNames ch.groups s.components table := by
      unfold makeNames
      rw [groupByPackage_via H, hord, nameGroups_via H]
    rw [hn]
    cases makeNames ch.groups s.components table with
    | err e => rfl
    | panic e => rfl
    | ok names =>
      simp only
      have e1 : ∀ rs n paths, addRoutes { types := s.types, names := names } (s.components.map g) ch.route n (rs.map (routeVia g)) paths =
          addRoutes { types := s.types, names := names } s.components ch.route n rs paths := by
        intro rs
        induction rs with
        | nil => intro n paths; rfl
        | cons r rs ih =>
          intro n paths
          rw [List.map_cons, addRoutes, addRoutes, ih, operationOf_via H]
          rfl
      have e2 : ∀ c bs m, addComponentSchemas { types := s.types, names := names } (g c) bs m =
          addComponentSchemas { types := s.types, names := names } c bs m := by
        intro c bs
        induction bs with
        | nil => intro m; rfl
        | cons b bs ih =>
          intro m
          rw [addComponentSchemas, addComponentSchemas, H.schema]
          cases componentToSchema { types := s.types, names := names } b c with
          | none => exact ih m
          | some s => simp only [H.name, H.package, H.doc]; split <;> exact ih _
      have e3 : componentSchemas { types := s.types, names := names } (s.components.map g) =
          componentSchemas { types := s.types, names := names } s.components := by
        unfold componentSchemas
        rw [List.foldl_map]
        simp only [e2]
      rw [e1, e3]

end Astra
