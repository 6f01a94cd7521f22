/-
C45–C49, C57–C59: the operations of the generated OpenAPI document.
-/
import Verif.Lemmas.OpenApi
import Verif.Props.OpenApiNames

namespace Astra.Props
open Spec

/-- What `sort.Slice` by name may do: rearrange, leaving the names in ascending order. -/
def SortsByName (sort : List OParam → List OParam) : Prop :=
  ∀ l, (sort l).Perm l ∧ (sort l).Pairwise (fun a b => strLt b.name a.name = false)

/-- The choices for one route are choices the runtime can make. -/
def ValidChoice (ch : RouteChoice) : Prop := SortsByName ch.sort ∧ ∀ n l, (ch.iter n l).Perm l

/-- A stable insertion sort, as one admissible choice. -/
def insertParam (p : OParam) : List OParam → List OParam
  | [] => [p]
  | q :: r => if strLt q.name p.name then q :: insertParam p r else p :: q :: r

/-- One admissible choice of the runtime. -/
def someChoice : RouteChoice := { sort := fun l => l.foldr insertParam [], iter := fun _ l => l }

theorem insertParam_perm (p : OParam) (l : List OParam) : (insertParam p l).Perm (p :: l) := by
  induction l with
  | nil => exact List.Perm.refl _
  | cons q r ih =>
    simp only [insertParam]
    split
    · exact (List.Perm.cons q ih).trans (List.Perm.swap p q r)
    · exact List.Perm.refl _

theorem insertParam_sorted (p : OParam) (l : List OParam) (h : l.Pairwise (fun a b => strLt b.name a.name = false)) :
    (insertParam p l).Pairwise (fun a b => strLt b.name a.name = false) := by
  induction l with
  | nil => simp [insertParam]
  | cons q r ih =>
    rw [List.pairwise_cons] at h
    simp only [insertParam]
    split
    · rename_i hlt
      rw [List.pairwise_cons]
      refine ⟨?_, ih h.2⟩
      intro x hx
      rcases List.mem_cons.mp ((insertParam_perm p r).mem_iff.mp hx) with rfl | hx
      · exact strLt_asymm hlt
      · exact h.1 x hx
    · rename_i hlt
      rw [List.pairwise_cons]
      refine ⟨?_, List.pairwise_cons.mpr h⟩
      intro x hx
      simp only [Bool.not_eq_true] at hlt
      rcases List.mem_cons.mp hx with rfl | hx
      · exact hlt
      · cases hh : strLt x.name p.name with
        | false => rfl
        | true =>
          have h1 := h.1 x hx
          rcases strLt_total q.name p.name with h2 | h2 | h2
          · rw [h2] at hlt; exact absurd hlt (by simp)
          · rw [h2, hh] at h1; exact absurd h1 (by simp)
          · rw [strLt_trans hh h2] at h1; exact absurd h1 (by simp)

theorem someChoice_valid : ValidChoice someChoice := by
  refine ⟨?_, fun _ l => List.Perm.refl l⟩
  intro l
  simp only [someChoice]
  induction l with
  | nil => exact ⟨List.Perm.refl _, by simp⟩
  | cons p l ih =>
    rw [List.foldr_cons]
    exact ⟨(insertParam_perm p _).trans (List.Perm.cons p ih.1), insertParam_sorted p _ ih.2⟩

/-! ### C45 -/

/-- The operation the document has under a path and a method. -/
def Document.operation (d : Document) (path method : Str) : Option Operation := opAt d.paths path method

/-- C45: whatever the runtime chooses, if generation returns a document then, for each of the seven methods and every path,
the operation under path and method is the one built for the last route with that method whose templated path it is (none if
there is no such route), the route's documentation and operation id are copied, and the paths of the document are exactly
the templated paths of the routes. -/
theorem operation_of_last_route (ch : Choices) (table : List (Str × Str)) (s : OpenApiInput) (d : Document)
    (h : generateDoc ch table s = .ok d) :
    ∃ names, makeNames ch.groups s.components table = .ok names ∧
      (∀ path method, method ∈ documentedMethods →
        Document.operation d path method =
          (s.routes.zipIdx.reverse.find? (fun x => openapiPath x.1.path = path ∧ x.1.method = method)).map
            (fun x => operationOf { types := s.types, names := names } s.components (ch.route x.2) x.1)) ∧
      (∀ path, path ∈ mkeys d.paths ↔ ∃ r ∈ s.routes, openapiPath r.path = path) := by
  unfold generateDoc at h
  cases hc : s.config with
  | none => rw [hc] at h; simp at h
  | some cfg =>
    rw [hc] at h
    simp only at h
    cases hm : makeNames ch.groups s.components table with
    | err e => rw [hm] at h; simp at h
    | panic e => rw [hm] at h; simp at h
    | ok names =>
      rw [hm] at h
      simp only [Res.ok.injEq] at h
      subst h
      refine ⟨names, rfl, ?_, ?_⟩
      · intro path method hmeth
        unfold Document.operation
        simp only
        rw [opAt_addRoutes _ _ _ _ _ _ _ _ hmeth]
        simp [opAt, mget]
      · intro path
        rw [← mget_isSome_iff, keys_addRoutes]
        simp [mget]

/-- C45, for one route: the operation of a route that no later route overrides is the one built for it. -/
theorem route_operation (ch : Choices) (table : List (Str × Str)) (s : OpenApiInput) (d : Document)
    (h : generateDoc ch table s = .ok d) :
    ∃ names, makeNames ch.groups s.components table = .ok names ∧ ∀ (before after : List Route) (r : Route), s.routes = before ++ r :: after → r.method ∈ documentedMethods →
      (∀ r' ∈ after, ¬ (openapiPath r'.path = openapiPath r.path ∧ r'.method = r.method)) →
      Document.operation d (openapiPath r.path) r.method =
        some (operationOf { types := s.types, names := names } s.components (ch.route before.length) r) := by
  obtain ⟨names, h0, h1, _⟩ := operation_of_last_route ch table s d h
  refine ⟨names, h0, fun before after r hr hm hlast => ?_⟩
  rw [h1 _ _ hm, hr]
  have hz : (before ++ r :: after).zipIdx = before.zipIdx ++ (r, before.length) :: after.zipIdx (before.length + 1) := by
    rw [List.zipIdx_append, List.zipIdx_cons]
    simp
  rw [hz, List.reverse_append, List.reverse_cons, List.append_assoc, List.find?_append]
  have hnone : (after.zipIdx (before.length + 1)).reverse.find?
      (fun x => decide (openapiPath x.1.path = openapiPath r.path ∧ x.1.method = r.method)) = none := by
    rw [List.find?_eq_none]
    intro x hx
    have hx' : x.1 ∈ after := by
      have := List.mem_reverse.mp hx
      obtain ⟨y, n⟩ := x
      exact (List.mem_zipIdx this).2.2 ▸ List.getElem_mem _
    simp only [decide_eq_true_eq]
    exact hlast _ hx'
  rw [hnone]
  simp only [Option.none_or, List.singleton_append, List.find?_cons, and_self, decide_true, Option.map_some]

/-- C45, for one route: a route that no later route overrides has its operation, with the route's text and id. -/
theorem route_has_operation (ch : Choices) (table : List (Str × Str)) (s : OpenApiInput) (d : Document)
    (h : generateDoc ch table s = .ok d) (before after : List Route) (r : Route) (hr : s.routes = before ++ r :: after)
    (hm : r.method ∈ documentedMethods)
    (hlast : ∀ r' ∈ after, ¬ (openapiPath r'.path = openapiPath r.path ∧ r'.method = r.method)) :
    ∃ op, Document.operation d (openapiPath r.path) r.method = some op ∧ op.description = r.doc ∧
      op.operationId = r.operationId := by
  obtain ⟨names, _, h1⟩ := route_operation ch table s d h
  exact ⟨_, h1 before after r hr hm hlast, rfl, rfl⟩

/-- The choices of the examples. -/
def someChoices : Choices := { groups := id, route := fun _ => someChoice }

/-- A service with three routes, two of them under one path. -/
def demoService : OpenApiInput :=
  { config := some { title := c!"t", host := c!"localhost", port := 8000, basePath := c!"/" },
    routes := [
      { method := c!"GET", path := c!"/users/:id", operationId := c!"getUser",
        pathParams := [{ name := c!"id", field := { type := c!"string" }, isRequired := true }] },
      { method := c!"DELETE", path := c!"/users/:id", operationId := c!"deleteUser" },
      { method := c!"TRACE", path := c!"/trace" }] }

/-- Non-vacuity: the document exists and has the two operations. -/
theorem demo_generated : (match generateDoc someChoices [] demoService with
    | .ok d => ((Document.operation d c!"/users/{id}" c!"GET").map (·.operationId),
        (Document.operation d c!"/users/{id}" c!"DELETE").map (·.operationId), mkeys d.paths)
    | _ => (none, none, [])) = (some c!"getUser", some c!"deleteUser", [c!"/trace", c!"/users/{id}"]) := by decide +kernel

/-- A route with a method outside the seven leaves a path without any operation. -/
theorem unsupported_method_empty_path : (match generateDoc someChoices [] demoService with
    | .ok d => mget d.paths c!"/trace"
    | _ => none) = some {} := by decide +kernel

/-! ### C46, C57, C58 -/

/-- The path and header parameters the operation should have for a list of parameters of the route: those that have a
schema for the binding kind. -/
def documented (E : SchemaEnv) (b : BTag) (loc : Str) (ps : List Param) : List OParam :=
  ps.flatMap (fun p => match mapParamToSchema E b p with
    | some s => [{ name := p.name, loc := loc, required := p.isRequired, schema := s }]
    | none => [])

/-- A documented query parameter of the given name and schema, in the style for its schema. -/
def queryDoc (name : Str) (required : Bool) (s : Schema) : OParam :=
  if s.type = c!"object" then
    { name := name, loc := c!"query", required := required, schema := s, style := c!"deepObject", explode := true }
  else { name := name, loc := c!"query", required := required, schema := s, style := c!"form", explode := false }

/-- The query parameters the operation should have: an unbound parameter gives one; a bound struct gives one per property of
its form schema. -/
def documentedQuery (E : SchemaEnv) (components : List Field) (ps : List Param) : List OParam :=
  ps.flatMap (fun p => match mapParamToSchema E .form p with
    | none => []
    | some s =>
      if p.isBound then
        match findComponent components p.field.package p.field.type with
        | none => []
        | some c => match componentToSchema E .form c with
          | none => []
          | some form => form.properties.map (fun x => queryDoc x.1 p.isRequired x.2)
      else [queryDoc p.name p.isRequired s])

theorem queryParameter_eq (name : Str) (required : Bool) (s : Schema) : queryParameter name required s = queryDoc name required s := by
  unfold queryParameter queryDoc queryParamStyle
  split <;> rfl

theorem queryParametersOf_perm (E : SchemaEnv) (cs : List Field) (iter : List (Str × Schema) → List (Str × Schema))
    (hi : ∀ l, (iter l).Perm l) (p : Param) : (queryParametersOf E cs iter p).Perm (documentedQuery E cs [p]) := by
  unfold queryParametersOf documentedQuery
  simp only [List.flatMap_cons, List.flatMap_nil, List.append_nil]
  cases mapParamToSchema E .form p with
  | none => exact List.Perm.refl _
  | some s =>
    simp only
    split
    · cases findComponent cs p.field.package p.field.type with
      | none => exact List.Perm.refl _
      | some c =>
        simp only
        cases componentToSchema E .form c with
        | none => exact List.Perm.refl _
        | some form =>
          simp only [queryParameter_eq]
          exact (hi _).map _
    · rw [queryParameter_eq]

theorem queryParameters_perm (E : SchemaEnv) (cs : List Field) (iter : Nat → List (Str × Schema) → List (Str × Schema))
    (hi : ∀ n l, (iter n l).Perm l) (n : Nat) (ps : List Param) :
    (queryParameters E cs iter n ps).Perm (documentedQuery E cs ps) := by
  induction ps generalizing n with
  | nil => exact List.Perm.refl _
  | cons p ps ih =>
    have : documentedQuery E cs (p :: ps) = documentedQuery E cs [p] ++ documentedQuery E cs ps := by
      simp [documentedQuery]
    rw [this, queryParameters]
    exact (queryParametersOf_perm E cs (iter n) (hi n) p).append (ih (n + 1))

theorem documented_path (E : SchemaEnv) (ps : List Param) : pathParameters E ps = documented E .uri c!"path" ps := by
  unfold pathParameters documented
  induction ps with
  | nil => rfl
  | cons p ps ih =>
    rw [List.filterMap_cons, List.flatMap_cons, ← ih]
    cases mapParamToSchema E .uri p <;> rfl

theorem documented_header (E : SchemaEnv) (ps : List Param) : headerParameters E ps = documented E .header c!"header" ps := by
  unfold headerParameters documented
  induction ps with
  | nil => rfl
  | cons p ps ih =>
    rw [List.filterMap_cons, List.flatMap_cons, ← ih]
    cases mapParamToSchema E .header p <;> rfl

/-- C46: for every choice of the runtime the parameters are in ascending order of name and are, as a multiset, exactly the
path, header and query parameters of the route that have a schema. -/
theorem parameters_sorted_complete (E : SchemaEnv) (components : List Field) (ch : RouteChoice) (hch : ValidChoice ch) (r : Route) :
    (operationOf E components ch r).parameters.Pairwise (fun a b => strLt b.name a.name = false) ∧
    (operationOf E components ch r).parameters.Perm
      (documented E .uri c!"path" r.pathParams ++ documented E .header c!"header" r.requestHeaders
        ++ documentedQuery E components r.queryParams) := by
  simp only [operationOf]
  refine ⟨(hch.1 _).2, (hch.1 _).1.trans ?_⟩
  rw [documented_path, documented_header]
  exact List.Perm.append_left _ (queryParameters_perm E components ch.iter hch.2 0 r.queryParams)

/-- C46: a parameter that is not bound to a struct always has a schema, so it is never left out: every path parameter of the
route has its entry. -/
theorem plain_path_parameter_documented (E : SchemaEnv) (components : List Field) (ch : RouteChoice) (hch : ValidChoice ch)
    (r : Route) (p : Param) (hp : p ∈ r.pathParams) (hb : p.isBound = false) :
    ∃ o ∈ (operationOf E components ch r).parameters, o.name = p.name ∧ o.loc = c!"path" ∧ o.required = p.isRequired := by
  obtain ⟨s, hs⟩ : ∃ s, mapParamToSchema E .uri p = some s := by
    unfold mapParamToSchema
    rw [hb]
    simp only [Bool.false_eq_true, if_false]
    split
    · exact ⟨_, rfl⟩
    · split
      · exact ⟨_, rfl⟩
      · exact ⟨_, rfl⟩
  refine ⟨{ name := p.name, loc := c!"path", required := p.isRequired, schema := s }, ?_, rfl, rfl, rfl⟩
  rw [(parameters_sorted_complete E components ch hch r).2.mem_iff]
  apply List.mem_append_left
  apply List.mem_append_left
  unfold documented
  rw [List.mem_flatMap]
  exact ⟨p, hp, by rw [hs]; simp⟩

example : ∃ o ∈ (operationOf {} [] someChoice (demoService.routes.headD {})).parameters, o.name = c!"id" ∧ o.loc = c!"path" ∧
    o.required = true :=
  plain_path_parameter_documented {} [] someChoice someChoice_valid (demoService.routes.headD {})
    { name := c!"id", field := { type := c!"string" }, isRequired := true } (by decide) rfl

/-- The order of parameters with equal names is not fixed by the name order. -/
theorem equal_names_order_free : ∃ sort sort', SortsByName sort ∧ SortsByName sort' ∧
    ∃ l, sort l ≠ sort' l := by
  have hrev : ∀ (l : List OParam), (l.reverse.foldr insertParam []).Perm l ∧
      (l.reverse.foldr insertParam []).Pairwise (fun a b => strLt b.name a.name = false) := by
    intro l
    have h := someChoice_valid.1 l.reverse
    exact ⟨h.1.trans (List.reverse_perm l), h.2⟩
  refine ⟨someChoice.sort, fun l => l.reverse.foldr insertParam [], someChoice_valid.1, hrev,
    [{ name := c!"id", loc := c!"path" }, { name := c!"id", loc := c!"query" }], ?_⟩
  decide

/-- C57: every query parameter of an operation is exploded and in `deepObject` style if its schema is an object, and not
exploded and in `form` style otherwise. -/
theorem query_parameter_style (E : SchemaEnv) (components : List Field) (ch : RouteChoice) (hch : ValidChoice ch) (r : Route)
    (o : OParam) (ho : o ∈ (operationOf E components ch r).parameters) (hq : o.loc = c!"query") :
    (o.schema.type = c!"object" → o.style = c!"deepObject" ∧ o.explode = true) ∧
    (o.schema.type ≠ c!"object" → o.style = c!"form" ∧ o.explode = false) := by
  rw [(parameters_sorted_complete E components ch hch r).2.mem_iff, List.mem_append, List.mem_append] at ho
  have hdoc : ∀ b loc ps, loc ≠ c!"query" → o ∉ documented E b loc ps := by
    intro b loc ps hl hmem
    unfold documented at hmem
    rw [List.mem_flatMap] at hmem
    obtain ⟨p, _, hp⟩ := hmem
    cases hs : mapParamToSchema E b p with
    | none => rw [hs] at hp; simp at hp
    | some s =>
      rw [hs] at hp
      simp only [List.mem_singleton] at hp
      subst hp
      exact hl hq
  have hqd : ∀ name req s, o = queryDoc name req s →
      (o.schema.type = c!"object" → o.style = c!"deepObject" ∧ o.explode = true) ∧
      (o.schema.type ≠ c!"object" → o.style = c!"form" ∧ o.explode = false) := by
    rintro name req s rfl
    unfold queryDoc
    by_cases hs : s.type = c!"object"
    · rw [if_pos hs]; exact ⟨fun _ => ⟨rfl, rfl⟩, fun h => absurd hs h⟩
    · rw [if_neg hs]; exact ⟨fun h => absurd h hs, fun _ => ⟨rfl, rfl⟩⟩
  rcases ho with (ho | ho) | ho
  · exact absurd ho (hdoc _ _ _ (by decide))
  · exact absurd ho (hdoc _ _ _ (by decide))
  · unfold documentedQuery at ho
    rw [List.mem_flatMap] at ho
    obtain ⟨p, _, hp⟩ := ho
    split at hp
    · simp at hp
    · split at hp
      · split at hp
        · simp at hp
        · split at hp
          · simp at hp
          · obtain ⟨x, _, hx⟩ := List.mem_map.mp hp
            exact hqd _ _ _ hx.symm
      · exact hqd _ _ _ (by simpa using hp)

/-- A parameter of a query map, an object. -/
example : (operationOf {} [] someChoice { queryParams := [
      { name := c!"m", field := { type := c!"string" }, isMap := true }, { name := c!"q", field := { type := c!"int" } }] }).parameters.map
    (fun o => (o.name, o.style, o.explode)) = [(c!"m", c!"deepObject", true), (c!"q", c!"form", false)] := by decide +kernel

/-- C58 (partial): the query parameters an operation has because of a struct bound from the query are exactly one per
property of the form schema of the first component with the struct's package and name, with the property's name and schema;
there are none when no component matches or it has no form schema. Stated for an operation whose only parameter is that one.
Missing: the properties that the form schema keeps inside `allOf` because the struct has embedded fields
(`embedded_query_struct_lost`). -/
theorem bound_query_spread_partial (E : SchemaEnv) (components : List Field) (ch : RouteChoice) (hch : ValidChoice ch) (r : Route)
    (p : Param) (hr : r.pathParams = [] ∧ r.requestHeaders = [] ∧ r.queryParams = [p]) (hp : p.isBound = true)
    (hn : (mapParamToSchema E .form p).isSome = true) :
    (∀ c form, components.find? (fun c => c.package = p.field.package && c.name = p.field.type) = some c →
      componentToSchema E .form c = some form →
      (operationOf E components ch r).parameters.Perm (form.properties.map (fun x => queryDoc x.1 p.isRequired x.2))) ∧
    (components.find? (fun c => c.package = p.field.package && c.name = p.field.type) = none →
      (operationOf E components ch r).parameters = []) ∧
    (∀ c, components.find? (fun c => c.package = p.field.package && c.name = p.field.type) = some c →
      componentToSchema E .form c = none → (operationOf E components ch r).parameters = []) := by
  have h := (parameters_sorted_complete E components ch hch r).2
  obtain ⟨h1, h2, h3⟩ := hr
  rw [h1, h2, h3] at h
  obtain ⟨s, hs⟩ := Option.isSome_iff_exists.mp hn
  simp only [documented, List.flatMap_nil, List.nil_append, documentedQuery, List.flatMap_cons, List.append_nil, hs, hp,
    if_true] at h
  refine ⟨?_, ?_, ?_⟩
  · intro c form hc hf
    unfold findComponent at h
    rw [hc] at h
    simp only [hf] at h
    exact h
  · intro hc
    unfold findComponent at h
    rw [hc] at h
    exact List.Perm.eq_nil h
  · intro c hc hf
    unfold findComponent at h
    rw [hc] at h
    simp only [hf] at h
    exact List.Perm.eq_nil h

/-- A query struct with two form fields. -/
def queryStruct : Field :=
  { name := c!"Q", package := c!"p", type := c!"struct", structFields := [
    (c!"A", { type := c!"string", bindingTags := [(.form, { name := c!"a" })] }),
    (c!"B", { type := c!"int", bindingTags := [(.form, { name := c!"b" })] })] }

/-- Non-vacuity: its two properties become query parameters. -/
example : ((operationOf { names := [(c!"p.form.Q", c!"p.Q")] } [queryStruct] someChoice
      { queryParams := [{ field := { type := c!"Q", package := c!"p" }, isBound := true }] }).parameters.map (·.name),
    (mapParamToSchema { names := [(c!"p.form.Q", c!"p.Q")] } .form
      { field := { type := c!"Q", package := c!"p" }, isBound := true }).isSome) = ([c!"a", c!"b"], true) := by decide +kernel

/-- The same struct embedding another one. -/
def embeddingQueryStruct : Field :=
  { queryStruct with structFields := queryStruct.structFields ++ [
    (c!"Page", { type := c!"Page", package := c!"p", isEmbedded := true, bindingTags := [(.none, { name := c!"Page" })] })] }

/-- C58, violated: with an embedded struct the bound query struct gives no parameter at all. -/
theorem embedded_query_struct_lost :
    (operationOf { names := [(c!"p.Page", c!"p.Page"), (c!"p.form.Q", c!"p.Q")] } [embeddingQueryStruct] someChoice
      { queryParams := [{ field := { type := c!"Q", package := c!"p" }, isBound := true }] }).parameters = [] := by decide +kernel

/-- A struct bound from the path or the headers is not spread: its parameter has an empty name. -/
theorem bound_path_struct_unnamed :
    (operationOf { names := [(c!"p.form.Q", c!"p.Q"), (c!"p.uri.Q", c!"p.Q")] } [queryStruct] someChoice
      { pathParams := [{ field := { type := c!"Q", package := c!"p" }, isBound := true }] }).parameters.map (·.name) = [[]] := by
  decide +kernel

/-! ### C47, C59 -/

/-- The schema a recorded return value has, if it is bound. -/
def returnSchema (E : SchemaEnv) (rt : ReturnType) : Option Schema :=
  mapFieldToSchema E (contentTypeToBindingTag rt.contentType) rt.field

/-- The content an operation documents for a status code and content type. -/
def contentAt (op : Operation) (code : Str) (ct : Str) : Option Schema := (mget op.responses code).bind (fun r => mget r.content ct)

/-- C47 (partial): the responses are keyed by exactly the recorded status codes, and under a status and a content type is the
schema of the last recorded return value with that status and content type whose schema is not empty (none if there is no
such value). Missing: values that are bound but have an empty schema, such as `any`, which are not documented
(`any_response_not_documented`). -/
theorem responses_exact_partial (E : SchemaEnv) (components : List Field) (ch : RouteChoice) (r : Route) :
    (∀ code, code ∈ mkeys (operationOf E components ch r).responses ↔ ∃ rt ∈ r.returnTypes, itoa rt.statusCode = code) ∧
    (∀ status ct, contentAt (operationOf E components ch r) (itoa status) ct =
      ((r.returnTypes.filter (fun rt => rt.statusCode = status ∧ rt.contentType = ct ∧ returnSchema E rt ≠ none ∧
        returnSchema E rt ≠ some {})).getLast?).bind (returnSchema E)) := by
  simp only [operationOf]
  constructor
  · intro code
    rw [← mget_isSome_iff, responses_fold]
    by_cases h : ∃ rt ∈ r.returnTypes, itoa rt.statusCode = code
    · rw [if_pos h]; simp only [Option.isSome_some, true_iff]; exact h
    · rw [if_neg h]; simp only [mget, Option.isSome_none, Bool.false_eq_true, false_iff]; exact h
  · intro status ct
    unfold contentAt
    simp only
    rw [responses_fold]
    have hce : ∀ rts : List ReturnType, lastFor (contentEntries E rts (itoa status)) ct =
        ((rts.filter (fun rt => rt.statusCode = status ∧ rt.contentType = ct ∧ returnSchema E rt ≠ none ∧
          returnSchema E rt ≠ some {})).getLast?).bind (returnSchema E) := by
      intro rts
      induction rts with
      | nil => simp [contentEntries, lastFor]
      | cons rt rts ih =>
        rw [List.filter_cons]
        unfold contentEntries at ih ⊢
        rw [List.filterMap_cons]
        by_cases hst : rt.statusCode = status
        · rw [if_pos (by rw [hst])]
          cases hs : returnSchema E rt with
          | none =>
            have hs' := hs
            unfold returnSchema at hs'
            rw [hs']
            simp only [ne_eq, not_true, false_and, and_false, decide_false, Bool.false_eq_true, if_false]
            exact ih
          | some sch =>
            have hs' := hs
            unfold returnSchema at hs'
            rw [hs']
            simp only
            by_cases hz : sch = {}
            · simp only [hz, ne_eq, not_true, if_false, and_false, decide_false, Bool.false_eq_true]
              exact ih
            · simp only [hz, ne_eq, not_false_eq_true, if_true]
              rw [lastFor_cons, ih]
              by_cases hct : rt.contentType = ct
              · simp only [hst, hct, hz, ne_eq, reduceCtorEq, not_false_eq_true, Option.some.injEq, and_self, decide_true,
                  if_true, List.getLast?_cons]
                cases hl : (rts.filter (fun rt => decide (rt.statusCode = status ∧ rt.contentType = ct ∧ ¬ returnSchema E rt = none ∧
                    ¬ returnSchema E rt = some {}))).getLast? with
                | none => simp [hs]
                | some x =>
                  have hx := List.mem_of_getLast? hl
                  simp only [List.mem_filter, decide_eq_true_eq] at hx
                  obtain ⟨y, hy⟩ := Option.ne_none_iff_exists'.mp hx.2.2.2.1
                  simp [hy]
              · simp [hct]
        · have hne : itoa rt.statusCode ≠ itoa status := fun e => hst (itoa_inj e)
          simp only [hne, if_false, hst, false_and, decide_false, Bool.false_eq_true]
          exact ih
    rw [← hce]
    by_cases h : ∃ rt ∈ r.returnTypes, itoa rt.statusCode = itoa status
    · rw [if_pos h]
      simp only [mget, Option.getD_none, Option.bind_some, mget_foldl_last, Option.or_none]
    · rw [if_neg h]
      have : contentEntries E r.returnTypes (itoa status) = [] := by
        unfold contentEntries
        rw [List.filterMap_eq_nil_iff]
        intro rt hrt
        rw [if_neg (fun e => h ⟨rt, hrt, e⟩)]
      rw [this]
      rfl

/-- Two recordings under 200 and one under 404. -/
def demoReturns : Route :=
  { returnTypes := [
      { statusCode := 200, contentType := c!"application/json", field := { type := c!"string" } },
      { statusCode := 404, contentType := c!"application/json", field := { type := c!"bool" } },
      { statusCode := 200, contentType := c!"application/json", field := { type := c!"int" } },
      { statusCode := 204, field := { type := c!"nil" } }],
    responseHeaders := [{ name := c!"X-A", field := { type := c!"string" }, isRequired := true }] }

example : (mkeys (operationOf {} [] someChoice demoReturns).responses,
    contentAt (operationOf {} [] someChoice demoReturns) c!"200" c!"application/json",
    contentAt (operationOf {} [] someChoice demoReturns) c!"404" c!"application/json") =
    ([c!"200", c!"204", c!"404"], some { type := c!"integer", format := c!"int32" }, some { type := c!"boolean" }) := by
  decide +kernel

/-- C47, violated: a JSON response of type `any` has no content, and does not replace an earlier one. -/
theorem any_response_not_documented :
    let op := operationOf {} [] someChoice { returnTypes := [
      { statusCode := 200, contentType := c!"application/json", field := { type := c!"any" } },
      { statusCode := 201, contentType := c!"application/json", field := { type := c!"string" } },
      { statusCode := 201, contentType := c!"application/json", field := { type := c!"any" } }] }
    contentAt op c!"200" c!"application/json" = none ∧
    contentAt op c!"201" c!"application/json" = some { type := c!"string" } := by decide +kernel

/-- The bound response headers of a route, in order. -/
def boundHeaders (E : SchemaEnv) (ps : List Param) : List (Str × OHeader) :=
  ps.filterMap (fun p => (mapParamToSchema E .header p).map (fun s => (p.name, { required := p.isRequired, schema := s })))

/-- C59: every response of an operation carries, under each name, the last bound response header of the route with that
name, and no other headers. -/
theorem responses_carry_headers (E : SchemaEnv) (components : List Field) (ch : RouteChoice) (r : Route) (code : Str)
    (resp : OResponse) (h : mget (operationOf E components ch r).responses code = some resp) (name : Str) :
    mget resp.headers name = lastFor (boundHeaders E r.responseHeaders) name := by
  simp only [operationOf] at h
  rw [responses_fold] at h
  split at h
  · simp only [mget, Option.getD_none, Option.some.injEq] at h
    subst h
    simp only [responseHeaders]
    rw [foldl_match_eq (fun p => (mapParamToSchema E .header p).map (fun s => (p.name, { required := p.isRequired, schema := s })))]
    · rw [mget_foldl_last]
      simp [mget, boundHeaders]
    · intro m p
      cases mapParamToSchema E .header p <;> rfl
  · simp [mget] at h

example : (mget (operationOf {} [] someChoice demoReturns).responses c!"404").map (·.headers) =
    some [(c!"X-A", { required := true, schema := { type := c!"string" } })] := by decide +kernel

/-! ### C48 -/

/-- The schema of a body parameter, if it is bound. -/
def bodyParamSchema (E : SchemaEnv) (bp : BodyParam) : Option Schema :=
  mapFieldToSchema E (contentTypeToBindingTag bp.contentType) bp.field

/-- How a body parameter is documented: a named one (a form field or file) as an object with that property, an unnamed one
(a bound body) by its schema. -/
def documentsBody (E : SchemaEnv) (bp : BodyParam) (s : Schema) : Prop :=
  (bp.name = [] ∧ bodyParamSchema E bp = some s) ∨
  (bp.name ≠ [] ∧ ∃ f, bodyParamSchema E bp = some f ∧ s.type = c!"object" ∧ mget s.properties bp.name = some f)

theorem body_fold (E : SchemaEnv) (bps : List BodyParam) (rb : Option (List (Str × Schema))) (ct : Str) :
    ((bps.foldl (bodyStep E) rb).bind (fun m => mget m ct)) =
      (lastFor (bps.filterMap (fun bp => (bodyParamSchema E bp).map (fun s => (bp.contentType, bodySchema bp s)))) ct).or
        (rb.bind (fun m => mget m ct)) := by
  induction bps generalizing rb with
  | nil => simp [lastFor]
  | cons bp bps ih =>
    rw [List.foldl_cons, ih, List.filterMap_cons]
    unfold bodyStep bodyParamSchema
    cases mapFieldToSchema E (contentTypeToBindingTag bp.contentType) bp.field with
    | none => rfl
    | some s =>
      simp only [Option.map_some, lastFor_cons, Option.bind_some, mget_mset]
      cases lastFor (bps.filterMap (fun bp => (mapFieldToSchema E (contentTypeToBindingTag bp.contentType) bp.field).map
          (fun s => (bp.contentType, bodySchema bp s)))) ct with
      | some x => simp
      | none =>
        cases rb with
        | none =>
          by_cases h : bp.contentType = ct
          · simp [h]
          · simp [h, mget]
        | some m =>
          by_cases h : bp.contentType = ct
          · simp [h]
          · simp [h]

/-- C48 (partial): a bound body parameter is documented under its content type if no other bound body parameter of the route
has the same content type. Missing: handlers with several body parameters of one content type, of which only the last is
documented (`form_fields_overwritten`). -/
theorem body_params_documented_partial (E : SchemaEnv) (components : List Field) (ch : RouteChoice) (r : Route)
    (hd : ((r.body.filter (fun bp => (bodyParamSchema E bp).isSome)).map (·.contentType)).Nodup)
    (bp : BodyParam) (hbp : bp ∈ r.body) (hb : (bodyParamSchema E bp).isSome = true) :
    ∃ content s, (operationOf E components ch r).requestBody = some content ∧ mget content bp.contentType = some s ∧
      documentsBody E bp s := by
  obtain ⟨f, hf⟩ := Option.isSome_iff_exists.mp hb
  have hfold := body_fold E r.body none bp.contentType
  have hk : (r.body.filterMap (fun bp => (bodyParamSchema E bp).map (fun s => (bp.contentType, bodySchema bp s)))).map (·.1)
      = (r.body.filter (fun bp => (bodyParamSchema E bp).isSome)).map (·.contentType) := by
    generalize r.body = l
    induction l with
    | nil => rfl
    | cons x l ih =>
      rw [List.filterMap_cons, List.filter_cons]
      cases bodyParamSchema E x with
      | none => simpa using ih
      | some s => simpa using ih
  rw [← hk] at hd
  have hmem : (bp.contentType, bodySchema bp f) ∈
      r.body.filterMap (fun bp => (bodyParamSchema E bp).map (fun s => (bp.contentType, bodySchema bp s))) := by
    rw [List.mem_filterMap]
    exact ⟨bp, hbp, by rw [hf]; rfl⟩
  rw [lastFor_of_nodup hd hmem] at hfold
  simp only [Option.some_or] at hfold
  simp only [operationOf]
  cases hrb : r.body.foldl (bodyStep E) none with
  | none => rw [hrb] at hfold; simp at hfold
  | some content =>
    rw [hrb] at hfold
    refine ⟨content, bodySchema bp f, rfl, hfold, ?_⟩
    unfold documentsBody bodySchema
    by_cases hn : bp.name = []
    · left; simp [hn, hf]
    · right; exact ⟨hn, f, hf, by simp [hn], by simp [hn, mget]⟩

/-- C48: the exact content of the request body: under each content type, the last bound body parameter of that type. There is
a request body iff some body parameter is bound. -/
theorem request_body_exact (E : SchemaEnv) (components : List Field) (ch : RouteChoice) (r : Route) :
    (∀ ct, ((operationOf E components ch r).requestBody.bind (fun m => mget m ct)) =
      lastFor (r.body.filterMap (fun bp => (bodyParamSchema E bp).map (fun s =>
        (bp.contentType, if bp.name = [] then s else { type := c!"object", properties := [(bp.name, s)] })))) ct) ∧
    ((operationOf E components ch r).requestBody = none ↔ ∀ bp ∈ r.body, bodyParamSchema E bp = none) := by
  simp only [operationOf]
  constructor
  · intro ct
    rw [body_fold]
    simp only [Option.bind_none, Option.or_none]
    congr 2
    funext bp
    cases bodyParamSchema E bp with
    | none => rfl
    | some s =>
      simp only [Option.map_some, bodySchema]
      by_cases h : bp.name = [] <;> simp [h]
  · have : ∀ (bps : List BodyParam) rb, bps.foldl (bodyStep E) rb = none ↔ rb = none ∧ ∀ bp ∈ bps, bodyParamSchema E bp = none := by
      intro bps
      induction bps with
      | nil => simp
      | cons bp bps ih =>
        intro rb
        rw [List.foldl_cons, ih]
        unfold bodyStep
        cases h : mapFieldToSchema E (contentTypeToBindingTag bp.contentType) bp.field with
        | none => simp [bodyParamSchema, h]
        | some s => simp [bodyParamSchema, h]
    rw [this]
    simp

/-- An uploaded file and a JSON body. -/
def demoBody : Route := { body := [
  { name := c!"f", field := { type := c!"file" }, contentType := c!"multipart/form-data" },
  { field := { type := c!"string" }, contentType := c!"application/json" }] }

example : ∃ content s, (operationOf {} [] someChoice demoBody).requestBody = some content ∧
    mget content c!"multipart/form-data" = some s ∧
    documentsBody {} { name := c!"f", field := { type := c!"file" }, contentType := c!"multipart/form-data" } s :=
  body_params_documented_partial {} [] someChoice demoBody (by decide +kernel)
    { name := c!"f", field := { type := c!"file" }, contentType := c!"multipart/form-data" } (by simp [demoBody])
    (by decide +kernel)

/-- C48, violated: of two form fields read by a handler only the second is documented. -/
theorem form_fields_overwritten :
    ((operationOf {} [] someChoice { body := [
      { name := c!"user", field := { type := c!"string" }, contentType := c!"application/x-www-form-urlencoded" },
      { name := c!"pass", field := { type := c!"string" }, contentType := c!"application/x-www-form-urlencoded" }] }).requestBody.bind
      (fun m => mget m c!"application/x-www-form-urlencoded")).map (fun s => mkeys s.properties) = some [c!"pass"] := by
  decide +kernel

/-- C48, violated: whether a form field is an array or a map is not documented. -/
theorem form_array_documented_as_scalar :
    (operationOf {} [] someChoice { body := [
      { name := c!"ids", field := { type := c!"string" }, contentType := c!"application/x-www-form-urlencoded", isArray := true }] }).requestBody
    = (operationOf {} [] someChoice { body := [
      { name := c!"ids", field := { type := c!"string" }, contentType := c!"application/x-www-form-urlencoded" }] }).requestBody := by
  decide +kernel

/-! ### C49 -/

/-- C49: the document has one server, `protocol://host:port` followed by the base path, with `https` iff the config is secure;
the info block is copied from the config, with a default description. Without a config, generation is an error. -/
theorem server_and_info (ch : Choices) (table : List (Str × Str)) (s : OpenApiInput) :
    (s.config = none → ∃ e, generateDoc ch table s = .err e) ∧
    (∀ cfg d, s.config = some cfg → generateDoc ch table s = .ok d →
      (cfg.secure = true → d.servers = [c!"https://" ++ cfg.host ++ c!":" ++ itoa cfg.port ++ cfg.basePath]) ∧
      (cfg.secure = false → d.servers = [c!"http://" ++ cfg.host ++ c!":" ++ itoa cfg.port ++ cfg.basePath]) ∧
      d.openapi = c!"3.0.0" ∧
      d.info.title = cfg.title ∧ d.info.version = cfg.version ∧ d.info.contact = cfg.contact ∧ d.info.license = cfg.license ∧
      (cfg.description ≠ [] → d.info.description = cfg.description) ∧
      (cfg.description = [] → d.info.description = c!"Generated by astra")) := by
  constructor
  · intro h
    unfold generateDoc
    rw [h]
    exact ⟨_, rfl⟩
  · intro cfg d hcfg h
    unfold generateDoc at h
    rw [hcfg] at h
    simp only at h
    cases hm : makeNames ch.groups s.components table with
    | err e => rw [hm] at h; simp at h
    | panic e => rw [hm] at h; simp at h
    | ok names =>
      rw [hm] at h
      simp only [Res.ok.injEq] at h
      subst h
      refine ⟨?_, ?_, rfl, rfl, rfl, rfl, rfl, ?_, ?_⟩
      · intro hs; simp [serverUrl, hs]
      · intro hs; simp [serverUrl, hs]
      · intro hs; simp [infoOf, hs]
      · intro hs; simp [infoOf, hs]

example : (match generateDoc someChoices [] demoService with
    | .ok d => d.servers
    | _ => []) = [c!"http://localhost:8000/"] := by decide +kernel

end Astra.Props
