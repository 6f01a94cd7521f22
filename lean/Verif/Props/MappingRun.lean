/-
C32 and C95: custom type mappings in a whole run, up to the document.
-/
import Verif.Props.TypeMapping
import Verif.Props.EndToEnd
import Verif.Props.Refs

namespace Astra.Props
open Spec Run

/-- All entries that the options of `New` give to `WithCustomTypeMapping` and `WithCustomTypeMappingSingle`, in order. -/
def customEntries (opts : List Opt) : List (Str × TypeFormat) :=
  opts.flatMap (fun o => match o with | .typeMapping es => es | _ => [])

/-- What a user expects for a type: the last custom entry, or else the predefined one. -/
def expectedFormat (opts : List Opt) (name pkg : Str) : Option TypeFormat :=
  (lastDefinition (customEntries opts) (mappingName name pkg)).or ((predefinedTypeMap.find? (fun e => e.1 = mappingName name pkg)).map (·.2))

theorem newService_maps (opts : List Opt) : (newService opts).maps = ({} : TypeMaps).addCustom (customEntries opts) := by
  have h : ∀ (opts : List Opt) (s : Service), (opts.foldl (fun s o => o.apply s) s).maps = s.maps.addCustom (customEntries opts) := by
    intro opts
    induction opts with
    | nil => intro s; rfl
    | cons o os ih =>
      intro s
      rw [List.foldl_cons, ih]
      cases o <;> simp [Opt.apply, customEntries, TypeMaps.addCustom, withGinInput, withAzureOutput, withOpenApiOutput, withJsonOutput, List.foldl_append]
  exact h opts {}

/-- C32 in the generator: for the service that `New` makes with any options, the type mapping that the OpenAPI output reads is the last
custom entry for the name, or else the predefined one. -/
theorem run_mapping (opts : List Opt) (names : List (Str × Str)) (name pkg : Str) :
    SchemaEnv.mapping { types := (newService opts).maps.merged, names := names } name pkg = expectedFormat opts name pkg := by
  have h := custom_mapping_wins [customEntries opts] [] name pkg
  rw [List.flatten_singleton] at h
  unfold expectedFormat
  rw [← h, newService_maps]
  rfl

/-- C95, positive part: the OpenAPI document of a successful run of a service that `New` made. Every entry of `components.schemas` belongs
to a component, and if the type has a custom entry the schema is what that entry says, with the comment of the type; and every component
with a custom entry (or a predefined one) is listed under each of its names. Missing: builtin types, for which it is false
(`builtin_mapping_without_effect`). -/
theorem run_custom_types_partial (L : Lib) (hkey : KeepsKeys L) (U : FPath → Prop) (hL : Tame L U) (getwd : Str) (φ : Faults) (w w' : World Proc) (d : FPath)
    (opts : List Opt) (hnew : w.st.svc = newService opts)
    (hd : DirAt w.cwd w.st.svc.workDir d) (hg : resolve w.cwd getwd = some w.cwd) (hnames : ProperNames w.fs) (hc : ∀ x ∈ w.cwd, '/' ∉ x)
    (routers : List (List RouteInfo)) (hin : Each GinInput w.st.svc.inputs routers) (hroutes : w.st.svc.routes = [])
    (hnd : DistinctRoutes (allowed w.st.svc.denyList routers.flatten))
    (before after : List Output) (o : Output) (hout : w.st.svc.outputs = before ++ o :: after) (hown : OwnCells w.st.svc.outputs)
    (hbefore : ∀ b ∈ before, Plain b) (loc : Nat) (ho : o.generate = .openapi loc) (q : FPath) (hq : OutputPlace d w.st.svc o.generate q)
    (hplace : OwnPlace w.cwd d w.st.svc after q) (hU : ¬ U q)
    (h : Astra.parseAll L getwd φ w = (w', .ok ())) :
    ∃ m rs cs doc text names, RunResult L w.st.svc (workDirAfter getwd w.st.svc) routers m rs cs ∧
      w'.fs.look q = some (.file text) ∧
      L.render (isYaml (withExtension [c!".json", c!".yaml", c!".yml"] (w.st.svc.cells.getD loc []))) doc = .ok text ∧
      (∀ n s, (n, s) ∈ doc.schemas → ∃ c ∈ cs, ∃ b, b ≠ .none ∧ refName names b c.name c.package = some n ∧
        ∀ t f, expectedFormat opts c.name c.package = some ⟨t, f⟩ →
          s = { ({ type := t, format := if t = [] then [] else f } : Schema) with description := c.doc }) ∧
      (∀ c ∈ cs, expectedFormat opts c.name c.package ≠ none → ∀ b n, b ≠ .none → refName names b c.name c.package = some n →
        n ∈ mkeys doc.schemas) := by
  obtain ⟨m, rs, cs, doc, text, h1, h2, h3, h4⟩ := openapi_file_of_run L hkey U hL getwd φ w w' d hd hg hnames hc routers hin hroutes hnd before after o hout hown
    hbefore loc ho q hq hplace hU h
  obtain ⟨names, _, k1, k2⟩ := schemas_exact _ _ _ _ h2
  rw [hnew] at k1 k2
  have hm : ∀ c : Field, SchemaEnv.mapping { types := (newService opts).maps.merged, names := names } c.name c.package =
      expectedFormat opts c.name c.package := fun c => run_mapping opts names c.name c.package
  have hcomp : ∀ (c : Field) b t, expectedFormat opts c.name c.package = some t →
      componentToSchema { types := (newService opts).maps.merged, names := names } b c = some (formatSchema (some t)) := by
    intro c b t ht
    have := hm c
    rw [ht] at this
    cases c
    simp only [componentToSchema] at this ⊢
    rw [mapTypeFormat, this, Option.isSome_some, if_pos rfl]
  refine ⟨m, rs, cs, doc, text, names, h1, h4, h3, fun n s hs => ?_, fun c hcm he b n hb hn => ?_⟩
  · obtain ⟨c, c1, b, s0, c2, c3, c4, rfl⟩ := k1 n s hs
    refine ⟨c, c1, b, c2, c3, fun t f ht => ?_⟩
    rw [hcomp c b _ ht] at c4
    cases c4
    unfold withDoc formatSchema
    simp only
    by_cases h0 : t = [] <;> by_cases h1 : c.doc = [] <;> simp [h0, h1]
  · obtain ⟨t, ht⟩ := Option.ne_none_iff_exists'.mp he
    exact k2 c hcm b n hb hn (by rw [hcomp c b t ht]; rfl)

/-! ### Builtin names -/

/-- Neither the type nor one of its fields at any depth has the name of a builtin (an accepted) type. -/
inductive OwnTypeNames : Field → Prop
  | mk {f : Field} : f.name ∉ acceptedTypes → (∀ x ∈ f.structFields, OwnTypeNames x.2) → OwnTypeNames f

theorem leafSchema_names {E E' : SchemaEnv} (hn : E.names = E'.names) (b : BTag) (c : Field) : leafSchema E b c = leafSchema E' b c := by
  unfold leafSchema elemSchema
  rw [hn]

mutual
theorem componentToSchema_mapping {E E' : SchemaEnv} (hn : E.names = E'.names)
    (hm : ∀ name pkg, name ∉ acceptedTypes → E.mapping name pkg = E'.mapping name pkg) (b : BTag) :
    ∀ f : Field, OwnTypeNames f → componentToSchema E b f = componentToSchema E' b f
  | ⟨package, type, name, enumValues, isRequired, isEmbedded, sliceType, arrayType, arrayLength, mapKeyPackage, mapKeyType,
      mapValueType, structFields, bindingTags, validationTags, doc⟩, h => by
    have h0 : name ∉ acceptedTypes := by cases h with | mk h _ => exact h
    have h1 : ∀ x ∈ structFields, OwnTypeNames x.2 := by cases h with | mk _ h => exact h
    simp only [componentToSchema, mapTypeFormat]
    rw [hm _ _ h0, structLoop_mapping hn hm b structFields h1 [] [], leafSchema_names hn]
theorem structLoop_mapping {E E' : SchemaEnv} (hn : E.names = E'.names)
    (hm : ∀ name pkg, name ∉ acceptedTypes → E.mapping name pkg = E'.mapping name pkg) (b : BTag) :
    ∀ (l : List (Str × Field)), (∀ x ∈ l, OwnTypeNames x.2) → ∀ (em : List Schema) (ps : List (Str × Schema)), structLoop E b l em ps = structLoop E' b l em ps
  | [], _, em, ps => rfl
  | (k, f) :: rest, h, em, ps => by
    have hr := structLoop_mapping hn hm b rest (fun x hx => h x (List.mem_cons_of_mem _ hx))
    simp only [structLoop]
    rw [componentToSchema_mapping hn hm b f (h _ List.mem_cons_self), hn]
    split
    · split <;> exact hr _ _
    · split
      · rfl
      · split
        · exact hr _ _
        · split <;> exact hr _ _
end

theorem accepted_no_dot : ∀ t ∈ acceptedTypes, '.' ∉ t := by decide

theorem mapping_eq_of {types types' : List (Str × TypeFormat)} {names : List (Str × Str)} (h : ∀ k, k ∉ acceptedTypes → mget types k = mget types' k)
    (name pkg : Str) (hn : name ∉ acceptedTypes) :
    SchemaEnv.mapping { types := types, names := names } name pkg = SchemaEnv.mapping { types := types', names := names } name pkg := by
  unfold SchemaEnv.mapping typeMappingKey isAcceptedType
  have : ¬ elemB acceptedTypes name = true := fun e => hn (elemB_iff.mp e)
  rw [if_neg this]
  exact h _ (fun e => accepted_no_dot _ e (by simp))

theorem queryParametersOf_mapping {E E' : SchemaEnv} (hn : E.names = E'.names)
    (hm : ∀ name pkg, name ∉ acceptedTypes → E.mapping name pkg = E'.mapping name pkg) {cs : List Field} (hcs : ∀ c ∈ cs, OwnTypeNames c)
    (iter : List (Str × Schema) → List (Str × Schema)) (p : Param) : queryParametersOf E cs iter p = queryParametersOf E' cs iter p := by
  have e1 : mapParamToSchema E .form p = mapParamToSchema E' .form p := by unfold mapParamToSchema mapFieldToSchema; rw [hn]
  unfold queryParametersOf
  rw [e1]
  cases mapParamToSchema E' .form p with
  | none => rfl
  | some s =>
    simp only
    split
    · cases hf : findComponent cs p.field.package p.field.type with
      | none => rfl
      | some c =>
        simp only
        rw [componentToSchema_mapping hn hm .form c (hcs c (List.mem_of_find?_eq_some hf))]
    · rfl

theorem operationOf_mapping {E E' : SchemaEnv} (hn : E.names = E'.names)
    (hm : ∀ name pkg, name ∉ acceptedTypes → E.mapping name pkg = E'.mapping name pkg) {cs : List Field} (hcs : ∀ c ∈ cs, OwnTypeNames c)
    (ch : RouteChoice) (r : Route) : operationOf E cs ch r = operationOf E' cs ch r := by
  have e1 : ∀ b p, mapParamToSchema E b p = mapParamToSchema E' b p := fun b p => by unfold mapParamToSchema mapFieldToSchema; rw [hn]
  have e2 : ∀ b f, mapFieldToSchema E b f = mapFieldToSchema E' b f := fun b p => by unfold mapFieldToSchema; rw [hn]
  have e3 : ∀ ps n, queryParameters E cs ch.iter n ps = queryParameters E' cs ch.iter n ps := by
    intro ps
    induction ps with
    | nil => intro n; rfl
    | cons p ps ih => intro n; rw [queryParameters, queryParameters, ih, queryParametersOf_mapping hn hm hcs]
  have e4 : bodyStep E = bodyStep E' := by funext rb bp; unfold bodyStep; rw [e2]
  have e5 : ∀ ps, responseHeaders E ps = responseHeaders E' ps := by intro ps; unfold responseHeaders; simp only [e1]
  have e6 : ∀ hs, responseStep E hs = responseStep E' hs := by intro hs; funext m rt; unfold responseStep; rw [e2]
  unfold operationOf pathParameters headerParameters
  simp only [e1, e3, e4, e5, e6]

/-- C95 is false for builtin types: entries for `string`, `int64` and the other accepted names never change the document, unless a type
or a field of the service has such a name. -/
theorem builtin_mapping_without_effect (ch : Choices) (table : List (Str × Str)) (s : OpenApiInput) (types' : List (Str × TypeFormat))
    (h : ∀ k, k ∉ acceptedTypes → mget s.types k = mget types' k) (hcs : ∀ c ∈ s.components, OwnTypeNames c) :
    generateDoc ch table s = generateDoc ch table { s with types := types' } := by
  unfold generateDoc
  cases s.config with
  | none => rfl
  | some cfg =>
    simp only
    cases makeNames ch.groups s.components table with
    | err e => rfl
    | panic e => rfl
    | ok names =>
      simp only
      have hm : ∀ name pkg, name ∉ acceptedTypes → SchemaEnv.mapping { types := s.types, names := names } name pkg =
          SchemaEnv.mapping { types := types', names := names } name pkg := fun name pkg hn => mapping_eq_of h name pkg hn
      have e1 : ∀ rs n paths, addRoutes { types := s.types, names := names } s.components ch.route n rs paths =
          addRoutes { types := types', names := names } s.components ch.route n rs paths := by
        intro rs
        induction rs with
        | nil => intro n paths; rfl
        | cons r rs ih => intro n paths; rw [addRoutes, addRoutes, ih, operationOf_mapping (E := { types := s.types, names := names }) (E' := { types := types', names := names }) rfl hm hcs]
      have e2 : ∀ c ∈ s.components, ∀ bs m, addComponentSchemas { types := s.types, names := names } c bs m =
          addComponentSchemas { types := types', names := names } c bs m := by
        intro c hc bs
        induction bs with
        | nil => intro m; rfl
        | cons b bs ih =>
          intro m
          rw [addComponentSchemas, addComponentSchemas, componentToSchema_mapping (E := { types := s.types, names := names }) (E' := { types := types', names := names }) rfl hm b c (hcs c hc)]
          cases componentToSchema { types := types', names := names } b c with
          | none => exact ih m
          | some s => simp only; split <;> exact ih _
      have e3 : ∀ (l : List Field), (∀ c ∈ l, c ∈ s.components) → ∀ m,
          l.foldl (fun m c => addComponentSchemas { types := s.types, names := names } c bindingTags m) m =
          l.foldl (fun m c => addComponentSchemas { types := types', names := names } c bindingTags m) m := by
        intro l
        induction l with
        | nil => intro _ m; rfl
        | cons c l ih =>
          intro hl m
          rw [List.foldl_cons, List.foldl_cons, e2 c (hl c List.mem_cons_self), ih (fun c hc => hl c (List.mem_cons_of_mem _ hc))]
      rw [e1, show componentSchemas { types := s.types, names := names } s.components = componentSchemas { types := types', names := names } s.components from
        e3 s.components (fun _ h => h) []]

theorem merged_get (opts : List Opt) (k : Str) :
    mget (newService opts).maps.merged k = (lastDefinition (customEntries opts) k).or (mget (mapsCopy [] predefinedTypeMap) k) := by
  rw [newService_maps]
  show mget (mapsCopy (mapsCopy [] predefinedTypeMap) ((customEntries opts).foldl (fun acc e => mset acc e.1 e.2) [])) k = _
  have hs : MSorted ((customEntries opts).foldl (fun acc e => mset acc e.1 e.2) ([] : List (Str × TypeFormat))) :=
    MSorted_foldl _ _ MSorted_nil
  rw [mapsCopy, mget_foldl_mset, find_reverse_of_nodup hs.nodup, ← aget_eq_find, ← mget_eq_aget, mget_foldl_mset]
  simp [lastDefinition, mget]

theorem last_filter (opts : List Opt) (k : Str) (hk : k ∉ acceptedTypes) :
    lastDefinition (customEntries opts) k = lastDefinition ((customEntries opts).filter (fun e => e.1 ∉ acceptedTypes)) k := by
  unfold lastDefinition
  rw [← List.filter_reverse, List.find?_filter]
  congr 2
  funext e
  by_cases he : e.1 = k
  · simp [he, hk]
  · simp [he]

/-- The same for options: whatever the entries for builtin names are, the document is that of the service without these entries. -/
theorem builtin_options_without_effect (ch : Choices) (table : List (Str × Str)) (opts opts' : List Opt) (config : Option Config)
    (routes : List Route) (components : List Field)
    (hsame : (customEntries opts).filter (fun e => e.1 ∉ acceptedTypes) = (customEntries opts').filter (fun e => e.1 ∉ acceptedTypes))
    (hcs : ∀ c ∈ components, OwnTypeNames c) :
    generateDoc ch table { config := config, routes := routes, components := components, types := (newService opts).maps.merged } =
      generateDoc ch table { config := config, routes := routes, components := components, types := (newService opts').maps.merged } := by
  refine builtin_mapping_without_effect ch table _ _ (fun k hk => ?_) hcs
  show mget (newService opts).maps.merged k = mget (newService opts').maps.merged k
  rw [merged_get, merged_get, last_filter opts k hk, last_filter opts' k hk, hsame]

end Astra.Props
