/-
C112: structs whose tags miss the format of a body.
-/
import Verif.Props.BodyNames

namespace Astra.Props
open Astra.Spec

/-! ### The schema -/

theorem missed_binding {b : BTag} (hb : b ≠ .none) {f : StructField} {pairs : List (Str × Str)} {other : Str} (ht : TagText f.tag pairs)
    (hf : tagValue pairs b.toStr = none) (hk : other ∈ bindingKeys) (hkv : tagValue pairs other ≠ none) :
    aget (parseStructTag f.name f.tag).1 b = none ∧ aget (parseStructTag f.name f.tag).1 .none = none := by
  refine ⟨(parseStructTag_unbound f.name f.tag).1 b hb (by rw [lookup_tagValue ht]; exact hf), (parseStructTag_unbound f.name f.tag).2.2 ?_⟩
  simp only [bindingKeys, List.mem_cons, List.not_mem_nil, or_false] at hk
  rcases hk with rfl | rfl | rfl | rfl | rfl | rfl
  · exact ⟨.json, by simp, by rw [lookup_tagValue ht]; exact hkv⟩
  · exact ⟨.header, by simp, by rw [lookup_tagValue ht]; exact hkv⟩
  · exact ⟨.form, by simp, by rw [lookup_tagValue ht]; exact hkv⟩
  · exact ⟨.uri, by simp, by rw [lookup_tagValue ht]; exact hkv⟩
  · exact ⟨.xml, by simp, by rw [lookup_tagValue ht]; exact hkv⟩
  · exact ⟨.yaml, by simp, by rw [lookup_tagValue ht]; exact hkv⟩

section
variable {Γ : TypeEnv} {m : Str} {D : TName → Prop}

/-- No schema is made for a binding that the struct misses. -/
theorem missed_no_schema {b : BTag} (hb : b ≠ .none) (hD : NamedApart Γ m D) {components : List Field} (hc : MadeFromAll Γ m D components)
    {names : List (Str × Str)} {types : List (Str × TypeFormat)}
    {x : TName} (hx : D x) {fs : List (StructField × GoType)} (hu : Γ.underlying x.1 x.2.1 x.2.2 = .struct fs) (hq : FlatStruct fs)
    (hmiss : Misses b.toStr fs) (hreg : registeredFormat types (finalPackage m x.1) x.2.1 = none)
    {c : Field} (hcm : c ∈ components) (hcp : c.package = finalPackage m x.1) (hcn : c.name = x.2.1) :
    componentToSchema { types := types, names := names } b c = none := by
  obtain ⟨_, _, _, n4, _⟩ := hD.names x hx
  obtain ⟨c3, c6⟩ := struct_components hD hc names b hx hu hq.names hq.types hcm hcp hcn
  rw [componentToSchema_eq, hcp, hcn, mapping_registered n4, hreg]
  simp only [Option.isSome_none, Bool.false_eq_true, if_false, c3, if_true]
  rw [structLoop_unbound]
  · intro z hz
    obtain ⟨e, he, hfe⟩ := fieldsFor_to c6 z hz
    rw [hfe.embedded]
    exact hq.flat e (List.mem_filter.mp he).1
  · obtain ⟨e, he, hex, pairs, key, ht, hf, hk, hkv⟩ := hmiss
    obtain ⟨z, hz, hfe⟩ := fieldsFor_from c6 e (List.mem_filter.mpr ⟨he, by simpa using hex⟩)
    refine ⟨z, hz, ?_⟩
    obtain ⟨a1, a2⟩ := missed_binding hb ht hf hk hkv
    unfold fieldBinding
    rw [hfe.tags, a1, a2]
    simp

/-- What references to the struct for a binding that it misses lead to. -/
theorem missed_entry {b : BTag} (hD : NamedApart Γ m D) {components : List Field} (hc : MadeFromAll Γ m D components)
    {order : List (Str × List Field) → List (Str × List Field)} (hord : AnyOrder order) {names : List (Str × Str)}
    (hm : makeNames order components [] = .ok names) {types : List (Str × TypeFormat)}
    {schemas : List (Str × Schema)}
    (hsound : ∀ n sch, (n, sch) ∈ schemas → ∃ c ∈ components, ∃ b s0, b ≠ .none ∧ refName names b c.name c.package = some n ∧
      componentToSchema { types := types, names := names } b c = some s0 ∧ sch = withDoc c s0)
    {x : TName} (hx : D x) {fs : List (StructField × GoType)} (hu : Γ.underlying x.1 x.2.1 x.2.2 = .struct fs)
    (hq : FlatStruct fs) (hreg : registeredFormat types (finalPackage m x.1) x.2.1 = none)
    {n : Str} (hn : refName names b x.2.1 (finalPackage m x.1) = some n) {sch : Schema} (hsch : (n, sch) ∈ schemas) :
    ∃ key ∈ bindingKeys, ¬ Misses key fs := by
  obtain ⟨n1, n2, n3, n4, n5⟩ := hD.names x hx
  obtain ⟨c', hcm', b', s0, hb', hr', hs', rfl⟩ := hsound n sch hsch
  have hdots : ∀ c ∈ components, '.' ∉ c.name := by
    intro c hcm
    obtain ⟨y, hy, hmade⟩ := hc.1 c hcm
    rw [(apart_identity hD hy hmade).1]
    exact (hD.names y hy).2.2.1
  have hplain : ∀ c ∈ components, PlainPackage c.package := by
    intro c hcm
    obtain ⟨y, hy, hmade⟩ := hc.1 c hcm
    rw [(apart_identity hD hy hmade).2]
    exact (hD.names y hy).2.2.2.2
  have hsep : Separable (components.map (·.package)) := by
    apply hD.separable
    intro q hq
    obtain ⟨c, hcm, rfl⟩ := List.mem_map.mp hq
    obtain ⟨y, hy, hmade⟩ := hc.1 c hcm
    exact ⟨y, hy, (apart_identity hD hy hmade).2⟩
  obtain ⟨c2, hc2, i1, i2, b2, hb2, k2, hw2⟩ := refName_writes hord hm hdots hplain (hdots c' hcm') (hplain c' hcm').1 hr'
  obtain ⟨c1, hc1, j1, j2, b1, hb1, k1, hw1⟩ := refName_writes hord hm hdots hplain n3 n5.1 hn
  obtain ⟨e1, e2⟩ := writes_name_inj hc1 hc2 hw1 hw2 hsep (hdots c1 hc1) (hdots c2 hc2) (hplain c1 hc1) (hplain c2 hc2)
  have hcn' : c'.name = x.2.1 := by rw [← i1, ← e1, j1]
  have hcp' : c'.package = finalPackage m x.1 := by rw [← i2, ← e2, j2]
  refine ⟨b'.toStr, key_mem hb', fun hmiss => ?_⟩
  rw [missed_no_schema hb' hD hc hx hu hq hmiss hreg hcm' hcp' hcn'] at hs'
  cases hs'

/-- A struct whose fields are all tagged for other bindings has no name for this one. -/
theorem never_named {b : BTag} (hb : b ≠ .none) (hD : NamedApart Γ m D) {components : List Field} (hc : MadeFromAll Γ m D components)
    {order : List (Str × List Field) → List (Str × List Field)} (hord : AnyOrder order) {names : List (Str × Str)}
    (hm : makeNames order components [] = .ok names)
    {x : TName} (hx : D x) {fs : List (StructField × GoType)} (hu : Γ.underlying x.1 x.2.1 x.2.2 = .struct fs) (hq : FlatStruct fs)
    (hmiss : Misses b.toStr fs) (hnever : NeverTagged b.toStr fs) : refName names b x.2.1 (finalPackage m x.1) = none := by
  obtain ⟨n1, n2, n3, n4, n5⟩ := hD.names x hx
  cases hn : refName names b x.2.1 (finalPackage m x.1) with
  | none => rfl
  | some n =>
    exfalso
    have hdots : ∀ c ∈ components, '.' ∉ c.name := by
      intro c hcm
      obtain ⟨y, hy, hmade⟩ := hc.1 c hcm
      rw [(apart_identity hD hy hmade).1]
      exact (hD.names y hy).2.2.1
    have hplain : ∀ c ∈ components, PlainPackage c.package := by
      intro c hcm
      obtain ⟨y, hy, hmade⟩ := hc.1 c hcm
      rw [(apart_identity hD hy hmade).2]
      exact (hD.names y hy).2.2.2.2
    obtain ⟨c1, hc1, j1, j2, b1, hb1, k1, hw1⟩ := refName_writes hord hm hdots hplain n3 n5.1 hn
    obtain ⟨_, c6⟩ := struct_components hD hc names b hx hu hq.names hq.types hc1 j2 j1
    rcases (kindOf_iff c1 b1).mp hw1.1 with ⟨z, hz, e, he, heb⟩ | ⟨hno, _⟩
    · obtain ⟨f, hf, hfe⟩ := fieldsFor_to c6 z hz
      have hf' := List.mem_filter.mp hf
      obtain ⟨pairs, ht, hv, other, hk, hkv⟩ := hnever f hf'.1 (by simpa using hf'.2)
      obtain ⟨a1, a2⟩ := missed_binding hb ht hv hk hkv
      rw [hfe.tags] at he
      have := (binding_mem_iff _ _ e.1 e.2).mp he
      rcases hb1 with h | h
      · rw [heb, h, a1] at this; cases this
      · rw [heb, h, a2] at this; cases this
    · obtain ⟨e, he, hex, pairs, key, ht, hf, hk, hkv⟩ := hmiss
      obtain ⟨z, hz, hfe⟩ := fieldsFor_from c6 e (List.mem_filter.mpr ⟨he, by simpa using hex⟩)
      apply hno
      have hne : (parseStructTag e.1.name e.1.tag).1 ≠ [] := by
        unfold parseStructTag
        simp only
        split <;> simp_all
      obtain ⟨p, hp⟩ := List.exists_mem_of_ne_nil _ hne
      exact ⟨p.1, z, hz, p, by rw [hfe.tags]; exact hp, rfl⟩

end

/-- The schema of an argument that is a struct, or points to one. -/
theorem base_reference {Γ : TypeEnv} {m : Str} {SE : SchemaEnv} {b : BTag} {t : GoType} {x : TName} (hb : Base t x)
    (hn : x.2.1 ∉ reserved ∧ x.2.1 ≠ c!"array" ∧ '.' ∉ x.2.1 ∧ x.2.1 ≠ [] ∧ x.1 ≠ []) (c c' : List Field) (pkg : Str) (r : Result)
    (h : Translates Γ c (some pkg) t (c', .ok r)) :
    mapFieldToSchema SE b (cleanField m (parseResultToField r)) =
      (refName SE.names b x.2.1 (finalPackage m x.1)).map (fun n => { ref := c!"#/components/schemas/" ++ n }) := by
  obtain ⟨_, h1, h2⟩ := base_field (m := m) hb hn h
  unfold mapFieldToSchema
  rw [h1, h2, if_pos (not_accepted hn.1)]
  unfold makeRef
  rw [Option.map_map]
  rfl

/-! ### The operation -/

theorem kind_unsent {Γ : TypeEnv} {SE : SchemaEnv} {cs : List Field} {ch : RouteChoice} {m path : Str} {es : List Entry} {n : Nat} {R : Route}
    {C : Str → Str → List ArgView → Prop} (G : Gathered es path (n + 1) R) (kind : BodyKind)
    (hfrom : ∀ e ∈ es, ∃ pkg mm args, C pkg mm args ∧ Documented Γ pkg args mm e)
    (hto : ∀ pkg mm args, C pkg mm args → mm ∈ supportedMethods → ∃ e ∈ es, Documented Γ pkg args mm e) {t : GoType}
    (hmap : ∀ c c' pkg r, Translates Γ c (some pkg) t (c', .ok r) → mapFieldToSchema SE (bodyTag kind) (cleanField m (parseResultToField r)) = none)
    {code : Int} (hsome : ∃ pkg mm args, C pkg mm args ∧ mm ∈ kind.senders ∧ IsStatus args 0 code)
    (hone : ∀ pkg mm args a t', C pkg mm args → mm ∈ kind.senders → IsStatus args 0 code → args[1]? = some a → a.type = .ok t' → t' = t) :
    ∃ resp, mget (operationOf SE cs ch (cleanRoute m R)).responses (itoa code) = some resp ∧ mget resp.content kind.contentType = none := by
  obtain ⟨h1, h2⟩ := responses_exact_partial SE cs ch (cleanRoute m R)
  have hall : ∀ rt ∈ (cleanRoute m R).returnTypes, rt.statusCode = code → rt.contentType = kind.contentType → returnSchema SE rt = none := by
    intro rt hrt hcode hct
    obtain ⟨y, hy, rfl⟩ := List.mem_map.mp hrt
    obtain ⟨e, he, hye⟩ := G.source y hy
    simp only at hcode hct
    obtain ⟨pkg, mm, args, hC, hdoc⟩ := hfrom e he
    obtain ⟨hm, hst, a, t', c, c', r, ha, hat, htr, hf⟩ := response_source hdoc kind hye hct
    rw [hcode] at hst
    have := hone pkg mm args a t' hC hm hst ha hat
    subst this
    unfold returnSchema
    simp only
    rw [hct, (bodyTag_facts kind).2.2, hf]
    exact hmap _ _ _ _ htr
  obtain ⟨pkg, mm, args, hC, hm, hst⟩ := hsome
  obtain ⟨e, he, hdoc⟩ := hto pkg mm args hC (by
    have : ∀ kind : BodyKind, ∀ mm ∈ kind.senders, mm ∈ supportedMethods := by intro kind; cases kind <;> decide
    exact this kind mm hm)
  obtain ⟨rt, hrt, hj, hcode⟩ := response_sent hdoc kind hm hst
  obtain ⟨y, hy, hy1, hy2⟩ := G.responses (Nat.succ_pos n) e he rt hrt
  have hy' : ({ y with field := cleanField m y.field } : ReturnType) ∈ (cleanRoute m R).returnTypes := List.mem_map.mpr ⟨y, hy, rfl⟩
  have hk := (h1 (itoa code)).mpr ⟨_, hy', by simp only; rw [hy1, hcode]⟩
  obtain ⟨resp, hresp⟩ := Option.isSome_iff_exists.mp (mget_isSome_iff.mpr hk)
  refine ⟨resp, hresp, ?_⟩
  have hc := h2 code kind.contentType
  unfold contentAt at hc
  rw [hresp] at hc
  simp only [Option.bind_some] at hc
  rw [hc]
  have hnil : (cleanRoute m R).returnTypes.filter (fun rt => rt.statusCode = code ∧
      rt.contentType = kind.contentType ∧ returnSchema SE rt ≠ none ∧ returnSchema SE rt ≠ some {}) = [] := by
    rw [List.filter_eq_nil_iff]
    intro rt hrt hp
    simp only [decide_eq_true_eq] at hp
    exact hp.2.2.1 (hall rt hrt hp.1 hp.2.1)
  rw [hnil]
  rfl

theorem kind_unread {Γ : TypeEnv} {SE : SchemaEnv} {cs : List Field} {ch : RouteChoice} {m path : Str} {es : List Entry} {n : Nat} {R : Route}
    {C : Str → Str → List ArgView → Prop} (G : Gathered es path (n + 1) R) (kind : BodyKind)
    (hfrom : ∀ e ∈ es, ∃ pkg mm args, C pkg mm args ∧ Documented Γ pkg args mm e) {t : GoType}
    (hmap : ∀ c c' pkg r, Translates Γ c (some pkg) t (c', .ok r) → mapFieldToSchema SE (bodyTag kind) (cleanField m (parseResultToField r)) = none)
    (hone : ∀ pkg mm args a t', C pkg mm args → mm ∈ kind.binders → args[0]? = some a → a.type = .ok t' → t' = t) :
    (operationOf SE cs ch (cleanRoute m R)).requestBody.bind (fun content => mget content kind.contentType) = none := by
  obtain ⟨h1, _⟩ := request_body_exact SE cs ch (cleanRoute m R)
  rw [h1]
  cases hl : lastFor ((cleanRoute m R).body.filterMap (fun bp => (bodyParamSchema SE bp).map (fun s =>
      (bp.contentType, if bp.name = [] then s else ({ type := c!"object", properties := [(bp.name, s)] } : Schema))))) kind.contentType with
  | none => rfl
  | some s =>
    exfalso
    have hm := lastFor_mem hl
    rw [List.mem_filterMap] at hm
    obtain ⟨bp, hb1, hb2⟩ := hm
    rw [Option.map_eq_some_iff] at hb2
    obtain ⟨s1, hb3, hb4⟩ := hb2
    have hct := (Prod.mk.inj hb4).1
    obtain ⟨y, hy, rfl⟩ := List.mem_map.mp hb1
    obtain ⟨e, he, hye⟩ := G.mem_body.mp hy
    simp only at hct
    obtain ⟨pkg, mm, args, hC, hdoc⟩ := hfrom e he
    obtain ⟨hn, hm, a, t', c, c', r, ha, hat, htr, hf⟩ := body_source hdoc kind hye hct
    have := hone pkg mm args a t' hC hm ha hat
    subst this
    unfold bodyParamSchema at hb3
    simp only at hb3
    rw [hct, (bodyTag_facts kind).2.2, hf, hmap _ _ _ _ htr] at hb3
    cases hb3

/-! ### A run -/

/-- C112, violated: a service with gin routers and an OpenAPI output, as in C83, and a run that succeeds. A handler sends a struct in a format, or reads
a body of a format into it, and a field of the struct has tags for other bindings, but none for the format. Then the document has no schema for the
body, or a reference to a schema that was not made for the format: it does not exist, if the struct misses every binding. If all fields have such tags,
there is not even a reference. (`run_body_names_partial` says that the other structs are described.) -/
theorem run_missed_bodies_untold (L : Lib) (E : ParseCtx → RouteEnv) (hE : ByModel L E) (U : FPath → Prop) (hL : Tame L U) (getwd : Str) (φ : Faults)
    (w w' : World Proc) (d : FPath)
    (hd : DirAt w.cwd w.st.svc.workDir d) (hg : resolve w.cwd getwd = some w.cwd) (hnames : ProperNames w.fs) (hc : ∀ x ∈ w.cwd, '/' ∉ x)
    (routers : List (List RouteInfo)) (hin : Each GinInput w.st.svc.inputs routers) (hroutes : w.st.svc.routes = [])
    (hnd : DistinctRoutes (allowed w.st.svc.denyList routers.flatten))
    (before after : List Output) (o : Output) (hout : w.st.svc.outputs = before ++ o :: after) (hown : OwnCells w.st.svc.outputs)
    (hbefore : ∀ b ∈ before, Plain b) (loc : Nat) (ho : o.generate = .openapi loc) (q : FPath) (hq : OutputPlace d w.st.svc o.generate q)
    (hplace : OwnPlace w.cwd d w.st.svc after q) (hU : ¬ U q)
    (hcomp : w.st.svc.components = []) (hnm : w.st.names = []) (hord : AnyOrder L.choices.groups)
    (Γ : TypeEnv) (D : TName → Prop) (hT : TypedProgram E Γ D)
    (h : Astra.parseAll L getwd φ w = (w', .ok ())) :
    ∃ m rs cs doc text, RunResult L w.st.svc (workDirAfter getwd w.st.svc) routers m rs cs ∧ w'.fs.look q = some (.file text) ∧
      L.render (isYaml (withExtension [c!".json", c!".yaml", c!".yml"] (w.st.svc.cells.getD loc []))) doc = .ok text ∧
      (NamedApart Γ m D →
        ∀ i ∈ allowed w.st.svc.denyList routers.flatten, i.method ∈ documentedMethods →
          (∀ j ∈ allowed w.st.svc.denyList routers.flatten, openapiPath j.path = openapiPath i.path → j.method = i.method → j = i) →
          ∃ (relative : Str) (mains : List Str), L.rel i.file = .ok relative ∧ mains.length = routers.length ∧ ∀ (comment id : Str) (es : List Entry),
            (∀ main ∈ mains, HandlerView (E { workDir := workDirAfter getwd w.st.svc, mainPkg := main, customFuncs := w.st.svc.customFuncs })
              i.handler relative i.line comment id es) →
            ∃ op, Document.operation doc (openapiPath i.path) i.method = some op ∧
              ∀ (kind : BodyKind) t fs, StructTarget Γ w.st.svc.maps.merged m t fs → FlatStruct fs → Misses kind.key fs →
                (∀ code, (∃ main ∈ mains, HandlerSendsAs (E { workDir := workDirAfter getwd w.st.svc, mainPkg := main, customFuncs := w.st.svc.customFuncs })
                    i.handler relative i.line kind code t) →
                  (∀ main ∈ mains, ∀ t', HandlerSendsAs (E { workDir := workDirAfter getwd w.st.svc, mainPkg := main, customFuncs := w.st.svc.customFuncs })
                    i.handler relative i.line kind code t' → t' = t) →
                  ∃ resp, mget op.responses (itoa code) = some resp ∧ Untold doc.schemas fs (mget resp.content kind.contentType) ∧
                    (NeverTagged kind.key fs → mget resp.content kind.contentType = none)) ∧
                ((∃ main ∈ mains, HandlerCallsWith (E { workDir := workDirAfter getwd w.st.svc, mainPkg := main, customFuncs := w.st.svc.customFuncs })
                    i.handler relative i.line kind.binders t) →
                  (∀ main ∈ mains, ∀ t', HandlerCallsWith (E { workDir := workDirAfter getwd w.st.svc, mainPkg := main, customFuncs := w.st.svc.customFuncs })
                    i.handler relative i.line kind.binders t' → t' = t) →
                  Untold doc.schemas fs (op.requestBody.bind (fun content => mget content kind.contentType)) ∧
                    (NeverTagged kind.key fs → op.requestBody.bind (fun content => mget content kind.contentType) = none))) := by
  obtain ⟨m, rs, cs1, doc, text, names, hres, h3, h2, h1, hn', hrt, hall⟩ := run_components L E hE U hL getwd φ w w' d hd hg hnames hc routers hin hroutes hnd
    before after o hout hown hbefore loc ho q hq hplace hU hcomp hnm Γ D hT h
  obtain ⟨names', hn'', hsound, hcomplete⟩ := schemas_exact _ _ _ _ h1
  dsimp only at hn'' hsound hcomplete
  rw [hn'] at hn''
  cases hn''
  refine ⟨m, rs, _, doc, text, hres, h3, h2, fun hD i hi hm huniq => ?_⟩
  have hown' := NamedApart.ownTypes hD
  have hroot := hrt hown'
  have hD' := NamedApart.recorded hD hroot
  have hmade := rooted_made hroot m
  obtain ⟨relative, mains, hrel, q0, hpos, hE'⟩ := hall i hi hm huniq
  refine ⟨relative, mains, hrel, q0, fun comment id es hv => ?_⟩
  obtain ⟨⟨n, r', S, op⟩, key⟩ := hE' comment id es hv
  obtain ⟨k, hk⟩ : ∃ k, routers.length = k + 1 := ⟨routers.length - 1, by omega⟩
  rw [hk] at S
  refine ⟨_, op, fun kind t fs htarget hqs hmiss => ?_⟩
  obtain ⟨x, hb, harr, hu, hreg⟩ := htarget
  obtain ⟨b1, b2, _⟩ := bodyTag_facts kind
  -- the schema, once the type is recorded
  have hschema : Recorded Γ D cs1 x →
      (∀ c c' pkg r, Translates Γ c (some pkg) t (c', .ok r) →
        mapFieldToSchema { types := w.st.svc.maps.merged, names := names } (bodyTag kind) (cleanField m (parseResultToField r)) =
          (refName names (bodyTag kind) x.2.1 (finalPackage m x.1)).map (fun n => { ref := c!"#/components/schemas/" ++ n })) ∧
      (∀ n sch, refName names (bodyTag kind) x.2.1 (finalPackage m x.1) = some n → (n, sch) ∈ doc.schemas → ∃ key ∈ bindingKeys, ¬ Misses key fs) ∧
      (NeverTagged kind.key fs → refName names (bodyTag kind) x.2.1 (finalPackage m x.1) = none) := by
    intro hx
    obtain ⟨n1, n2, n3, n4, _⟩ := hD'.names x hx
    refine ⟨base_reference (SE := { types := w.st.svc.maps.merged, names := names }) hb ⟨n4, harr, n3, n2, n1⟩,
      fun n sch hn hs => missed_entry hD' hmade hord hn' hsound hx hu hqs hreg hn hs, fun hnever => ?_⟩
    rw [← b2] at hnever hmiss
    exact never_named b1 hD' hmade hord hn' hx hu hqs hmiss hnever
  have hrec : ∀ main ∈ mains, ∀ fileId name f named ctx pkg mm args a (j : Nat),
      HandlerIs (E { workDir := workDirAfter getwd w.st.svc, mainPkg := main, customFuncs := w.st.svc.customFuncs }) i.handler relative i.line fileId name f named →
      ContextParam (E { workDir := workDirAfter getwd w.st.svc, mainPkg := main, customFuncs := w.st.svc.customFuncs }).prog f fileId ctx →
      Calls (E { workDir := workDirAfter getwd w.st.svc, mainPkg := main, customFuncs := w.st.svc.customFuncs }).prog fileId ctx ((E { workDir := workDirAfter getwd w.st.svc, mainPkg := main, customFuncs := w.st.svc.customFuncs }).prog.funcs f).body pkg mm args →
      (∃ cc, ctxCase mm = some cc ∧ cc.ops[j]? = some .expressionResult) → args[j]? = some a → a.type = .ok t → Recorded Γ D cs1 x := by
    intro main hmain fileId name f named ctx pkg mm args a j hh hctx hC hcase ha hat
    have htr := key main hmain fileId name f named ctx hh hctx
    obtain ⟨cc, hc1, hc2⟩ := hcase
    have h1 := htr pkg mm args cc j a t hC hc1 hc2 ha hat
    rw [hT.types] at h1
    obtain ⟨file', id', hf, rfl⟩ := calls_args hC
    exact translated_recorded hown' (fun x hx => hT.args _ file' id' mm a t x hf (List.mem_of_getElem? ha) hat hx) hroot h1 x (base_occurs hb)
  constructor
  · rintro code ⟨main, hmain, fileId, name, f, named, ctx, pkg, mm, args, a, hh, hctx, hC, hmm, hst, ha, hat⟩ hone
    obtain ⟨fileId', name', f', named', ctx', hh', hctx', han, _⟩ := hv main hmain
    obtain ⟨rfl, rfl, rfl⟩ := handler_unique hh hh'
    have := contextParam_unique hctx hctx'
    subst this
    obtain ⟨hmap, hent, hnone⟩ := hschema (hrec main hmain _ _ _ _ _ pkg mm args a 1 hh hctx hC (by
      cases kind <;> simp only [BodyKind.senders, List.mem_cons, List.not_mem_nil, or_false] at hmm
      · rcases hmm with rfl | rfl <;> exact ⟨_, rfl, rfl⟩
      · subst hmm; exact ⟨_, rfl, rfl⟩
      · subst hmm; exact ⟨_, rfl, rfl⟩) ha hat)
    have hfrom := entries_from_calls (hT.plain _) han
    have hto := fun pkg mm args => @calls_documented _ (hT.plain _) _ _ _ _ han pkg mm args
    rw [hT.types] at hfrom hto
    cases hn : refName names (bodyTag kind) x.2.1 (finalPackage m x.1) with
    | none =>
      rw [hn] at hmap
      obtain ⟨resp, r1, r2⟩ := kind_unsent (SE := { types := w.st.svc.maps.merged, names := names }) (cs := cs1.map (cleanField m)) (ch := L.choices.route _)
        (m := m) S.gathered kind hfrom hto (t := t) hmap ⟨pkg, mm, args, hC, hmm, hst⟩
        (fun pkg mm args a t' d1 d2 d3 d4 d5 => hone main hmain t' ⟨_, _, _, _, _, pkg, mm, args, a, hh, hctx, d1, d2, d3, d4, d5⟩)
      exact ⟨resp, r1, Or.inl r2, fun _ => r2⟩
    | some n =>
      rw [hn] at hmap
      obtain ⟨resp, r1, r2⟩ := kind_sent (SE := { types := w.st.svc.maps.merged, names := names }) (cs := cs1.map (cleanField m)) (ch := L.choices.route _)
        (m := m) S.gathered kind hfrom hto (t := t) (by
          intro h0
          have := congrArg Schema.ref h0
          simp at this) hmap ⟨pkg, mm, args, hC, hmm, hst⟩
        (fun pkg mm args a t' d1 d2 d3 d4 d5 => hone main hmain t' ⟨_, _, _, _, _, pkg, mm, args, a, hh, hctx, d1, d2, d3, d4, d5⟩)
      refine ⟨resp, r1, Or.inr ⟨n, r2, ?_⟩, fun hnever => ?_⟩
      · rintro ⟨sch, hs⟩
        exact hent n sch hn hs
      · rw [hnone hnever] at hn; cases hn
  · rintro ⟨main, hmain, fileId, name, f, named, ctx, hh, hctx, pkg, mm, args, a, hC, hmm, ha, hat⟩ hone
    obtain ⟨fileId', name', f', named', ctx', hh', hctx', han, _⟩ := hv main hmain
    obtain ⟨rfl, rfl, rfl⟩ := handler_unique hh hh'
    have := contextParam_unique hctx hctx'
    subst this
    obtain ⟨hmap, hent, hnone⟩ := hschema (hrec main hmain _ _ _ _ _ pkg mm args a 0 hh hctx hC (by
      cases kind <;> simp only [BodyKind.binders, List.mem_cons, List.not_mem_nil, or_false] at hmm <;>
        rcases hmm with rfl | rfl | rfl | rfl <;> exact ⟨_, rfl, rfl⟩) ha hat)
    have hfrom := entries_from_calls (hT.plain _) han
    have hto := fun pkg mm args => @calls_documented _ (hT.plain _) _ _ _ _ han pkg mm args
    rw [hT.types] at hfrom hto
    cases hn : refName names (bodyTag kind) x.2.1 (finalPackage m x.1) with
    | none =>
      rw [hn] at hmap
      have r2 := kind_unread (SE := { types := w.st.svc.maps.merged, names := names }) (cs := cs1.map (cleanField m)) (ch := L.choices.route n)
        (m := m) S.gathered kind hfrom (t := t) hmap
        (fun pkg mm args a t' d1 d2 d4 d5 => hone main hmain t' ⟨_, _, _, _, _, hh, hctx, pkg, mm, args, a, d1, d2, d4, d5⟩)
      exact ⟨Or.inl r2, fun _ => r2⟩
    | some n =>
      rw [hn] at hmap
      obtain ⟨content, r1, r2⟩ := kind_read (SE := { types := w.st.svc.maps.merged, names := names }) (cs := cs1.map (cleanField m)) (ch := L.choices.route _)
        (m := m) S.gathered kind hfrom hto (t := t) hmap ⟨pkg, mm, args, hC, hmm⟩
        (fun pkg mm args a t' d1 d2 d4 d5 => hone main hmain t' ⟨_, _, _, _, _, hh, hctx, pkg, mm, args, a, d1, d2, d4, d5⟩)
      rw [r1]
      refine ⟨Or.inr ⟨n, r2, ?_⟩, fun hnever => ?_⟩
      · rintro ⟨sch, hs⟩
        exact hent n sch hn hs
      · rw [hnone hnever] at hn; cases hn

end Astra.Props
