/-
C97: the document marks as required what a request must contain.
-/
import Verif.Spec.Required
import Verif.Lemmas.Harmless
import Verif.Lemmas.RouteInvariant
import Verif.Props.Standard
import Verif.Props.Again

namespace Astra.Props
open Spec

/-! ### What is recorded of a route -/

/-- Only segments `:name` are recorded as required. -/
def RecordedOptional (r : Route) : Prop :=
  (∀ p ∈ r.pathParams, p.isRequired = true → (':', p.name) ∈ wildcards r.path) ∧ (∀ p ∈ r.queryParams, p.isRequired = false) ∧
    (∀ p ∈ r.requestHeaders, p.isRequired = false) ∧ (∀ p ∈ r.responseHeaders, p.isRequired = false)

/-- The parameters of the path are recorded. -/
def RecordedSegments (r : Route) : Prop := ∀ p ∈ extractParams r.path, p ∈ r.pathParams

/-- A mapper that adds parameters that are not required. -/
def AddsOptional (m : Mapper) : Prop := ∀ vs g, m vs = some g → ∀ r, (g r).path = r.path ∧ (∀ p ∈ r.pathParams, p ∈ (g r).pathParams) ∧
  (∀ p ∈ (g r).pathParams, p ∈ r.pathParams ∨ p.isRequired = false) ∧ (∀ p ∈ (g r).queryParams, p ∈ r.queryParams ∨ p.isRequired = false) ∧
  (∀ p ∈ (g r).requestHeaders, p ∈ r.requestHeaders ∨ p.isRequired = false) ∧
  (∀ p ∈ (g r).responseHeaders, p ∈ r.responseHeaders ∨ p.isRequired = false)

theorem mapper_optional {name : Str} {c : CtxCase} (hc : ctxCase name = some c) : AddsOptional c.mapper := by
  have push : ∀ {l : List Param} {q : Param}, q.isRequired = false → ∀ p ∈ l ++ [q], p ∈ l ∨ p.isRequired = false := by
    intro l q hq p hp
    rcases List.mem_append.mp hp with h | h
    · exact Or.inl h
    · rw [List.mem_singleton] at h; subst h; exact Or.inr hq
  have k1 : ∀ ct, AddsOptional (returnMapper ct) := by
    intro ct vs g h r; unfold returnMapper at h; split at h <;> cases h
    exact ⟨rfl, fun _ h => h, fun _ h => Or.inl h, fun _ h => Or.inl h, fun _ h => Or.inl h, fun _ h => Or.inl h⟩
  have k2 : ∀ ct t, AddsOptional (statusMapper ct t) := by
    intro ct t vs g h r; unfold statusMapper at h; split at h <;> cases h
    exact ⟨rfl, fun _ h => h, fun _ h => Or.inl h, fun _ h => Or.inl h, fun _ h => Or.inl h, fun _ h => Or.inl h⟩
  have k3 : ∀ a b, AddsOptional (queryMapper a b) := by
    intro a b vs g h r; unfold queryMapper at h; split at h <;> cases h
    exact ⟨rfl, fun _ h => h, fun _ h => Or.inl h, push rfl, fun _ h => Or.inl h, fun _ h => Or.inl h⟩
  have k4 : AddsOptional bindQueryMapper := by
    intro vs g h r; unfold bindQueryMapper at h; split at h <;> cases h
    exact ⟨rfl, fun _ h => h, fun _ h => Or.inl h, push rfl, fun _ h => Or.inl h, fun _ h => Or.inl h⟩
  have k5 : AddsOptional bindMapper := by
    intro vs g h r; unfold bindMapper at h; split at h <;> cases h
    exact ⟨rfl, fun _ h => List.mem_append_left _ h, push rfl, push rfl, push rfl, fun _ h => Or.inl h⟩
  have k6 : ∀ ct, AddsOptional (bindBodyMapper ct) := by
    intro ct vs g h r; unfold bindBodyMapper at h; split at h <;> cases h
    exact ⟨rfl, fun _ h => h, fun _ h => Or.inl h, fun _ h => Or.inl h, fun _ h => Or.inl h, fun _ h => Or.inl h⟩
  have k7 : ∀ ct t a b, AddsOptional (formMapper ct t a b) := by
    intro ct t a b vs g h r; unfold formMapper at h; split at h <;> cases h
    exact ⟨rfl, fun _ h => h, fun _ h => Or.inl h, fun _ h => Or.inl h, fun _ h => Or.inl h, fun _ h => Or.inl h⟩
  have k8 : AddsOptional requestHeaderMapper := by
    intro vs g h r; unfold requestHeaderMapper at h; split at h <;> cases h
    exact ⟨rfl, fun _ h => h, fun _ h => Or.inl h, fun _ h => Or.inl h, push rfl, fun _ h => Or.inl h⟩
  have k9 : AddsOptional bindHeaderMapper := by
    intro vs g h r; unfold bindHeaderMapper at h; split at h <;> cases h
    exact ⟨rfl, fun _ h => h, fun _ h => Or.inl h, fun _ h => Or.inl h, push rfl, fun _ h => Or.inl h⟩
  have k10 : AddsOptional responseHeaderMapper := by
    intro vs g h r; unfold responseHeaderMapper at h; split at h <;> cases h
    exact ⟨rfl, fun _ h => h, fun _ h => Or.inl h, fun _ h => Or.inl h, fun _ h => Or.inl h, push rfl⟩
  unfold ctxCase at hc
  have pass : ∀ {q : Prop} [Decidable q] {d : CtxCase} {rest : Option CtxCase}, AddsOptional d.mapper → (rest = some c → AddsOptional c.mapper) →
      (if q then some d else rest) = some c → AddsOptional c.mapper := by
    intro q _ d rest hd hr h
    by_cases hq : q
    · rw [if_pos hq] at h; cases h; exact hd
    · rw [if_neg hq] at h; exact hr h
  revert hc
  repeat (refine pass (by first | exact k1 _ | exact k2 _ _ | exact k3 _ _ | exact k4 | exact k5 | exact k6 _ | exact k7 _ _ _ _ | exact k8 | exact k9 | exact k10) ?_)
  intro h; cases h

theorem optional_step {r r' : Route} (hI : RecordedOptional r) (h : r'.path = r.path ∧ (∀ p ∈ r.pathParams, p ∈ r'.pathParams) ∧
    (∀ p ∈ r'.pathParams, p ∈ r.pathParams ∨ p.isRequired = false) ∧ (∀ p ∈ r'.queryParams, p ∈ r.queryParams ∨ p.isRequired = false) ∧
    (∀ p ∈ r'.requestHeaders, p ∈ r.requestHeaders ∨ p.isRequired = false) ∧
    (∀ p ∈ r'.responseHeaders, p ∈ r.responseHeaders ∨ p.isRequired = false)) : RecordedOptional r' := by
  obtain ⟨i1, i2, i3, i4⟩ := hI
  obtain ⟨h0, _, h1, h2, h3, h4⟩ := h
  refine ⟨fun p hp hr => ?_, fun p hp => (h2 p hp).elim (i2 p) id, fun p hp => (h3 p hp).elim (i3 p) id, fun p hp => (h4 p hp).elim (i4 p) id⟩
  rw [h0]
  rcases h1 p hp with h | h
  · exact i1 p h hr
  · rw [h] at hr; cases hr

theorem extracted_wild {path : Str} {p : Param} (hp : p ∈ extractParams path) (hr : p.isRequired = true) : (':', p.name) ∈ wildcards path := by
  rw [extractParams_exact] at hp
  obtain ⟨w, hw, rfl⟩ := List.mem_map.mp hp
  have : w.1 = ':' := of_decide_eq_true hr
  rw [← this]
  exact hw

theorem optional_kept : KeptByAnalysis RecordedOptional where
  doc _ _ h := h
  oid _ _ h := h
  params _ h := ⟨fun _ hp hr => extracted_wild hp hr, h.2⟩
  mapper _ _ vs g r hc hm h := optional_step h (mapper_optional hc vs g hm r)

theorem segments_kept : KeptByAnalysis RecordedSegments where
  doc _ _ h := h
  oid _ _ h := h
  params _ _ := fun _ hp => hp
  mapper _ _ vs g r hc hm h := by
    obtain ⟨h0, h1, _⟩ := mapper_optional hc vs g hm r
    intro p hp
    rw [h0] at hp
    exact h1 p (h p hp)

theorem optional_custom {f : CustomFunc} (h : AsksForNothing f) : CustomKeeps RecordedOptional f ∧ CustomKeeps RecordedSegments f := by
  refine ⟨fun ctx view r ops comps hI => optional_step hI 
    ⟨h.path _ _ _ _ _, h.keeps _ _ _ _ _, h.pathParams _ _ _ _ _, h.queryParams _ _ _ _ _, h.requestHeaders _ _ _ _ _, h.responseHeaders _ _ _ _ _⟩, ?_⟩
  intro ctx view r ops comps hI p hp
  rw [h.path] at hp
  exact h.keeps _ _ _ _ _ p (hI p hp)

/-! ### What the operation says -/

theorem extracted_unbound {path : Str} {p : Param} (h : p ∈ extractParams path) : p.isBound = false := (plain_extracted h).1

/-- The operation of a route on which only segments are recorded as required. -/
theorem operation_asks (E : SchemaEnv) (cs : List Field) (ch : RouteChoice) (hch : ValidChoice ch) (m : Str) (r : Route)
    (h1 : RecordedOptional r) (h2 : RecordedSegments r) : AsksForSegments r.path (operationOf E cs ch (cleanRoute m r)) := by
  have params := (parameters_sorted_complete E cs ch hch (cleanRoute m r)).2
  obtain ⟨i1, i2, i3, i4⟩ := h1
  constructor
  · intro o ho hreq
    rcases List.mem_append.mp (params.mem_iff.mp ho) with ho | ho
    · rcases List.mem_append.mp ho with ho | ho
      · obtain ⟨p, hp', ho⟩ := List.mem_flatMap.mp ho
        obtain ⟨p', hp1, rfl⟩ := List.mem_map.mp hp'
        split at ho
        · simp only [List.mem_singleton] at ho
          subst ho
          exact ⟨rfl, i1 p' hp1 hreq⟩
        · cases ho
      · obtain ⟨p, hp', ho⟩ := List.mem_flatMap.mp ho
        split at ho
        · simp only [List.mem_singleton] at ho
          subst ho
          have := i3 p hp'
          rw [this] at hreq
          cases hreq
        · cases ho
    · obtain ⟨p, hp', ho⟩ := List.mem_flatMap.mp ho
      obtain ⟨p', hp1, rfl⟩ := List.mem_map.mp hp'
      have hq : ∀ n s, (queryDoc n p'.isRequired s).required = false := by
        intro n s
        have : (queryDoc n p'.isRequired s).required = p'.isRequired := by unfold queryDoc; split <;> rfl
        rw [this]
        exact i2 p' hp1
      exfalso
      split at ho
      · cases ho
      · split at ho
        · split at ho
          · cases ho
          · split at ho
            · cases ho
            · obtain ⟨x, _, rfl⟩ := List.mem_map.mp ho
              have := hq x.1 x.2
              rw [this] at hreq
              cases hreq
        · simp only [List.mem_singleton] at ho
          subst ho
          rw [hq] at hreq
          cases hreq
  · intro name hw
    have hp : ({ name := name, field := { type := c!"string" }, isRequired := true } : Param) ∈ extractParams r.path := by
      rw [extractParams_exact]
      exact List.mem_map.mpr ⟨(':', name), hw, rfl⟩
    exact plain_path_parameter_documented E cs ch hch (cleanRoute m r) { name := name, field := cleanField m { type := c!"string" }, isRequired := true }
      (List.mem_map.mpr ⟨_, h2 _ hp, rfl⟩) rfl
  · intro code resp hc n hd hh
    rw [responses_carry_headers E cs ch (cleanRoute m r) code resp hc n] at hh
    obtain ⟨p, hp, hv⟩ := List.mem_filterMap.mp (lastFor_mem hh)
    cases hs : mapParamToSchema E .header p with
    | none => rw [hs] at hv; cases hv
    | some s =>
      rw [hs] at hv
      cases hv
      exact i4 p hp

/-! ### A whole run -/

/-- C97, as far as it is true: a service with gin routers and an OpenAPI output that comes after no other OpenAPI output; a run that
succeeds, whatever faults it survived. In the document whose text is in the file, every operation is that of an allowed entry, and what it
asks for is exactly the segments `:name` of the path of that entry. Missing: nothing else a request must contain is marked, see below. -/
theorem run_required_partial (L : Lib) (E : ParseCtx → RouteEnv) (hE : ByModel L E) (U : FPath → Prop) (hL : Tame L U)
    (hch : ∀ n, ValidChoice (L.choices.route n)) (hcustom : ∀ ctx, ∀ f ∈ (E ctx).prog.customs, AsksForNothing f)
    (getwd : Str) (φ : Faults) (w w' : World Proc) (d : FPath)
    (hd : DirAt w.cwd w.st.svc.workDir d) (hg : resolve w.cwd getwd = some w.cwd) (hnames : ProperNames w.fs) (hc : ∀ x ∈ w.cwd, '/' ∉ x)
    (routers : List (List RouteInfo)) (hin : Each GinInput w.st.svc.inputs routers) (hroutes : w.st.svc.routes = [])
    (hnd : DistinctRoutes (allowed w.st.svc.denyList routers.flatten))
    (before after : List Output) (o : Output) (hout : w.st.svc.outputs = before ++ o :: after) (hown : OwnCells w.st.svc.outputs)
    (hbefore : ∀ b ∈ before, Plain b) (loc : Nat) (ho : o.generate = .openapi loc) (q : FPath) (hq : OutputPlace d w.st.svc o.generate q)
    (hplace : OwnPlace w.cwd d w.st.svc after q) (hU : ¬ U q)
    (h : Astra.parseAll L getwd φ w = (w', .ok ())) :
    ∃ doc text, w'.fs.look q = some (.file text) ∧
      L.render (isYaml (withExtension [c!".json", c!".yaml", c!".yml"] (w.st.svc.cells.getD loc []))) doc = .ok text ∧
      ∀ path method op, Document.operation doc path method = some op →
        ∃ i ∈ allowed w.st.svc.denyList routers.flatten, openapiPath i.path = path ∧ i.method = method ∧ AsksForSegments i.path op := by
  obtain ⟨m, rs, cs, doc, text, hres, h1, h2, h3⟩ := openapi_file_of_run L hE.keeps U hL getwd φ w w' d hd hg hnames hc routers hin hroutes hnd
    before after o hout hown hbefore loc ho q hq hplace hU h
  refine ⟨doc, text, h3, h2, fun path method op hop => ?_⟩
  have hk := result_keys hE.keeps hres
  obtain ⟨found, m1, cs1, rs1, b1, b2, _, rfl, rfl⟩ := hres
  obtain ⟨names, _, hops, _⟩ := operation_of_last_route _ _ _ _ h1
  have hm : method ∈ documentedMethods := by
    unfold Document.operation opAt at hop
    cases hp : mget doc.paths path with
    | none => rw [hp] at hop; cases hop
    | some i => rw [hp] at hop; exact op_method hop
  rw [hops path method hm] at hop
  cases hf : List.find? (fun x : Route × Nat => decide (openapiPath x.1.path = path ∧ x.1.method = method)) (rs1.map (cleanRoute m)).zipIdx.reverse with
  | none => simp only [hf] at hop; cases hop
  | some x =>
    obtain ⟨r, n⟩ := x
    simp only [hf, Option.map_some, Option.some.injEq] at hop
    subst hop
    have hx := List.find?_some hf
    simp only [decide_eq_true_eq] at hx
    have hmem : r ∈ rs1.map (cleanRoute m) := by
      have := List.mem_reverse.mp (List.mem_of_find?_eq_some hf)
      exact (List.mem_zipIdx' this).2 ▸ List.getElem_mem _
    obtain ⟨r0, hr0, rfl⟩ := List.mem_map.mp hmem
    have hkey : (r0.path, r0.method) ∈ (allowed w.st.svc.denyList routers.flatten).map (fun i => (i.path, i.method)) := by
      rw [← hk]
      exact List.mem_map.mpr ⟨_, hmem, rfl⟩
    obtain ⟨i, hi, ei⟩ := List.mem_map.mp hkey
    have e1 : i.path = r0.path := congrArg Prod.fst ei
    have e2 : i.method = r0.method := congrArg Prod.snd ei
    have hpos : 0 < routers.length := by
      cases routers with
      | nil => simp [allowed] at hi
      | cons _ _ => exact Nat.succ_pos _
    have fresh : ∀ r ∈ found, RecordedOptional { r with pathParams := extractParams r.path } := by
      intro r hr
      obtain ⟨i, _, hfd⟩ := each_mem_right b1 r hr
      obtain ⟨file, _, rfl⟩ := hfd
      exact ⟨fun _ hp hr => extracted_wild hp hr, by simp, by simp, by simp⟩
    have g1 := passes_kept optional_kept hE (fun ctx f hf => (optional_custom (hcustom ctx f hf)).1) b2 hpos fresh r0 hr0
    have g2 := passes_kept segments_kept hE (fun ctx f hf => (optional_custom (hcustom ctx f hf)).2) b2 hpos (fun r _ p hp => hp) r0 hr0
    refine ⟨i, hi, by rw [e1]; exact hx.1, by rw [e2]; exact hx.2, ?_⟩
    rw [e1]
    exact operation_asks _ _ _ (hch n) m r0 g1 g2

/-! ### The tags of struct fields -/

theorem withoutRequired_same (f : Field) : (withoutRequired f).package = f.package ∧ (withoutRequired f).type = f.type ∧
    (withoutRequired f).bindingTags = f.bindingTags ∧ (withoutRequired f).isEmbedded = f.isEmbedded ∧
    (withoutRequired f).structFields = fieldsWithoutRequired f.structFields := by
  cases f
  exact ⟨rfl, rfl, rfl, rfl, rfl⟩

mutual
theorem componentToSchema_required (E : SchemaEnv) (b : BTag) : ∀ f : Field, componentToSchema E b (withoutRequired f) = componentToSchema E b f
  | ⟨package, type, name, enumValues, isRequired, isEmbedded, sliceType, arrayType, arrayLength, mapKeyPackage, mapKeyType,
      mapValueType, structFields, bindingTags, validationTags, doc⟩ => by
    simp only [withoutRequired, componentToSchema]
    rw [structLoop_required E b structFields [] []]
    rfl
theorem structLoop_required (E : SchemaEnv) (b : BTag) : ∀ (l : List (Str × Field)) (em : List Schema) (ps : List (Str × Schema)),
    structLoop E b (fieldsWithoutRequired l) em ps = structLoop E b l em ps
  | [], _, _ => rfl
  | (k, f) :: rest, em, ps => by
    have hr := structLoop_required E b rest
    obtain ⟨h1, h2, h3, h4, _⟩ := withoutRequired_same f
    have e := componentToSchema_required E b f
    simp only [fieldsWithoutRequired, structLoop]
    rw [e]
    simp only [fieldBinding, h1, h2, h3, h4]
    split
    · split <;> exact hr _ _
    · split
      · rfl
      · split
        · exact hr _ _
        · split <;> exact hr _ _
end

theorem extractTags_required (l : List (Str × Field)) : extractBindingTags (fieldsWithoutRequired l) = extractBindingTags l := by
  have h : ∀ (l : List (Str × Field)) st, extractTagsOuter (fieldsWithoutRequired l) st = extractTagsOuter l st := by
    intro l
    induction l with
    | nil => intro st; rfl
    | cons x l ih =>
      obtain ⟨k, f⟩ := x
      intro st
      simp only [fieldsWithoutRequired, extractTagsOuter]
      rw [ih, (withoutRequired_same f).2.2.1]
  unfold extractBindingTags
  rw [h]

theorem required_harmless : Harmless withoutRequired where
  name f := by cases f; rfl
  package f := by cases f; rfl
  type f := by cases f; rfl
  sliceType f := by cases f; rfl
  mapValueType f := by cases f; rfl
  doc f := by cases f; rfl
  tags f := by rw [(withoutRequired_same f).2.2.2.2, extractTags_required]
  schema E b f := componentToSchema_required E b f

/-- C97 is false for struct fields: what the service knows about mandatory fields (`binding:"required"`, `validate:"required"`) has no effect
on the document. (The order in which the runtime ranges over the packages does not depend on these marks.) -/
theorem required_tags_without_effect (ch : Choices) (table : List (Str × Str)) (s : OpenApiInput)
    (hord : ∀ gs, ch.groups (gs.map (groupVia withoutRequired)) = (ch.groups gs).map (groupVia withoutRequired)) :
    generateDoc ch table { s with routes := s.routes.map (routeVia withoutRequired), components := s.components.map withoutRequired } =
      generateDoc ch table s :=
  generateDoc_via required_harmless ch table s hord

end Astra.Props
