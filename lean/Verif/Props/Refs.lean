/-
C29: references in the generated document.
-/
import Verif.Lemmas.Refs
import Verif.Props.Schema

namespace Astra.Props
open Spec

/-- The component has a schema for the binding kind: it is not a struct, or a custom or predefined format is registered for
it, or each of its fields is embedded or tagged for the kind or without a kind. -/
def Bindable (types : List (Str × TypeFormat)) (b : BTag) (c : Field) : Prop :=
  (mget types (typeMappingKey c.name c.package)).isSome = true ∨ c.type ≠ c!"struct" ∨
    ∀ x ∈ c.structFields, x.2.isEmbedded = true ∨ ∃ e ∈ x.2.bindingTags, e.1 = b ∨ e.1 = .none

/-- The schemas of the component for the kinds `b` and `b'` have the same name: the kinds are equal, or one is the kind-less
name that stands for all kinds without a name of their own, or the component needs only one name. -/
def SharesName (c : Field) (b b' : BTag) : Prop :=
  b' = b ∨ (b = .none ∧ ¬ KindOf c b') ∨ (¬ HasTwoBindings c.structFields ∧ (KindOf c b' ∨ KindOf c .none))

/-- Every name of the component belongs to a binding kind for which it has a schema. -/
def Emittable (types : List (Str × TypeFormat)) (c : Field) : Prop :=
  ∀ b, KindOf c b → ∃ b', b' ≠ .none ∧ Bindable types b' c ∧ SharesName c b b'

theorem fieldBinding_isSome {f : Field} {b : BTag} (hz : ∀ e ∈ f.bindingTags, e.2 ≠ {})
    (h : ∃ e ∈ f.bindingTags, e.1 = b ∨ e.1 = .none) : (fieldBinding f b).isSome = true := by
  obtain ⟨⟨k, t⟩, he, hk⟩ := h
  have key : ∀ b', k = b' → ∃ t', aget f.bindingTags b' = some t' ∧ t' ≠ {} := by
    rintro b' rfl
    cases hg : aget f.bindingTags k with
    | none => exact absurd (List.mem_map.mpr ⟨_, he, rfl⟩) (aget_none_iff.mp hg)
    | some t' => exact ⟨t', rfl, hz _ (aget_some_mem hg)⟩
  unfold fieldBinding
  simp only
  rcases hk with hk | hk
  · obtain ⟨t', h1, h2⟩ := key _ hk
    rw [h1]
    simp [h2]
  · obtain ⟨t', h1, h2⟩ := key _ hk
    rw [h1]
    by_cases h0 : (aget f.bindingTags b).getD {} = {}
    · simp [h0, h2]
    · simp [h0]

theorem bindable_schema {E : SchemaEnv} {b : BTag} {c : Field} (hz : NoZeroTags c.structFields) (h : Bindable E.types b c) :
    (componentToSchema E b c).isSome = true := by
  rw [componentToSchema_eq]
  by_cases hm : (E.mapping c.name c.package).isSome = true
  · rw [if_pos hm]; rfl
  · rw [if_neg hm]
    by_cases ht : c.type = c!"struct"
    · rw [if_pos ht]
      rcases h with h | h | h
      · exact absurd h hm
      · exact absurd ht h
      · have := (structLoop_isSome E b c.structFields [] []).mpr (fun x hx =>
          (h x hx).imp id (fun h' => fieldBinding_isSome (hz x hx) h'))
        cases hl : structLoop E b c.structFields [] [] with
        | none => rw [hl] at this; simp at this
        | some y => rfl
    · rw [if_neg ht]; rfl

/-- C29 (partial): every `$ref` of a generated document, wherever it occurs, names an entry of `components.schemas`. Hypotheses:
the name table is empty before the run, type and package names contain no dot, no two components have the same name and
package (which `AddComponent` ensures), no tag is the zero value (which `ParseStructTag` ensures) and every component is
`Emittable`. Missing: components with fields tagged for different kinds (`reference_dangles`) and later runs in the same
process (`stale_reference_dangles`). -/
theorem refs_resolve_partial (ch : Choices) (hord : AnyOrder ch.groups) (hch : ∀ n, ValidChoice (ch.route n))
    (s : OpenApiInput) (d : Document) (hgen : generateDoc ch [] s = .ok d)
    (hname : ∀ c ∈ s.components, '.' ∉ c.name ∧ '.' ∉ lastSegment c.package)
    (hdist : ∀ c ∈ s.components, ∀ c' ∈ s.components, c.name = c'.name → c.package = c'.package → c = c')
    (hz : ∀ c ∈ s.components, NoZeroTags c.structFields) (hem : ∀ c ∈ s.components, Emittable s.types c)
    (sch : Schema) (hin : InDocument d sch) (r : Str) (hr : HasRef sch r) :
    ∃ n, r = c!"#/components/schemas/" ++ n ∧ n ∈ mkeys d.schemas := by
  unfold generateDoc at hgen
  cases hc : s.config with
  | none => rw [hc] at hgen; simp at hgen
  | some cfg =>
    rw [hc] at hgen
    simp only at hgen
    cases hm : makeNames ch.groups s.components [] with
    | err e => rw [hm] at hgen; simp at hgen
    | panic e => rw [hm] at hgen; simp at hgen
    | ok names =>
      rw [hm] at hgen
      simp only [Res.ok.injEq] at hgen
      subst hgen
      have hrefs : ∃ b, RefsFrom names b sch := by
        cases hin with
        | component h => exact component_refs { types := s.types, names := names } _ _ h
        | operation h1 h2 h3 =>
          exact routes_refs { types := s.types, names := names } _ _ _ _ [] (fun op => ∀ sch, InOperation op sch → ∃ b, RefsFrom names b sch)
            (fun k r sch h => operation_refs _ _ _ (fun l => ((hch k).1 l).1) (hch k).2 r sch h) (by simp) _ h1 _ h2 _ h3
      obtain ⟨b, hb⟩ := hrefs
      obtain ⟨t, pkg, hmk⟩ := hb r hr
      unfold makeRef at hmk
      cases hrn : refName names b t pkg with
      | none => rw [hrn] at hmk; simp at hmk
      | some n =>
        rw [hrn] at hmk
        simp only [Option.map_some, Option.some.injEq] at hmk
        refine ⟨n, hmk.symm, ?_⟩
        obtain ⟨w1, w2⟩ := makeNames_spec hord hm
        obtain ⟨k, hk⟩ : ∃ k, mget names k = some n := by
          unfold refName at hrn
          split at hrn
          · rename_i n' hk
            injection hrn with hrn
            subst hrn
            exact ⟨_, hk⟩
          · exact ⟨_, hrn⟩
        obtain ⟨c, hcm, b0, hw⟩ := w1 k n hk
        obtain ⟨hb0, rfl, hsafe⟩ := hw
        have hkind := (kindOf_iff c b0).mp hb0
        obtain ⟨b1, hb1, hbind, hshare⟩ := hem c hcm b0 hkind
        -- entries of the table for the component are its own
        have own : ∀ b' n', mget names (collisionSafeKey b' c.name c.package) = some n' →
            KindOf c b' ∧ safeName (sameUntil ((groupOf s.components c.package).map (·.package)))
              (extractBindingTags c.structFields).2 b' c = .ok n' := by
          intro b' n' h'
          obtain ⟨c2, hc2, b2, hb2, e, hs2⟩ := w1 _ _ h'
          obtain ⟨e1, e2, e3⟩ := collisionSafeKey_inj e (hname c hcm).1 (hname c2 hc2).1 (hname c hcm).2 (hname c2 hc2).2
          have := hdist c hcm c2 hc2 e2 e3
          subst this
          subst e1
          exact ⟨(kindOf_iff c b').mp hb2, hs2⟩
        apply emitted { types := s.types, names := names } s.components hcm (b := b1) _ (bindable_schema (hz c hcm) hbind)
        · -- the name for `b1` is `n`
          show refName names b1 c.name c.package = some n
          rcases hshare with rfl | ⟨rfl, hnk⟩ | ⟨htwo, hk2⟩
          · unfold refName; rw [hk]
          · unfold refName
            cases hg : mget names (collisionSafeKey b1 c.name c.package) with
            | none => exact hk
            | some n' => exact absurd (own _ _ hg).1 hnk
          · have hu : (extractBindingTags c.structFields).2 = false := by
              rw [← Bool.not_eq_true, (extractBindingTags_exact c.structFields).2.2.2 (hz c hcm)]
              exact htwo
            have hsame : ∀ b' n', mget names (collisionSafeKey b' c.name c.package) = some n' → n' = n := by
              intro b' n' h'
              have h1 := safeName_eq (own _ _ h').2
              have h2 := safeName_eq hsafe
              rw [hu] at h1 h2
              simp only [Bool.false_eq_true, if_false] at h1 h2
              rw [h1, h2]
            unfold refName
            cases hg : mget names (collisionSafeKey b1 c.name c.package) with
            | some n' => simp only; rw [hsame _ _ hg]
            | none =>
              simp only
              rcases hk2 with hk2 | hk2
              · have := w2 c hcm b1 ((kindOf_iff c b1).mpr hk2)
                rw [hg] at this
                simp at this
              · obtain ⟨n', hn'⟩ := Option.isSome_iff_exists.mp (w2 c hcm .none ((kindOf_iff c .none).mpr hk2))
                rw [hn', hsame _ _ hn']
        · cases b1 <;> first | exact absurd rfl hb1 | decide

/-! ### C63: the entries of components.schemas -/

/-- A schema with the documentation of its component. -/
def withDoc (c : Field) (s : Schema) : Schema := if c.doc = [] then s else { s with description := c.doc }

theorem schemas_sound (E : SchemaEnv) (cs : List Field) : ∀ x ∈ componentSchemas E cs, ∃ c ∈ cs, ∃ b s, b ≠ .none ∧
    refName E.names b c.name c.package = some x.1 ∧ componentToSchema E b c = some s ∧ x.2 = withDoc c s := by
  have inner : ∀ (c : Field) (bs : List BTag) (m : List (Str × Schema)) (P : Str × Schema → Prop),
      (∀ b s n, b ∈ bs → refName E.names b c.name c.package = some n → componentToSchema E b c = some s → P (n, withDoc c s)) →
      (∀ x ∈ m, P x) → ∀ x ∈ addComponentSchemas E c bs m, P x := by
    intro c bs
    induction bs with
    | nil => exact fun m P _ h => h
    | cons b bs ih =>
      intro m P hP h
      have hP' := fun b' s n (hb' : b' ∈ bs) => hP b' s n (List.mem_cons_of_mem _ hb')
      rw [addComponentSchemas]
      split
      · exact ih m P hP' h
      · rename_i s hs
        simp only
        split
        · rename_i n hn
          apply ih _ P hP'
          intro x hx
          rcases mem_mset hx with rfl | hx
          · have := hP b s n (by simp) hn hs
            unfold withDoc at this
            by_cases hd : c.doc = []
            · simpa [hd] using this
            · simpa [hd] using this
          · exact h x hx
        · exact ih m P hP' h
  have outer : ∀ (l : List Field) (m : List (Str × Schema)) (P : Str × Schema → Prop),
      (∀ c ∈ l, ∀ b s n, b ∈ bindingTags → refName E.names b c.name c.package = some n → componentToSchema E b c = some s →
        P (n, withDoc c s)) →
      (∀ x ∈ m, P x) → ∀ x ∈ l.foldl (fun m c => addComponentSchemas E c bindingTags m) m, P x := by
    intro l
    induction l with
    | nil => exact fun m P _ h => h
    | cons c l ih =>
      intro m P hP h
      rw [List.foldl_cons]
      exact ih _ P (fun c' hc' => hP c' (List.mem_cons_of_mem _ hc')) (inner c _ m P (hP c (by simp)) h)
  refine outer cs [] (fun x => ∃ c ∈ cs, ∃ b s, b ≠ .none ∧ refName E.names b c.name c.package = some x.1 ∧
    componentToSchema E b c = some s ∧ x.2 = withDoc c s) ?_ (by simp)
  intro c hc b s n hb hn hs
  refine ⟨c, hc, b, s, ?_, hn, hs, rfl⟩
  rintro rfl
  revert hb
  decide

/-- C63: `components.schemas` holds exactly the schemas of the components: every entry is the schema of some component, for one of
the six binding kinds, with the component's documentation, under the name references of that kind use; and whenever a
component has a schema and a name for a kind, there is an entry under that name. -/
theorem schemas_exact (ch : Choices) (table : List (Str × Str)) (s : OpenApiInput) (d : Document)
    (hgen : generateDoc ch table s = .ok d) :
    ∃ names, makeNames ch.groups s.components table = .ok names ∧
      (∀ n sch, (n, sch) ∈ d.schemas → ∃ c ∈ s.components, ∃ b s0, b ≠ .none ∧
        refName names b c.name c.package = some n ∧
        componentToSchema { types := s.types, names := names } b c = some s0 ∧ sch = withDoc c s0) ∧
      (∀ c ∈ s.components, ∀ b n, b ≠ .none → refName names b c.name c.package = some n →
        (componentToSchema { types := s.types, names := names } b c).isSome = true → n ∈ mkeys d.schemas) := by
  unfold generateDoc at hgen
  cases hc : s.config with
  | none => rw [hc] at hgen; simp at hgen
  | some cfg =>
    rw [hc] at hgen
    simp only at hgen
    cases hm : makeNames ch.groups s.components table with
    | err e => rw [hm] at hgen; simp at hgen
    | panic e => rw [hm] at hgen; simp at hgen
    | ok names =>
      rw [hm] at hgen
      simp only [Res.ok.injEq] at hgen
      subst hgen
      refine ⟨names, rfl, ?_, ?_⟩
      · intro n sch hx
        exact schemas_sound { types := s.types, names := names } _ _ hx
      · intro c hcm b n hb hn hs
        apply emitted { types := s.types, names := names } _ hcm (b := b) _ hs hn
        cases b <;> first | exact absurd rfl hb | decide

/-- A component without struct fields is emittable. -/
theorem emittable_plain (types : List (Str × TypeFormat)) (c : Field) (h : c.structFields = []) : Emittable types c := by
  intro b hb
  refine ⟨b, ?_, Or.inr (Or.inr (by simp [h])), Or.inl rfl⟩
  rcases hb with hb | hb
  · simp [UsesKind, h] at hb
  · exact hb.2

/-- A struct whose fields are all tagged, each with every kind that occurs in the struct, is emittable. Embedded fields need
no tags but may not be kind-less. -/
theorem emittable_uniform (types : List (Str × TypeFormat)) (c : Field)
    (hall : ∀ b, UsesKind c.structFields b → b ≠ .none ∧ ∀ x ∈ c.structFields, x.2.isEmbedded = true ∨ ∃ e ∈ x.2.bindingTags, e.1 = b)
    (hsome : ∃ b, UsesKind c.structFields b) : Emittable types c := by
  intro b hb
  have hu : UsesKind c.structFields b := hb.elim id (fun h => absurd hsome h.1)
  refine ⟨b, (hall b hu).1, Or.inr (Or.inr fun x hx => ((hall b hu).2 x hx).imp id ?_), Or.inl rfl⟩
  rintro ⟨e, he, hk⟩
  exact ⟨e, he, Or.inl hk⟩

/-- A struct without tags, all of whose fields are kind-less (embedded or not), is emittable. -/
theorem emittable_untagged (types : List (Str × TypeFormat)) (c : Field)
    (hall : ∀ x ∈ c.structFields, ∃ t, x.2.bindingTags = [(.none, t)]) : Emittable types c := by
  intro b hb
  by_cases hs : c.structFields = []
  · exact emittable_plain types c hs b hb
  · have hn : UsesKind c.structFields .none := by
      obtain ⟨x, hx⟩ := List.exists_mem_of_ne_nil _ hs
      obtain ⟨t, ht⟩ := hall x hx
      exact ⟨x, hx, (.none, t), by rw [ht]; simp, rfl⟩
    refine ⟨.json, by decide, Or.inr (Or.inr fun x hx => Or.inr ?_), Or.inr (Or.inr ⟨?_, Or.inr (Or.inl hn)⟩)⟩
    · obtain ⟨t, ht⟩ := hall x hx
      exact ⟨(.none, t), by rw [ht]; simp, Or.inr rfl⟩
    · rintro ⟨x, hx, e, he, e', he', hne⟩
      obtain ⟨t, ht⟩ := hall x hx
      rw [ht, List.mem_singleton] at he he'
      exact hne (by rw [he, he'])

/-- A struct of fields that each have one binding is emittable if all the fields that are not embedded are tagged for one common
kind or kind-less: for instance JSON structs with untagged and embedded fields. -/
theorem emittable_one_kind (types : List (Str × TypeFormat)) (c : Field) (b1 : BTag) (hb1 : b1 ≠ .none)
    (hone : ¬ HasTwoBindings c.structFields) (hk : UsesKind c.structFields b1)
    (hall : ∀ x ∈ c.structFields, x.2.isEmbedded = true ∨ ∃ e ∈ x.2.bindingTags, e.1 = b1 ∨ e.1 = .none) : Emittable types c :=
  fun _ _ => ⟨b1, hb1, Or.inr (Or.inr hall), Or.inr (Or.inr ⟨hone, Or.inl (Or.inl hk)⟩)⟩

/-- A service with a JSON struct that refers to another one, and a route that returns it. -/
def refService : OpenApiInput :=
  { config := some { title := c!"t", host := c!"localhost", port := 8000, basePath := c!"/" },
    routes := [{ method := c!"GET", path := c!"/a", returnTypes := [
      { statusCode := 200, contentType := c!"application/json", field := { type := c!"A", package := c!"p" } }] }],
    components := [
      { name := c!"A", package := c!"p", type := c!"struct", structFields := [
        (c!"B", { type := c!"B", package := c!"p", bindingTags := [(.json, { name := c!"b" })] })] },
      { name := c!"B", package := c!"p", type := c!"struct", structFields := [
        (c!"C", { type := c!"string", bindingTags := [(.none, { name := c!"C" })] })] }] }

/-- The references of a schema, without going below the properties (to show that the example has some). -/
def shallowRefs (s : Schema) : List Str := s.ref :: s.properties.map (·.2.ref)

/-- Non-vacuity: the hypotheses hold of a service whose document contains references. -/
example : (∀ c ∈ refService.components, Emittable refService.types c ∧ NoZeroTags c.structFields ∧ '.' ∉ c.name ∧
      '.' ∉ lastSegment c.package) ∧
    (∀ c ∈ refService.components, ∀ c' ∈ refService.components, c.name = c'.name → c.package = c'.package → c = c') ∧
    (match generateDoc someChoices [] refService with
      | .ok d => (d.schemas.map (fun x => (x.1, shallowRefs x.2)))
      | _ => []) = [(c!"p.A", [[], c!"#/components/schemas/p.B"]), (c!"p.B", [[], []])] := by
  refine ⟨?_, by decide +kernel, by decide +kernel⟩
  intro c hc
  simp only [refService, List.mem_cons, List.not_mem_nil, or_false] at hc
  rcases hc with rfl | rfl
  · refine ⟨emittable_one_kind _ _ .json (by decide) ?_ ?_ ?_, ?_, by decide, by decide⟩
    · simp [HasTwoBindings]
    · simp [UsesKind]
    · simp
    · simp [NoZeroTags]
  · refine ⟨emittable_untagged _ _ ?_, ?_, by decide, by decide⟩
    · simp
    · simp [NoZeroTags]

/-- A JSON response of a struct with one JSON field and one form field. -/
def mixedService : OpenApiInput :=
  { refService with components := [
      { name := c!"A", package := c!"p", type := c!"struct", structFields := [
        (c!"B", { type := c!"string", bindingTags := [(.json, { name := c!"b" })] }),
        (c!"C", { type := c!"string", bindingTags := [(.form, { name := c!"c" })] })] }] }

/-- The references of the responses of an operation. -/
def responseRefs (d : Document) (path method : Str) : List Str :=
  match Document.operation d path method with
  | some op => op.responses.flatMap (fun r => r.2.content.map (·.2.ref))
  | none => []

/-- C29, violated: the response refers to a schema that is not in the document. -/
theorem reference_dangles : (match generateDoc someChoices [] mixedService with
    | .ok d => (responseRefs d c!"/a" c!"GET", mkeys d.schemas)
    | _ => ([], [])) = ([c!"#/components/schemas/p.A"], []) := by decide +kernel

/-- C29, violated: the name table is never cleared. After a run that documented `p.A`, a second service in the process that
returns a type it has no component for refers to the old name. -/
theorem stale_reference_dangles : (match makeNames id refService.components [] with
    | .ok table => (match generateDoc someChoices table { refService with components := [] } with
      | .ok d => (responseRefs d c!"/a" c!"GET", mkeys d.schemas)
      | _ => ([], []))
    | _ => ([], [])) = ([c!"#/components/schemas/p.A"], []) := by decide +kernel

/-- Two JSON structs, the outer one without tags. -/
def lastKindService : OpenApiInput :=
  { refService with components := [
      { name := c!"A", package := c!"p", type := c!"struct", structFields := [
        (c!"B", { type := c!"B", package := c!"p", bindingTags := [(.none, { name := c!"B" })] })] },
      { name := c!"B", package := c!"p", type := c!"struct", structFields := [
        (c!"C", { type := c!"string", bindingTags := [(.json, { name := c!"c" })] })] }] }

/-- An untagged struct has one schema, that of the last kind (YAML), although it is used for JSON: the reference to the JSON
struct `B` is lost from it. -/
theorem untagged_struct_loses_references : (match generateDoc someChoices [] lastKindService with
    | .ok d => ((mget d.schemas c!"p.A").map (fun s => s.properties), (mget d.schemas c!"p.B").isSome)
    | _ => (none, false)) = (some [(c!"B", {})], true) := by decide +kernel

end Astra.Props
