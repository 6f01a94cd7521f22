/-
C102: a type that is used in several formats is documented for each of them.
-/
import Verif.Spec.Kinds
import Verif.Props.Refs
import Verif.Props.NamesExact
import Verif.Props.SchemaShape
import Verif.Lemmas.Silent

namespace Astra.Props
open Spec

/-- For every kind that `c` has, the type called `t` in the package has the same schema: it is a predeclared type, or a component that is
encoded alike in all formats. -/
def SameForAll (components : List Field) (c : Field) (t pkg : Str) : Prop :=
  ∃ c' ∈ components, c'.name = t ∧ c'.package = pkg ∧ ¬ HasTwoBindings c'.structFields ∧
    ∀ b, b ≠ .none → KindOf c b ∨ KindOf c .none → KindOf c' b ∨ KindOf c' .none

/-- All that `c` is made of has the same schema for every kind that `c` has. -/
def MadeOfSame (components : List Field) (c : Field) : Prop :=
  if c.type = c!"struct" then
    ∀ x ∈ c.structFields, x.2.type ≠ c!"struct" ∧
      if x.2.isEmbedded then SameForAll components c x.2.type x.2.package
      else mentioned x.2 ∈ reserved ∨ SameForAll components c (mentioned x.2) x.2.package
  else mentioned c ∈ reserved ∨ SameForAll components c (mentioned c) c.package

theorem reserved_facts : ∀ t ∈ reserved, isAcceptedType t = true := by decide +kernel

theorem elemSchema_congr {E : SchemaEnv} {b b' : BTag} {t pkg : Str}
    (h : t ∈ reserved ∨ refName E.names b t pkg = refName E.names b' t pkg) : elemSchema E b t pkg = elemSchema E b' t pkg := by
  unfold elemSchema makeRef
  rcases h with h | h
  · simp [reserved_facts t h]
  · rw [h]

theorem leafSchema_congr {E : SchemaEnv} {b b' : BTag} {f : Field}
    (h : mentioned f ∈ reserved ∨ refName E.names b (mentioned f) f.package = refName E.names b' (mentioned f) f.package) :
    leafSchema E b f = leafSchema E b' f := by
  unfold mentioned at h
  unfold leafSchema
  by_cases h1 : f.type = c!"slice"
  · rw [if_pos h1] at h
    rw [if_pos h1, if_pos h1, elemSchema_congr h]
  by_cases h2 : f.type = c!"array"
  · rw [if_neg h1, if_pos h2] at h
    rw [if_neg h1, if_neg h1, if_pos h2, if_pos h2, elemSchema_congr h]
  by_cases h3 : f.type = c!"map"
  · rw [if_neg h1, if_neg h2, if_pos h3] at h
    rw [if_neg h1, if_neg h1, if_neg h2, if_neg h2, if_pos h3, if_pos h3, elemSchema_congr h]
  rw [if_neg h1, if_neg h2, if_neg h3] at h
  rw [if_neg h1, if_neg h1, if_neg h2, if_neg h2, if_neg h3, if_neg h3]
  rcases h with h | h
  · simp [reserved_facts _ h]
  · unfold makeRef; rw [h]

/-- A field whose tags are all alike is bound alike for all kinds for which it is bound. -/
theorem fieldBinding_alike {f : Field} {b b' : BTag} (h : ∀ e ∈ f.bindingTags, ∀ e' ∈ f.bindingTags, e.2 = e'.2)
    (hs : (fieldBinding f b).isSome = true) (hs' : (fieldBinding f b').isSome = true) : fieldBinding f b = fieldBinding f b' := by
  have key : ∀ b t, fieldBinding f b = some t → t ≠ {} ∧ ∃ e ∈ f.bindingTags, e.2 = t := by
    intro b t ht
    have hg : ∀ b, (aget f.bindingTags b).getD {} ≠ ({} : BindingTag) → ∃ e ∈ f.bindingTags, e.2 = (aget f.bindingTags b).getD {} := by
      intro b hb
      cases hg : aget f.bindingTags b with
      | none => rw [hg] at hb; exact absurd rfl hb
      | some t => exact ⟨_, aget_some_mem hg, rfl⟩
    unfold fieldBinding at ht
    simp only at ht
    split at ht
    · cases ht
    · rename_i hn
      split at ht
      · rename_i ho
        injection ht with ht
        have hne : (aget f.bindingTags .none).getD {} ≠ ({} : BindingTag) := fun hc => hn ⟨ho, hc⟩
        exact ⟨ht ▸ hne, ht ▸ hg _ hne⟩
      · rename_i ho
        injection ht with ht
        exact ⟨ht ▸ ho, ht ▸ hg _ ho⟩
  obtain ⟨t, ht⟩ := Option.isSome_iff_exists.mp hs
  obtain ⟨t', ht'⟩ := Option.isSome_iff_exists.mp hs'
  obtain ⟨_, e, he, rfl⟩ := key _ _ ht
  obtain ⟨_, e', he', rfl⟩ := key _ _ ht'
  rw [ht, ht', h e he e' he']

theorem componentToSchema_leaf_congr {E : SchemaEnv} {b b' : BTag} {f : Field} (hs : f.type ≠ c!"struct")
    (h : mentioned f ∈ reserved ∨ refName E.names b (mentioned f) f.package = refName E.names b' (mentioned f) f.package) :
    componentToSchema E b f = componentToSchema E b' f := by
  rw [componentToSchema_eq, componentToSchema_eq, if_neg hs, if_neg hs, leafSchema_congr h]

theorem structLoop_congr {E : SchemaEnv} {b b' : BTag} (l : List (Str × Field)) (e : List Schema) (p : List (Str × Schema))
    (h : ∀ x ∈ l, fieldEffect E b x.2 = fieldEffect E b' x.2) : structLoop E b l e p = structLoop E b' l e p := by
  induction l generalizing e p with
  | nil => rw [structLoop, structLoop]
  | cons x l ih =>
    obtain ⟨k, f⟩ := x
    rw [structLoop_cons, structLoop_cons, h (k, f) List.mem_cons_self]
    have ih := fun e p => ih e p (fun x hx => h x (List.mem_cons_of_mem _ hx))
    cases fieldEffect E b' f with
    | none => rfl
    | some ef => cases ef <;> exact ih _ _

/-- Without differing tags, and if all it is made of has the same names, the schema of a type is the same for every two kinds for which it has one. -/
theorem componentToSchema_congr {E : SchemaEnv} {b b' : BTag} {c : Field} (htwo : ¬ HasTwoBindings c.structFields)
    (hm : if c.type = c!"struct" then
        ∀ x ∈ c.structFields, x.2.type ≠ c!"struct" ∧
          if x.2.isEmbedded then refName E.names b x.2.type x.2.package = refName E.names b' x.2.type x.2.package
          else mentioned x.2 ∈ reserved ∨ refName E.names b (mentioned x.2) x.2.package = refName E.names b' (mentioned x.2) x.2.package
      else mentioned c ∈ reserved ∨ refName E.names b (mentioned c) c.package = refName E.names b' (mentioned c) c.package)
    (hs : (componentToSchema E b c).isSome = true) (hs' : (componentToSchema E b' c).isSome = true) :
    componentToSchema E b c = componentToSchema E b' c := by
  by_cases hst : c.type = c!"struct"
  · rw [if_pos hst] at hm
    rw [componentToSchema_eq, if_pos hst] at hs hs'
    rw [componentToSchema_eq, componentToSchema_eq, if_pos hst, if_pos hst]
    by_cases hmap : (E.mapping c.name c.package).isSome = true
    · rw [if_pos hmap, if_pos hmap]
    · rw [if_neg hmap] at hs hs' ⊢
      rw [if_neg hmap]
      have hb : ∀ b, (match structLoop E b c.structFields [] [] with
          | some (embedded, props) => some (composeStruct embedded props)
          | none => none).isSome = true → ∀ x ∈ c.structFields, x.2.isEmbedded = true ∨ (fieldBinding x.2 b).isSome = true := by
        intro b h
        apply (structLoop_isSome E b c.structFields [] []).mp
        cases hl : structLoop E b c.structFields [] [] with
        | none => rw [hl] at h; cases h
        | some y => rfl
      rw [structLoop_congr (b := b) (b' := b')]
      intro x hx
      obtain ⟨h1, h2⟩ := hm x hx
      unfold fieldEffect
      by_cases he : x.2.isEmbedded = true
      · rw [if_pos he] at h2
        rw [if_pos he, if_pos he]
        unfold makeRef
        rw [h2]
      · rw [if_neg he] at h2
        rw [if_neg he, if_neg he]
        rw [fieldBinding_alike (b := b) (b' := b')
          (fun e he e' he' => Decidable.byContradiction fun hne => htwo ⟨x, hx, e, he, e', he', hne⟩)
          ((hb b hs x hx).resolve_left he) ((hb b' hs' x hx).resolve_left he), componentToSchema_leaf_congr h1 h2]
  · rw [if_neg hst] at hm
    exact componentToSchema_leaf_congr hst hm

/-! ### The contents of bodies and responses -/

theorem body_kind (E : SchemaEnv) (bps : List BodyParam) (rb : Option (List (Str × Schema)))
    (h : ∀ content, rb = some content → ∀ x ∈ content, RefsFrom E.names (contentTypeToBindingTag x.1) x.2) :
    ∀ content, bps.foldl (bodyStep E) rb = some content → ∀ x ∈ content, RefsFrom E.names (contentTypeToBindingTag x.1) x.2 := by
  induction bps generalizing rb with
  | nil => exact h
  | cons bp bps ih =>
    rw [List.foldl_cons]
    apply ih
    intro content hc x hx
    unfold bodyStep at hc
    split at hc
    · exact h content hc x hx
    · rename_i s hs
      injection hc with hc
      subst hc
      rcases mem_mset hx with rfl | hx
      · exact refsFrom_body (refsFrom_field E _ _ _ hs) bp
      · cases hrb : rb with
        | none => rw [hrb] at hx; simp at hx
        | some c => rw [hrb] at hx; exact h c hrb x hx

theorem response_kind (E : SchemaEnv) (headers : List (Str × OHeader)) (rts : List ReturnType) (m : List (Str × OResponse))
    (h : ∀ x ∈ m, ∀ y ∈ x.2.content, RefsFrom E.names (contentTypeToBindingTag y.1) y.2) :
    ∀ x ∈ rts.foldl (responseStep E headers) m, ∀ y ∈ x.2.content, RefsFrom E.names (contentTypeToBindingTag y.1) y.2 := by
  induction rts generalizing m with
  | nil => exact h
  | cons rt rts ih =>
    rw [List.foldl_cons]
    apply ih
    unfold responseStep
    have h' : ∀ x ∈ (if (mget m (itoa rt.statusCode)).isSome then m else mset m (itoa rt.statusCode) { headers := headers }),
        ∀ y ∈ x.2.content, RefsFrom E.names (contentTypeToBindingTag y.1) y.2 := by
      intro x hx
      split at hx
      · exact h x hx
      · rcases mem_mset hx with rfl | hx
        · simp
        · exact h x hx
    generalize (if (mget m (itoa rt.statusCode)).isSome then m else mset m (itoa rt.statusCode) { headers := headers }) = m' at *
    simp only
    intro x hx
    split at hx
    · rcases mem_mset hx with rfl | hx
      · simp only
        intro y hy
        rcases mem_mset hy with rfl | hy
        · simp only
          cases hs : mapFieldToSchema E (contentTypeToBindingTag rt.contentType) rt.field with
          | none => exact refsFrom_plain rfl rfl rfl rfl rfl
          | some s => exact refsFrom_field E _ _ _ hs
        · cases hg : mget m' (itoa rt.statusCode) with
          | none => rw [hg] at hy; simp at hy
          | some r => rw [hg] at hy; exact h' _ (mget_some_mem hg) y hy
      · exact h' x hx
    · exact h' x hx

theorem content_kind (E : SchemaEnv) (cs : List Field) (ch : RouteChoice) (r : Route) (ct : Str) (s : Schema)
    (h : OfContent (operationOf E cs ch r) ct s) : RefsFrom E.names (contentTypeToBindingTag ct) s := by
  cases h with
  | body hb hx => exact body_kind E r.body none (by simp) _ hb _ hx
  | response hr hx => exact response_kind E _ r.returnTypes [] (by simp) _ hr _ hx

/-! ### The names -/

theorem refName_kind {order : List (Str × List Field) → List (Str × List Field)} (hord : AnyOrder order) {components : List Field}
    {names : List (Str × Str)} (h : makeNames order components [] = .ok names)
    (hdot : ∀ c ∈ components, '.' ∉ c.name ∧ '.' ∉ lastSegment c.package)
    (hdist : ∀ c ∈ components, ∀ c' ∈ components, c.name = c'.name → c.package = c'.package → c = c') {c : Field} (hc : c ∈ components) (b : BTag) :
    KindOf c b ∨ refName names b c.name c.package = refName names .none c.name c.package := by
  refine (Classical.em _).imp_right (fun hk : ¬ KindOf c b => ?_)
  have hnone : mget names (collisionSafeKey b c.name c.package) = none := by
    cases hg : mget names (collisionSafeKey b c.name c.package) with
    | none => rfl
    | some n =>
      obtain ⟨c', hc', b', hb', e, _⟩ := (makeNames_spec hord h).1 _ _ hg
      obtain ⟨e1, e2, e3⟩ := collisionSafeKey_inj e (hdot c hc).1 (hdot c' hc').1 (hdot c hc).2 (hdot c' hc').2
      have := hdist c hc c' hc' e2 e3
      subst this e1
      exact absurd ((kindOf_iff _ _).mp hb') hk
  unfold refName
  rw [hnone]
  cases mget names (collisionSafeKey .none c.name c.package) <;> rfl

theorem refName_none_kind {order : List (Str × List Field) → List (Str × List Field)} (hord : AnyOrder order) {components : List Field}
    {names : List (Str × Str)} (h : makeNames order components [] = .ok names)
    (hdot : ∀ c ∈ components, '.' ∉ c.name ∧ '.' ∉ lastSegment c.package)
    (hdist : ∀ c ∈ components, ∀ c' ∈ components, c.name = c'.name → c.package = c'.package → c = c') {c : Field} (hc : c ∈ components)
    {n : Str} (hn : refName names .none c.name c.package = some n) : KindOf c .none := by
  have hg : mget names (collisionSafeKey .none c.name c.package) = some n := by
    unfold refName at hn
    split at hn
    · rename_i hg; rw [hg, hn]
    · exact hn
  obtain ⟨c', hc', b', hb', e, _⟩ := (makeNames_spec hord h).1 _ _ hg
  obtain ⟨e1, e2, e3⟩ := collisionSafeKey_inj e (hdot c hc).1 (hdot c' hc').1 (hdot c hc).2 (hdot c' hc').2
  have := hdist c hc c' hc' e2 e3
  subst this e1
  exact (kindOf_iff _ _).mp hb'

theorem schemaName_kind_inj {d : Nat} {b b' : BTag} {name pkg : Str} (h : schemaName d (some b) name pkg = schemaName d (some b') name pkg) :
    b = b' := by
  unfold schemaName at h
  simp only [List.append_assoc, List.cons_append, List.append_cancel_left_eq, List.cons.injEq, true_and] at h
  have h2 : b.toStr = b'.toStr := by
    have := congrArg List.reverse h
    simpa using this
  revert h2
  cases b <;> cases b' <;> decide

/-! ### The property -/

/-- What is assumed of a component for a kind: nothing but the component itself says how it is encoded (no type mapping for it or its fields), every
field has at most one tag for each kind, no two fields are shown under one name, and no name in it has a dot. -/
structure Ordinary (types : List (Str × TypeFormat)) (b : BTag) (c : Field) : Prop where
  unmapped : mget types (typeMappingKey c.name c.package) = none
  unmappedFields : ∀ x ∈ c.structFields, mget types (typeMappingKey x.2.name x.2.package) = none
  tags : ∀ x ∈ c.structFields, (x.2.bindingTags.map (·.1)).Nodup
  apart : c.structFields.Pairwise (fun x y => x.2.isEmbedded = false → y.2.isEmbedded = false → ∀ n, ShownAs b x.2 n → ¬ ShownAs b y.2 n)
  names : ∀ f, f = c ∨ f ∈ c.structFields.map (·.2) → '.' ∉ f.type ∧ '.' ∉ f.sliceType ∧ '.' ∉ f.arrayType ∧ '.' ∉ f.mapValueType
  complete : Bindable types b c

theorem fieldSchema_unique {E : SchemaEnv} {b : BTag} {f : Field} {t t' : Schema} (hm : E.mapping f.name f.package = none)
    (hd : '.' ∉ f.type ∧ '.' ∉ f.sliceType ∧ '.' ∉ f.arrayType ∧ '.' ∉ f.mapValueType)
    (h : FieldSchema (refName E.names b) f t) (h' : componentToSchema E b f = some t') : t = t' := by
  have := property_schema E b f t h hm hd
  rw [h'] at this
  injection this with this
  exact this.symm

theorem describes_of_schema {E : SchemaEnv} {b : BTag} {c : Field} {s : Schema} (ho : Ordinary E.types b c)
    (h : componentToSchema E b c = some s) : DescribesFor (refName E.names b) b c (withDoc c s) := by
  have hu := undescribed_component _ _ _ _ h
  have hdesc : s.description = [] := hu s (.self s)
  have hprop : ∀ n t, PropertyOf (withDoc c s) n t ↔ HasProperty s n t := by
    intro n t
    unfold withDoc PropertyOf HasProperty
    split <;> rfl
  have hall : (withDoc c s).allOf = s.allOf := by
    unfold withDoc
    split <;> rfl
  refine ⟨?_, fun hst => ?_, fun hst t ht => ?_⟩
  · unfold withDoc
    split
    · rename_i e; rw [e, hdesc]
    · rfl
  · obtain ⟨_, h2, h3, _⟩ := struct_schema_exact E b c s hst ho.unmapped ho.tags ho.apart h
    have hf : ∀ x ∈ c.structFields, _ := fun x hx => ho.names x.2 (.inr (List.mem_map_of_mem hx))
    refine ⟨fun x hx he n t hn ht => ?_, fun n t hp => ?_, fun x hx he n hn => ?_, fun r hr hm => ?_⟩
    · exact (hprop n t).mpr ((h2 n t).mpr ⟨x, hx, he, hn, property_schema E b x.2 t ht (ho.unmappedFields x hx) (hf x hx)⟩)
    · obtain ⟨x, hx, he, hn, hs⟩ := (h2 n t).mp ((hprop n t).mp hp)
      exact ⟨x, hx, he, hn, fun t' ht' => fieldSchema_unique (ho.unmappedFields x hx) (hf x hx) ht' hs⟩
    · rw [hall]
      refine (h3 _ (by simp)).mpr ⟨x, hx, he, ?_⟩
      unfold makeRef
      rw [hn]
      rfl
    · rw [hall] at hm
      obtain ⟨x, hx, he, hn⟩ := (h3 r hr).mp hm
      unfold makeRef at hn
      cases hr' : refName E.names b x.2.type x.2.package with
      | none => rw [hr'] at hn; cases hn
      | some n =>
        rw [hr'] at hn
        injection hn with hn
        exact ⟨x, hx, he, n, hr', hn.symm⟩
  · have := fieldSchema_unique ho.unmapped (ho.names c (.inl rfl)) ht h
    subst this
    unfold withDoc
    split
    · rename_i e
      rw [e]
      cases t
      simp only at hdesc
      rw [hdesc]
    · rfl

/-- C102 (partial): the references of a body or response are those for the format of its content type, and the entry of `components.schemas` that
is the schema of a type for a format describes the type as that format encodes it, with references for that format again; if the type has tags that differ
between formats, or else if everything it is made of is encoded alike in all the formats that it is tagged for. Missing: types with the same
tags for several formats that are made of types with differing ones; of those only the last format is described
(`shared_type_describes_last_format`, `named_slice_describes_last_format`). -/
theorem formats_described_partial (ch : Choices) (hord : AnyOrder ch.groups) (s : OpenApiInput) (d : Document)
    (hgen : generateDoc ch [] s = .ok d) (hsep : Separable (s.components.map (·.package))) (hname : ∀ c ∈ s.components, '.' ∉ c.name)
    (hpkg : ∀ c ∈ s.components, PlainPackage c.package)
    (hdist : ∀ c ∈ s.components, ∀ c' ∈ s.components, c.name = c'.name → c.package = c'.package → c = c')
    (hz : ∀ c ∈ s.components, NoZeroTags c.structFields) :
    ∃ target : BTag → Str → Str → Option Str,
      (∀ path item op ct sch r, (path, item) ∈ d.paths → OfItem item op → OfContent op ct sch → HasRef sch r →
        ∃ t pkg n, target (contentTypeToBindingTag ct) t pkg = some n ∧ r = c!"#/components/schemas/" ++ n) ∧
      (∀ c ∈ s.components, ∀ b, b ≠ .none → Ordinary s.types b c →
        (HasTwoBindings c.structFields ∧ KindOf c b) ∨
          (¬ HasTwoBindings c.structFields ∧ (KindOf c b ∨ KindOf c .none) ∧ MadeOfSame s.components c) →
        ∃ n sch, target b c.name c.package = some n ∧ mget d.schemas n = some sch ∧ DescribesFor (target b) b c sch) := by
  have hdot : ∀ c ∈ s.components, '.' ∉ c.name ∧ '.' ∉ lastSegment c.package := fun c hc => ⟨hname c hc, (hpkg c hc).1⟩
  obtain ⟨names, hnames, hsound, hcompl⟩ := schemas_exact ch [] s d hgen
  obtain ⟨names', hnames', hinj, _⟩ := schema_names_distinct_partial s.components ch.groups hord hsep hname hpkg
  rw [hnames] at hnames'
  injection hnames' with e
  subst e
  refine ⟨refName names, ?_, ?_⟩
  · intro path item op ct sch r hp hi ho hr
    have hpaths : ∃ E : SchemaEnv, E.names = names ∧ d.paths = addRoutes E s.components ch.route 0 s.routes [] := by
      unfold generateDoc at hgen
      cases hc : s.config with
      | none => rw [hc] at hgen; simp at hgen
      | some cfg =>
        rw [hc] at hgen
        simp only at hgen
        rw [hnames] at hgen
        simp only [Res.ok.injEq] at hgen
        subst hgen
        exact ⟨{ types := s.types, names := names }, rfl, rfl⟩
    obtain ⟨E, rfl, hE⟩ := hpaths
    rw [hE] at hp
    obtain ⟨t, pkg, ht⟩ := routes_refs E _ _ _ _ [] (fun op => ∀ ct sch, OfContent op ct sch → RefsFrom E.names (contentTypeToBindingTag ct) sch)
      (fun k r ct sch h => content_kind E _ _ r ct sch h) (by simp) _ hp _ hi ct sch ho r hr
    unfold makeRef at ht
    cases hn : refName E.names (contentTypeToBindingTag ct) t pkg with
    | none => rw [hn] at ht; cases ht
    | some n =>
      rw [hn] at ht
      injection ht with ht
      exact ⟨t, pkg, n, hn, ht.symm⟩
  · intro c hc b hb ho hkind
    have hexact := fun (c : Field) hc b hk => schema_names_exact s.components ch.groups hord names hnames hdot c hc
      (fun c' hc' e1 e2 => hdist c' hc' c hc e1 e2) (hz c hc) b hk _ ((sameUntil_iff _ _).mpr rfl)
    have hshared : ∀ c' ∈ s.components, ¬ HasTwoBindings c'.structFields → ∀ b, KindOf c' b ∨ KindOf c' .none →
        refName names b c'.name c'.package = some (schemaName (sameUntil (sameName s.components c'.package)) none c'.name c'.package) := by
      intro c' hc' htwo b hk
      by_cases hkb : KindOf c' b
      · exact (hexact c' hc' b hkb).2 htwo
      · rw [(refName_kind hord hnames hdot hdist hc' b).resolve_left hkb]
        exact (hexact c' hc' .none (hk.resolve_left hkb)).2 htwo
    let E : SchemaEnv := { types := s.types, names := names }
    have hsome : (componentToSchema E b c).isSome = true := bindable_schema (hz c hc) ho.complete
    have href : ∃ n, refName names b c.name c.package = some n := by
      rcases hkind with ⟨htwo, hk⟩ | ⟨htwo, hk, _⟩
      · exact ⟨_, (hexact c hc b hk).1 htwo⟩
      · exact ⟨_, hshared c hc htwo b hk⟩
    obtain ⟨n, hn⟩ := href
    have hin := hcompl c hc b n hb hn hsome
    rw [← mget_isSome_iff] at hin
    obtain ⟨sch, hsch⟩ := Option.isSome_iff_exists.mp hin
    obtain ⟨c', hc', b', s0, hb', hn', hs0, rfl⟩ := hsound n sch (mget_some_mem hsch)
    obtain ⟨e1, e2⟩ := hinj c hc c' hc' b b' n hn hn'
    have := hdist c hc c' hc' e1 e2
    subst this
    refine ⟨n, _, hn, hsch, ?_⟩
    have hsame : componentToSchema E b c = componentToSchema E b' c := by
      have hk' : KindOf c b' ∨ KindOf c .none := by
        rcases refName_kind hord hnames hdot hdist hc b' with h | h
        · exact .inl h
        · rw [h] at hn'; exact .inr (refName_none_kind hord hnames hdot hdist hc hn')
      rcases hkind with ⟨htwo, hk⟩ | ⟨htwo, hk, hmade⟩
      · have hnb := (hexact c hc b hk).1 htwo
        rcases refName_kind hord hnames hdot hdist hc b' with h | h
        · have := (hexact c hc b' h).1 htwo
          rw [hn'] at this
          rw [hn, this] at hnb
          injection hnb with hnb
          rw [schemaName_kind_inj hnb]
        · rw [h] at hn'
          have := (hexact c hc .none (refName_none_kind hord hnames hdot hdist hc hn')).1 htwo
          rw [hn'] at this
          rw [hn, this] at hnb
          injection hnb with hnb
          exact absurd (schemaName_kind_inj hnb).symm hb
      · refine componentToSchema_congr htwo ?_ hsome (by rw [hs0]; rfl)
        have hnm : ∀ t pkg, SameForAll s.components c t pkg → refName names b t pkg = refName names b' t pkg := by
          rintro t pkg ⟨c', hc', rfl, rfl, htwo', hall⟩
          rw [hshared c' hc' htwo' b (hall b hb hk), hshared c' hc' htwo' b' (hall b' hb' hk')]
        unfold MadeOfSame at hmade
        split
        · rename_i hst
          rw [if_pos hst] at hmade
          intro x hx
          obtain ⟨h1, h2⟩ := hmade x hx
          refine ⟨h1, ?_⟩
          split
          · rename_i he; rw [if_pos he] at h2; exact hnm _ _ h2
          · rename_i he; rw [if_neg he] at h2; exact h2.imp_right (hnm _ _)
        · rename_i hst
          rw [if_neg hst] at hmade
          exact hmade.imp_right (hnm _ _)
    exact describes_of_schema (E := E) ho (hsame.trans hs0)

/-! ### Witnesses -/

/-- `Author` has different names in JSON and YAML, `Comment` has an author and the same names in both, `Authors` is a slice of authors. -/
def authorsService : OpenApiInput :=
  { config := some { title := c!"t", host := c!"localhost", port := 8000, basePath := c!"/" },
    routes := [{ method := c!"GET", path := c!"/a", returnTypes := [
      { statusCode := 200, contentType := c!"application/json", field := { type := c!"Comment", package := c!"p" } },
      { statusCode := 200, contentType := c!"application/yaml", field := { type := c!"Comment", package := c!"p" } }] }],
    components := [
      { name := c!"Author", package := c!"p", type := c!"struct", doc := c!"Who wrote it", structFields := [
        (c!"First", { type := c!"string", bindingTags := [(.json, { name := c!"first_name" }), (.yaml, { name := c!"firstName" })] }),
        (c!"Tags", { type := c!"slice", sliceType := c!"string", bindingTags := [(.json, { name := c!"tags" }), (.yaml, { name := c!"tags" })] })] },
      { name := c!"Comment", package := c!"p", type := c!"struct", structFields := [
        (c!"By", { type := c!"Author", package := c!"p", bindingTags := [(.json, { name := c!"by" }), (.yaml, { name := c!"by" })] })] },
      { name := c!"Authors", package := c!"p", type := c!"slice", sliceType := c!"Author" },
      { name := c!"Place", package := c!"p", type := c!"struct", structFields := [
        (c!"City", { type := c!"string", bindingTags := [(.json, { name := c!"city" }), (.yaml, { name := c!"city" })] })] },
      { name := c!"Trip", package := c!"p", type := c!"struct", structFields := [
        (c!"Stops", { type := c!"slice", sliceType := c!"Place", package := c!"p", bindingTags := [(.json, { name := c!"stops" }), (.yaml, { name := c!"stops" })] })] }] }

def authorsDoc : Document := match generateDoc someChoices [] authorsService with | .ok d => d | _ => {}

theorem authorsDoc_generated : generateDoc someChoices [] authorsService = .ok authorsDoc := by
  have h : (match generateDoc someChoices [] authorsService with | .ok _ => true | _ => false) = true := by decide +kernel
  unfold authorsDoc
  split at h
  · rename_i d hd; rw [hd]
  · cases h

def authorType : Field :=
  { name := c!"Author", package := c!"p", type := c!"struct", doc := c!"Who wrote it", structFields := [
    (c!"First", { type := c!"string", bindingTags := [(.json, { name := c!"first_name" }), (.yaml, { name := c!"firstName" })] }),
    (c!"Tags", { type := c!"slice", sliceType := c!"string", bindingTags := [(.json, { name := c!"tags" }), (.yaml, { name := c!"tags" })] })] }

def commentType : Field :=
  { name := c!"Comment", package := c!"p", type := c!"struct", structFields := [
    (c!"By", { type := c!"Author", package := c!"p", bindingTags := [(.json, { name := c!"by" }), (.yaml, { name := c!"by" })] })] }

def tripType : Field :=
  { name := c!"Trip", package := c!"p", type := c!"struct", structFields := [
    (c!"Stops", { type := c!"slice", sliceType := c!"Place", package := c!"p", bindingTags := [(.json, { name := c!"stops" }), (.yaml, { name := c!"stops" })] })] }

/-- In the document of the service, only one schema describes authors as JSON encodes them. -/
theorem json_author_schema {target : Str → Str → Option Str} {n : Str} {sch : Schema} (h : mget authorsDoc.schemas n = some sch)
    (hd : DescribesFor target .json authorType sch) : n = c!"p.json.Author" := by
  have hp : PropertyOf sch c!"first_name" { type := c!"string" } := by
    refine (hd.2.1 rfl).shown (c!"First", { type := c!"string", bindingTags := [(.json, { name := c!"first_name" }), (.yaml, { name := c!"firstName" })] })
      (by simp [authorType]) rfl _ _ ⟨{ name := c!"first_name" }, rfl, rfl, by decide, .inl (by simp)⟩ ?_
    exact .plain (by decide) rfl (.primitive (by decide))
  have hall : authorsDoc.schemas.all (fun x => (x.1 == c!"p.json.Author") ||
      !(x.2.properties.any (fun y => y.1 == c!"first_name") || x.2.allOf.any (fun a => a.properties.any (fun y => y.1 == c!"first_name")))) = true := by
    decide +kernel
  have := List.all_eq_true.mp hall _ (mget_some_mem h)
  simp only [Bool.or_eq_true, beq_iff_eq, Bool.not_eq_true', Bool.or_eq_false_iff] at this
  rcases this with this | ⟨h1, h2⟩
  · exact this
  · rcases hp with hp | ⟨a, ha, hp⟩
    · rw [List.any_eq_false] at h1
      exact absurd (by simp) (h1 _ hp)
    · rw [List.any_eq_false] at h2
      have h2 := h2 _ ha
      rw [List.any_eq_true] at h2
      exact absurd ⟨_, hp, by simp⟩ h2

/-- C102, violated: whatever the names are, the entries of `components.schemas` do not describe both `Author` and `Comment`, whose tags for JSON and
YAML are the same, as JSON encodes them: `Comment` refers to the schema of authors in YAML. -/
theorem shared_type_describes_last_format : ¬ ∃ target : BTag → Str → Str → Option Str,
    ∀ c ∈ [authorType, commentType], ∃ n sch, target .json c.name c.package = some n ∧ mget authorsDoc.schemas n = some sch ∧
      DescribesFor (target .json) .json c sch := by
  rintro ⟨target, h⟩
  obtain ⟨n, sch, h1, h2, h3⟩ := h authorType (by simp)
  have := json_author_schema h2 h3
  subst this
  obtain ⟨n', sch', _, h2', h3'⟩ := h commentType (by simp)
  have hp : PropertyOf sch' c!"by" { ref := c!"#/components/schemas/" ++ c!"p.json.Author" } := by
    refine (h3'.2.1 rfl).shown (c!"By", { type := c!"Author", package := c!"p", bindingTags := [(.json, { name := c!"by" }), (.yaml, { name := c!"by" })] })
      (by simp [commentType]) rfl _ _ ⟨{ name := c!"by" }, rfl, rfl, by decide, .inl (by simp)⟩ ?_
    exact .plain (by decide) rfl (.defined (by decide) h1)
  have hall : authorsDoc.schemas.all (fun x => x.2.allOf.isEmpty &&
      !(x.2.properties.any (fun y => y.2.ref == c!"#/components/schemas/" ++ c!"p.json.Author"))) = true := by decide +kernel
  have := List.all_eq_true.mp hall _ (mget_some_mem h2')
  simp only [Bool.and_eq_true, List.isEmpty_iff, Bool.not_eq_true'] at this
  rcases hp with hp | ⟨a, ha, _⟩
  · have h4 := this.2
    rw [List.any_eq_false] at h4
    exact h4 _ hp (by simp)
  · rw [this.1] at ha; simp at ha

/-- C102, violated: a named slice of authors has one schema, whose items are authors in YAML. -/
theorem named_slice_describes_last_format :
    (mget authorsDoc.schemas c!"p.Authors").bind (fun s => s.items.map (·.ref)) = some c!"#/components/schemas/p.yaml.Author" := by decide +kernel

theorem authors_separable : Separable (authorsService.components.map (·.package)) := by
  intro g
  refine ⟨0, ?_⟩
  have : ∀ p ∈ authorsService.components.map (·.package), p = c!"p" := by decide
  intro p hp q hq _ _ hne
  exact absurd ((this p hp).trans (this q hq).symm) hne

/-- Non-vacuity: the service meets the hypotheses; so do `Author` (with differing tags) and `Trip` (made of places, which are encoded alike). -/
example : AnyOrder someChoices.groups ∧ (∀ c ∈ authorsService.components, '.' ∉ c.name) ∧ (∀ c ∈ authorsService.components, PlainPackage c.package) ∧
    (∀ c ∈ authorsService.components, ∀ c' ∈ authorsService.components, c.name = c'.name → c.package = c'.package → c = c') ∧
    (∀ c ∈ authorsService.components, NoZeroTags c.structFields) :=
  ⟨fun l => .refl l, by decide, by decide, by decide +kernel, by unfold NoZeroTags; decide⟩

example : authorType ∈ authorsService.components ∧ Ordinary authorsService.types .json authorType ∧ HasTwoBindings authorType.structFields ∧
    KindOf authorType .json :=
  ⟨by decide +kernel, ⟨by decide +kernel, by decide +kernel, by decide, by
      simp only [authorType, ShownAs]
      simp
      rintro _ _ rfl _ _ rfl _ h1 _ _ rfl
      revert h1
      decide, by
      intro f hf
      have hf : f ∈ authorType :: authorType.structFields.map (·.2) := by simpa using hf
      have : ∀ f ∈ authorType :: authorType.structFields.map (·.2), '.' ∉ f.type ∧ '.' ∉ f.sliceType ∧ '.' ∉ f.arrayType ∧ '.' ∉ f.mapValueType := by decide
      exact this f hf, .inr (.inr (by decide))⟩, by unfold HasTwoBindings; decide, .inl (by unfold UsesKind; decide)⟩

example : tripType ∈ authorsService.components ∧ Ordinary authorsService.types .json tripType ∧ ¬ HasTwoBindings tripType.structFields ∧
    KindOf tripType .json ∧ MadeOfSame authorsService.components tripType := by
  refine ⟨by decide +kernel, ⟨by decide +kernel, by decide +kernel, by decide, by simp [tripType], ?_, .inr (.inr (by decide))⟩,
    by unfold HasTwoBindings; decide, .inl (by unfold UsesKind; decide), ?_⟩
  · intro f hf
    have hf : f ∈ tripType :: tripType.structFields.map (·.2) := by simpa using hf
    have : ∀ f ∈ tripType :: tripType.structFields.map (·.2), '.' ∉ f.type ∧ '.' ∉ f.sliceType ∧ '.' ∉ f.arrayType ∧ '.' ∉ f.mapValueType := by decide
    exact this f hf
  · unfold MadeOfSame
    rw [if_pos (by decide)]
    intro x hx
    simp only [tripType, List.mem_singleton] at hx
    subst hx
    refine ⟨by decide, ?_⟩
    rw [if_neg (by decide)]
    refine .inr ⟨{ name := c!"Place", package := c!"p", type := c!"struct", structFields := [
        (c!"City", { type := c!"string", bindingTags := [(.json, { name := c!"city" }), (.yaml, { name := c!"city" })] })] }, by simp [authorsService],
      rfl, rfl, by unfold HasTwoBindings; decide, ?_⟩
    intro b hb hk
    have hk : b = .json ∨ b = .yaml := by
      have hk : (extractBindingTags tripType.structFields).1.contains b = true ∨ (extractBindingTags tripType.structFields).1.contains .none = true := by
        simpa only [List.contains_iff_mem, kindOf_iff] using hk
      revert hk
      cases b <;> decide
    exact .inl (.inl (by rcases hk with rfl | rfl <;> simp [UsesKind]))

end Astra.Props
