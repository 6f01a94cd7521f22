/-
C111: the names of the members of JSON, XML and YAML bodies.
-/
import Verif.Spec.BodyNames
import Verif.Props.BoundQuery

namespace Astra.Props
open Astra.Spec

/-- The binding of a format. -/
def bodyTag : BodyKind → BTag
  | .json => .json
  | .xml => .xml
  | .yaml => .yaml

theorem bodyTag_facts (kind : BodyKind) :
    bodyTag kind ≠ .none ∧ (bodyTag kind).toStr = kind.key ∧ contentTypeToBindingTag kind.contentType = bodyTag kind := by
  cases kind <;> decide

/-! ### The schema of a struct under a name -/

theorem query_typeSchema {target target' : Str → Str → Option Str} {t : GoType} {s : Schema} (h : QueryType t) (hs : TypeSchema target t s) :
    TypeSchema target' t s := by
  induction h with
  | basic hn => cases hs with | primitive hp => exact .primitive hp
  | slice hn hb =>
    cases hs with
    | slice h1 h2 => cases h2 with | primitive hp => exact .slice h1 (.primitive hp)
    | slices h => exact .slices h
  | pointer _ ih => cases hs with | pointer h => exact .pointer (ih h)

theorem withDoc_properties (c : Field) (s : Schema) : (withDoc c s).properties = s.properties := by
  unfold withDoc
  split <;> rfl

/-- If a field has no two different bindings, and a tag for one kind, it is shown for another kind, for which it has a binding, under the same names. -/
theorem shown_same {b b' : BTag} {T : List (BTag × BindingTag)} (hone : ∀ p ∈ T, ∀ p' ∈ T, p.2 = p'.2)
    (hnz : ∀ p ∈ T, p.2 ≠ {}) (h : (∀ p ∈ T, p.1 = .none) ∨ ((∃ t, (b, t) ∈ T) ∧ ∃ t, (b', t) ∈ T)) (hb : b ≠ .none) (hb' : b' ≠ .none)
    {g : Field} (hg : g.bindingTags = T) (k : Str) : ShownAs b' g k ↔ ShownAs b g k := by
  have one : ∀ {c c' : BTag}, c ≠ .none → c' ≠ .none → ((∀ p ∈ T, p.1 = .none) ∨ ((∃ t, (c, t) ∈ T) ∧ ∃ t, (c', t) ∈ T)) →
      ShownAs c g k → ShownAs c' g k := by
    intro c c' hc hc' h
    unfold ShownAs
    rw [hg]
    rintro ⟨t, h1, h2, h3, h4⟩
    refine ⟨t, h1, h2, h3, ?_⟩
    rcases h with h | ⟨⟨t1, ht1⟩, t2, ht2⟩
    · rcases h4 with h4 | ⟨h4, _⟩
      · exact absurd (h _ h4) hc
      · exact Or.inr ⟨h4, fun t' ht' => absurd (h _ ht') hc'⟩
    · rcases h4 with h4 | ⟨_, h5⟩
      · have : t = t2 := hone _ h4 _ ht2
        subst this
        exact Or.inl ht2
      · exact absurd (h5 t1 ht1) (hnz _ ht1)
  exact ⟨one hb' hb (h.imp_right And.symm), one hb hb' h⟩

section
variable {Γ : TypeEnv} {m : Str} {D : TName → Prop}

/-- What references to the struct for a binding lead to. -/
theorem kind_entry {b : BTag} (hb : b ≠ .none) (hD : NamedApart Γ m D) {components : List Field} (hc : MadeFromAll Γ m D components)
    {order : List (Str × List Field) → List (Str × List Field)} (hord : AnyOrder order) {names : List (Str × Str)}
    (hm : makeNames order components [] = .ok names) {types : List (Str × TypeFormat)} (hfmt : ∀ e ∈ types, e.1.getLast? ≠ some '.')
    {schemas : List (Str × Schema)}
    (hsound : ∀ n sch, (n, sch) ∈ schemas → ∃ c ∈ components, ∃ b s0, b ≠ .none ∧ refName names b c.name c.package = some n ∧
      componentToSchema { types := types, names := names } b c = some s0 ∧ sch = withDoc c s0)
    (hcomplete : ∀ c ∈ components, ∀ b n, b ≠ .none → refName names b c.name c.package = some n →
      (componentToSchema { types := types, names := names } b c).isSome = true → n ∈ mkeys schemas)
    {x : TName} (hx : D x) {fs : List (StructField × GoType)} (hu : Γ.underlying x.1 x.2.1 x.2.2 = .struct fs)
    (hq : KindStruct b.toStr fs) (hreg : registeredFormat types (finalPackage m x.1) x.2.1 = none) :
    ∃ n, refName names b x.2.1 (finalPackage m x.1) = some n ∧ (∃ e, (n, e) ∈ schemas) ∧
      ∀ sch, (n, sch) ∈ schemas → ∀ k u, (k, u) ∈ sch.properties ↔
        ∃ e ∈ fs, e.1.exported = true ∧ NamedBy b.toStr e.1 k ∧ TypeSchema (fun _ _ => none) e.2 u := by
  obtain ⟨n1, n2, n3, n4, n5⟩ := hD.names x hx
  obtain ⟨c, hcm, hfind, hcp, hcn, c3, c6⟩ := bound_component hD hc names b hx hu hq.names hq.types
  have hmap : ∀ c : Field, c.package = finalPackage m x.1 → c.name = x.2.1 →
      ({ types := types, names := names } : SchemaEnv).mapping c.name c.package = none := by
    intro c hp hn
    rw [hp, hn, mapping_registered n4]
    exact hreg
  have hmem : ∀ e ∈ fs.filter (fun e => e.1.exported), e ∈ fs ∧ e.1.exported = true := by
    intro e he
    have := List.mem_filter.mp he
    exact ⟨this.1, by simpa using this.2⟩
  obtain ⟨s, hs1, _⟩ := kind_struct_schema hb hq (E := { types := types, names := names }) c3 (hmap c hcp hcn) (fun q => mapping_nameless hfmt q) c6
  have hname := kind_name hb hD hc hord hm hcm (by
    intro z hz
    obtain ⟨e, he, hfe⟩ := fieldsFor_to c6 z hz
    rw [hfe.tags]
    exact kind_bound hb (hq.tags e (hmem e he).1 (hmem e he).2))
  rw [hcp, hcn] at hname
  obtain ⟨n, hn⟩ := Option.isSome_iff_exists.mp hname
  refine ⟨n, hn, ?_, ?_⟩
  · have := hcomplete c hcm b n hb (by rw [hcp, hcn]; exact hn) (by rw [hs1]; rfl)
    obtain ⟨⟨n', e⟩, he, rfl⟩ := List.mem_map.mp this
    exact ⟨e, he⟩
  -- an entry of this name
  intro sch hsch
  obtain ⟨c', hcm', b', s0, hb', hr', hs', rfl⟩ := hsound n sch hsch
  rw [withDoc_properties]
  have hdots : ∀ c ∈ components, '.' ∉ c.name := by
    intro c hcm
    obtain ⟨y, hy, hmade⟩ := hc.1 c hcm
    rw [(apart_identity hD hy hmade).1]
    exact (hD.names y hy).2.2.1
  have hplain : ∀ c ∈ components, PlainPackage c.package := by
    intro c hcm
    obtain ⟨y, hy, hmade⟩ := hc.1 c hcm
    rw [(apart_identity hD hy hmade).2]
    exact (hD.names y hy).2.2.2.2
  have hsep : Separable (components.map (·.package)) := by
    apply hD.separable
    intro q hq
    obtain ⟨c, hcm, rfl⟩ := List.mem_map.mp hq
    obtain ⟨y, hy, hmade⟩ := hc.1 c hcm
    exact ⟨y, hy, (apart_identity hD hy hmade).2⟩
  obtain ⟨c2, hc2, i1, i2, b2, hb2, k2, hw2⟩ := refName_writes hord hm hdots hplain (hdots c' hcm') (hplain c' hcm').1 hr'
  obtain ⟨c1, hc1, j1, j2, b1, hb1, k1, hw1⟩ := refName_writes hord hm hdots hplain n3 n5.1 hn
  obtain ⟨e1, e2⟩ := writes_name_inj hc1 hc2 hw1 hw2 hsep (hdots c1 hc1) (hdots c2 hc2) (hplain c1 hc1) (hplain c2 hc2)
  have hcn' : c'.name = x.2.1 := by rw [← i1, ← e1, j1]
  have hcp' : c'.package = finalPackage m x.1 := by rw [← i2, ← e2, j2]
  obtain ⟨c3', c6'⟩ := struct_components hD hc names b' hx hu hq.names hq.types hcm' hcp' hcn'
  have hfin : ∀ (b : BTag) (k : Str) (u : Schema), ((∃ e ∈ fs, e.1.exported = true ∧ NamedBy b.toStr e.1 k ∧ TypeSchema (targetOf names m b') e.2 u) ↔
      ∃ e ∈ fs, e.1.exported = true ∧ NamedBy b.toStr e.1 k ∧ TypeSchema (fun _ _ => none) e.2 u) := by
    intro b k u
    constructor
    · rintro ⟨e, h1, h2, h3, h4⟩
      exact ⟨e, h1, h2, h3, query_typeSchema (hq.types e h1 h2) h4⟩
    · rintro ⟨e, h1, h2, h3, h4⟩
      exact ⟨e, h1, h2, h3, query_typeSchema (hq.types e h1 h2) h4⟩
  suffices hN : ∀ e ∈ fs, e.1.exported = true → ∀ g : Field, g.bindingTags = (parseStructTag e.1.name e.1.tag).1 → ∀ k, ShownAs b' g k ↔ NamedBy b.toStr e.1 k by
    intro k u
    rw [shown_struct_schema hq.flat hq.distinct hN c3' (hmap c' hcp' hcn') (fun q => mapping_nameless hfmt q) c6' hs' k u]
    exact hfin b k u
  by_cases hbb : b' = b
  · subst hbb
    intro e he hex g hg k
    exact kind_shown_iff hb (hq.tags e he hex) (hq.named e he hex) hg k
  -- no field has two different bindings
  have hfew : ∀ e ∈ fs, e.1.exported = true → ∀ p ∈ (parseStructTag e.1.name e.1.tag).1, ∀ p' ∈ (parseStructTag e.1.name e.1.tag).1, p.2 = p'.2 := by
    intro e he hex p hp p' hp'
    refine Decidable.byContradiction (fun hne => ?_)
    have hef : e ∈ fs.filter (fun e => e.1.exported) := List.mem_filter.mpr ⟨he, by simpa using hex⟩
    have huniq : ∀ c ∈ components, c.package = finalPackage m x.1 → c.name = x.2.1 → (extractBindingTags c.structFields).2 = true := by
      intro c hcm hp0 hn0
      obtain ⟨_, c6⟩ := struct_components hD hc names b hx hu hq.names hq.types hcm hp0 hn0
      refine ((extractBindingTags_exact c.structFields).2.2.2 ?_).mpr ?_
      · intro z hz
        obtain ⟨e', he', hfe⟩ := fieldsFor_to c6 z hz
        rw [hfe.tags]
        exact parseStructTag_no_zero _ _ (hq.named e' (hmem e' he').1 (hmem e' he').2)
      · obtain ⟨z, hz, hfe⟩ := fieldsFor_from c6 e hef
        exact ⟨z, hz, p, by rw [hfe.tags]; exact hp, p', by rw [hfe.tags]; exact hp', hne⟩
    -- the field has a tag for the binding
    obtain ⟨pb, hpb, hpb'⟩ := kind_bound hb (hq.tags e he hex)
    have hkind : ∃ t, (b, t) ∈ (parseStructTag e.1.name e.1.tag).1 := by
      rcases hpb' with h | h
      · exact ⟨pb.2, by rw [← h]; exact hpb⟩
      · exfalso
        have hl : ∀ b : BTag, b ≠ .none → lookupTag e.1.tag b.toStr = none := by
          intro b0 hb0
          cases hl : lookupTag e.1.tag b0.toStr with
          | none => rfl
          | some v =>
            have := (parseStructTag_unbound e.1.name e.1.tag).2.2 ⟨b0, hb0, by rw [hl]; simp⟩
            have hm' : (BTag.none, pb.2) ∈ (parseStructTag e.1.name e.1.tag).1 := by rw [← h]; exact hpb
            rw [(binding_mem_iff _ _ _ _).mp hm'] at this
            cases this
        have hT := (parseStructTag_unbound e.1.name e.1.tag).2.1.mp hl
        rw [hT] at hp hp'
        rw [List.mem_singleton] at hp hp'
        exact hne (by rw [hp, hp'])
    obtain ⟨t, ht⟩ := hkind
    have hk1 : ∃ c1 ∈ components, c1.package = finalPackage m x.1 ∧ c1.name = x.2.1 ∧ ∃ k, Astra.Writes components c1 b k n := by
      obtain ⟨s1, s2⟩ := makeNames_spec hord hm
      obtain ⟨z, hz, hfe⟩ := fieldsFor_from c6 e hef
      have hin : b ∈ (extractBindingTags c.structFields).1 := (kindOf_iff c b).mpr (Or.inl ⟨z, hz, (b, t), by rw [hfe.tags]; exact ht, rfl⟩)
      have := s2 c hcm b hin
      rw [hcp, hcn] at this
      obtain ⟨n', hn'⟩ := Option.isSome_iff_exists.mp this
      have hnn : n' = n := by
        unfold refName at hn
        rw [hn'] at hn
        exact Option.some.inj hn
      subst hnn
      obtain ⟨c1, hc1, b1, hw⟩ := s1 _ _ hn'
      obtain ⟨q1, q2, q3⟩ := collisionSafeKey_inj hw.2.1 n3 (hdots c1 hc1) n5.1 (hplain c1 hc1).1
      subst q1
      exact ⟨c1, hc1, q3.symm, q2.symm, _, hw⟩
    obtain ⟨c1, hc1, p1, p2, k1, hw1⟩ := hk1
    have a1 := safeName_eq hw1.2.2
    have a2 := safeName_eq hw2.2.2
    rw [huniq c1 hc1 p1 p2, p1, p2] at a1
    rw [huniq c2 hc2 (by rw [i2, hcp']) (by rw [i1, hcn']), i2, hcp', i1, hcn'] at a2
    simp only [if_true] at a1 a2
    rw [a1] at a2
    obtain ⟨a3, _⟩ := append_sep_inj a2 n3 n3
    obtain ⟨_, a4⟩ := append_sep_inj a3 (toStr_no_dot _) (toStr_no_dot _)
    have a5 := toStr_inj a4
    rcases hb2 with h | h
    · exact hbb (by rw [← h, ← a5])
    · exact hb (by rw [a5, h])
  -- every field has a binding for the other kind, or no tags
  have hall : ∀ z ∈ c'.structFields, fieldBinding z.2 b' ≠ none := by
    intro z hz hno
    rw [componentToSchema_eq, hmap c' hcp' hcn'] at hs'
    simp only [Option.isSome_none, Bool.false_eq_true, if_false, c3', if_true] at hs'
    rw [structLoop_unbound _ _ (by
      intro z hz
      obtain ⟨e, he, hfe⟩ := fieldsFor_to c6' z hz
      rw [hfe.embedded]
      exact hq.flat e (hmem e he).1) ⟨z, hz, hno⟩] at hs'
    cases hs'
  intro e he hex g hg k
  rw [← kind_shown_iff hb (hq.tags e he hex) (hq.named e he hex) hg k]
  refine shown_same (hfew e he hex) (parseStructTag_no_zero _ _ (hq.named e he hex)) ?_ hb hb' hg k
  obtain ⟨pairs, htt, htag⟩ := hq.tags e he hex
  rcases htag with ⟨v, hv, _⟩ | hnone
  · right
    have hl : lookupTag e.1.tag b.toStr = some v := by rw [← hv]; exact lookup_tagValue htt _
    obtain ⟨t, a1, _⟩ := parseStructTag_binding e.1.name e.1.tag v b hb hl
    have hnn := (parseStructTag_unbound e.1.name e.1.tag).2.2 ⟨b, hb, by rw [hl]; simp⟩
    refine ⟨⟨t, (binding_mem_iff _ _ _ _).mpr a1⟩, ?_⟩
    obtain ⟨z, hz, hfe⟩ := fieldsFor_from c6' e (List.mem_filter.mpr ⟨he, by simpa using hex⟩)
    have := hall z hz
    unfold fieldBinding at this
    rw [hfe.tags, hnn] at this
    cases hg' : aget (parseStructTag e.1.name e.1.tag).1 b' with
    | none => rw [hg'] at this; simp at this
    | some t' => exact ⟨t', (binding_mem_iff _ _ _ _).mpr hg'⟩
  · left
    have hT := (parseStructTag_unbound e.1.name e.1.tag).2.1.mp (by
      intro b hb
      rw [lookup_tagValue htt]
      exact hnone _ (key_mem hb))
    rw [hT]
    intro p hp
    rw [List.mem_singleton.mp hp]

end

/-! ### The names of the encoders -/

theorem tagged_value {f : StructField} {pairs pairs' : List (Str × Str)} (h : TagText f.tag pairs) (h' : TagText f.tag pairs') (key : Str) :
    tagValue pairs' key = tagValue pairs key := by
  rw [← lookup_tagValue h', lookup_tagValue h]

theorem namedBy_unique {key : Str} {f : StructField} {k k' : Str} (h : NamedBy key f k) (h' : NamedBy key f k') : k = k' := by
  cases h with
  | untagged t e =>
    cases h' with
    | untagged _ _ => rfl
    | unnamed _ _ _ => rfl
    | tagged t' e' _ _ _ => rw [tagged_value t t', e] at e'; cases e'
  | unnamed t e hs =>
    cases h' with
    | untagged _ _ => rfl
    | unnamed _ _ _ => rfl
    | tagged t' e' _ hs' h0 => rw [tagged_value t t', e] at e'; cases e'; rw [hs] at hs'; cases hs'; exact absurd rfl h0
  | tagged t e _ hs h0 =>
    cases h' with
    | untagged t' e' => rw [tagged_value t t', e] at e'; cases e'
    | unnamed t' e' hs' => rw [tagged_value t t', e] at e'; cases e'; rw [hs] at hs'; cases hs'; exact absurd rfl h0
    | tagged t' e' _ hs' _ => rw [tagged_value t t', e] at e'; cases e'; rw [hs] at hs'; cases hs'; rfl

/-- The name of a field in a body is the one that its tags give it; in YAML, if the tag gives it one. -/
theorem member_named {kind : BodyKind} {f : StructField} {k : Str} (h : MemberName kind f k) :
    NamedBy kind.key f k ∨ (kind = .yaml ∧ ¬ TagNames c!"yaml" f ∧ k = f.name.map Char.toLower) := by
  cases kind with
  | json =>
    obtain ⟨opts, h⟩ := h
    cases h with
    | untagged t e => exact Or.inl (.untagged t e)
    | tagged t e hv hs h0 _ => exact Or.inl (.tagged t e hv hs h0)
    | unnamed t e hs => exact Or.inl (.unnamed t e hs)
  | xml =>
    cases h with
    | untagged t e => exact Or.inl (.untagged t e)
    | tagged t e hv hs h0 _ _ _ => exact Or.inl (.tagged t e hv hs h0)
    | unnamed t e hs _ => exact Or.inl (.unnamed t e hs)
  | yaml =>
    cases h with
    | untagged t _ e _ =>
      refine Or.inr ⟨rfl, ?_, rfl⟩
      rintro ⟨pairs', v, name, opts, t', e', _⟩
      rw [tagged_value t t', e] at e'
      cases e'
    | tagged t e hv hs h0 _ => exact Or.inl (.tagged t e hv hs h0)
    | unnamed t e hs _ _ =>
      refine Or.inr ⟨rfl, ?_, rfl⟩
      rintro ⟨pairs', v, name, opts, t', e', _, hs', h0⟩
      rw [tagged_value t t', e] at e'
      cases e'
      rw [hs] at hs'
      cases hs'
      exact h0 rfl

theorem lower_not_upper (s : Str) : ∀ c ∈ s.map Char.toLower, c.isUpper = false := by
  intro c hc
  obtain ⟨d, _, rfl⟩ := List.mem_map.mp hc
  unfold Char.toLower Char.isUpper
  split
  · rename_i h
    rw [Bool.eq_false_iff]
    intro hle
    have hle : 65 ≤ (d.val + 32).toNat ∧ (d.val + 32).toNat ≤ 90 := by simpa [UInt32.le_iff_toNat_le] using hle
    have h1 : 65 ≤ d.val.toNat ∧ d.val.toNat ≤ 90 := by simpa [UInt32.le_iff_toNat_le] using h
    have h2 : (d.val + 32).toNat = d.val.toNat + 32 := by
      rw [UInt32.toNat_add]
      exact Nat.mod_eq_of_lt (by show d.val.toNat + 32 < 4294967296; omega)
    omega
  · rename_i h
    rw [Bool.eq_false_iff]
    intro hle
    exact h (by simpa using hle)

/-- A field whose tag does not name it is not described under its YAML key. -/
theorem yaml_unnamed {fs : List (StructField × GoType)} (hp : YamlProper fs) {e e' : StructField × GoType} (he : e ∈ fs) (he' : e' ∈ fs)
    (hx : e.1.exported = true) (hx' : e'.1.exported = true) (hn : ¬ TagNames c!"yaml" e.1) {k : Str} (hk : YamlKey e.1 k) :
    ¬ NamedBy c!"yaml" e'.1 k := by
  intro hd
  have hlow : k = e.1.name.map Char.toLower := by
    cases hk with
    | untagged _ _ _ _ => rfl
    | unnamed _ _ _ _ _ => rfl
    | tagged t ev hv hs h0 _ => exact absurd ⟨_, _, _, _, t, ev, hv, hs, h0⟩ hn
  have hup : k ≠ e'.1.name := by
    intro h
    obtain ⟨c, hc, hu⟩ := hp.capital e' he' hx'
    rw [← h, hlow] at hc
    rw [lower_not_upper _ c hc] at hu
    cases hu
  obtain ⟨k', hk'⟩ := hp.keys e' he' hx' k hd
  cases hd with
  | untagged _ _ => exact hup rfl
  | unnamed _ _ _ => exact hup rfl
  | tagged t ev hv hs h0 =>
    rcases member_named (kind := .yaml) hk' with h | ⟨_, h, _⟩
    · have : k' = k := namedBy_unique (key := c!"yaml") h (.tagged t ev hv hs h0)
      subst this
      have := hp.distinct e he e' he' hx hx' k' hk hk'
      subst this
      exact hn ⟨_, _, _, _, t, ev, hv, hs, h0⟩
    · exact h ⟨_, _, _, _, t, ev, hv, hs, h0⟩

/-- What the schema says of the members of a body. -/
theorem body_told {schemas : List (Str × Schema)} {kind : BodyKind} {fs : List (StructField × GoType)} {n : Str} (hq : KindStruct kind.key fs)
    (hfound : ∃ e, (n, e) ∈ schemas)
    (h : ∀ sch, (n, sch) ∈ schemas → ∀ k u, (k, u) ∈ sch.properties ↔
      ∃ e ∈ fs, e.1.exported = true ∧ NamedBy kind.key e.1 k ∧ TypeSchema (fun _ _ => none) e.2 u) :
    BodyTold schemas kind fs { ref := c!"#/components/schemas/" ++ n } n where
  ref := rfl
  found := hfound
  told := by
    intro sch hs e he hx k hk hy
    obtain ⟨u, hu⟩ := query_typed (target := fun _ _ => none) (hq.types e he hx)
    rcases member_named hk with h' | ⟨h1, h2, _⟩
    · exact ⟨u, (h sch hs k u).mpr ⟨e, he, hx, h', hu⟩, hu⟩
    · exact absurd (hy h1) h2
  named := by
    intro sch hs e he hx k hk
    obtain ⟨u, hu⟩ := query_typed (target := fun _ _ => none) (hq.types e he hx)
    exact ⟨u, (h sch hs k u).mpr ⟨e, he, hx, hk, hu⟩, hu⟩
  only := fun sch hs k u hku => (h sch hs k u).mp hku
  untold := by
    rintro rfl hp sch hs e he hx hn k hk u hku
    obtain ⟨e', he', hx', hk', _⟩ := (h sch hs k u).mp hku
    exact yaml_unnamed hp he he' hx hx' hn hk hk'

/-! ### What a call contributes -/

theorem status_unique {args : List ArgView} {i : Nat} {a b : Int} (h : IsStatus args i a) (h' : IsStatus args i b) : a = b := by
  obtain ⟨x, s, h1, h2, h3⟩ := h
  obtain ⟨y, s', k1, k2, k3⟩ := h'
  rw [h1] at k1; cases k1
  rw [h2] at k2; cases k2
  rw [h3] at k3; cases k3
  rfl

theorem response_source {Γ : TypeEnv} {pkg m : Str} {args : List ArgView} {e : Entry} (hd : Documented Γ pkg args m e) (kind : BodyKind) {rt : ReturnType}
    (hr : rt ∈ e.responses) (hct : rt.contentType = kind.contentType) :
    m ∈ kind.senders ∧ IsStatus args 0 rt.statusCode ∧ IsField Γ pkg args 1 rt.field := by
  cases hd with
  | json k hs hf =>
    rw [List.mem_singleton.mp hr] at hct ⊢
    dsimp only at hct
    cases kind
    · exact ⟨k, hs, hf⟩
    · exact absurd hct (by decide)
    · exact absurd hct (by decide)
  | xml hs hf | yaml hs hf =>
    rw [List.mem_singleton.mp hr] at hct ⊢
    dsimp only at hct
    cases kind <;> first | exact absurd hct (by decide) | exact ⟨by decide, hs, hf⟩
  | protobuf hs hf =>
    rw [List.mem_singleton.mp hr] at hct
    dsimp only at hct
    cases kind <;> exact absurd hct (by decide)
  | string hs =>
    rw [List.mem_singleton.mp hr] at hct
    dsimp only at hct
    cases kind <;> exact absurd hct (by decide)
  | status _ hs =>
    rw [List.mem_singleton.mp hr] at hct
    dsimp only at hct
    cases kind <;> exact absurd hct (by decide)
  | _ => cases hr

theorem response_sent {Γ : TypeEnv} {pkg m : Str} {args : List ArgView} {e : Entry} (hd : Documented Γ pkg args m e) (kind : BodyKind)
    (hm : m ∈ kind.senders) {code : Int} (hcode : IsStatus args 0 code) :
    ∃ rt ∈ e.responses, rt.contentType = kind.contentType ∧ rt.statusCode = code := by
  have hall : ∀ kind : BodyKind, ∀ m ∈ kind.senders, m ∈ [c!"JSON", c!"AbortWithStatusJSON", c!"XML", c!"YAML"] := by
    intro kind; cases kind <;> decide
  cases hd with
  | json k hs hf =>
    refine ⟨_, List.mem_singleton.mpr rfl, ?_, status_unique hs hcode⟩
    cases kind
    · rfl
    · exact absurd hm (by intro h; simp only [BodyKind.senders, List.mem_singleton] at h; subst h; exact absurd k (by decide))
    · exact absurd hm (by intro h; simp only [BodyKind.senders, List.mem_singleton] at h; subst h; exact absurd k (by decide))
  | xml hs hf | yaml hs hf =>
    refine ⟨_, List.mem_singleton.mpr rfl, ?_, status_unique hs hcode⟩
    cases kind <;> first | exact absurd hm (by decide) | rfl
  | status k | query k | queryArray k | queryMap k | bindJSON k | bindXML k | bindYAML k | bindHeader k | postForm k | postFormArray k | postFormMap k
  | bindQuery k | bind k =>
    have := hall kind _ hm
    simp only [List.mem_cons, List.not_mem_nil, or_false] at this
    rcases this with rfl | rfl | rfl | rfl <;> exact absurd k (by decide)
  | _ => exact absurd (hall kind _ hm) (by decide)

theorem body_source {Γ : TypeEnv} {pkg m : Str} {args : List ArgView} {e : Entry} (hd : Documented Γ pkg args m e) (kind : BodyKind) {bp : BodyParam}
    (hb : bp ∈ e.body) (hct : bp.contentType = kind.contentType) : bp.name = [] ∧ m ∈ kind.binders ∧ IsField Γ pkg args 0 bp.field := by
  cases hd with
  | bind k hf =>
    obtain ⟨ct, _, rfl⟩ := List.mem_map.mp hb
    refine ⟨rfl, ?_, hf⟩
    simp only [List.mem_cons, List.not_mem_nil, or_false] at k
    rcases k with rfl | rfl <;> cases kind <;> decide
  | bindJSON k hf | bindXML k hf | bindYAML k hf =>
    rw [List.mem_singleton.mp hb] at hct ⊢
    dsimp only at hct
    simp only [List.mem_cons, List.not_mem_nil, or_false] at k
    cases kind <;> first | exact absurd hct (by decide) | (refine ⟨rfl, ?_, hf⟩; rcases k with rfl | rfl <;> decide)
  | postForm k _ | postFormArray k _ | postFormMap k _ =>
    rw [List.mem_singleton.mp hb] at hct
    dsimp only at hct
    cases kind <;> exact absurd hct (by decide)
  | formFile _ =>
    rw [List.mem_singleton.mp hb] at hct
    dsimp only at hct
    cases kind <;> exact absurd hct (by decide)
  | _ => cases hb

theorem body_bound {Γ : TypeEnv} {pkg m : Str} {args : List ArgView} {e : Entry} (hd : Documented Γ pkg args m e) (kind : BodyKind)
    (hm : m ∈ kind.binders) : ∃ bp ∈ e.body, bp.contentType = kind.contentType := by
  have hall : ∀ kind : BodyKind, ∀ m ∈ kind.binders,
      m ∈ [c!"BindJSON", c!"ShouldBindJSON", c!"BindXML", c!"ShouldBindXML", c!"BindYAML", c!"ShouldBindYAML", c!"Bind", c!"ShouldBind"] := by
    intro kind; cases kind <;> decide
  cases hd with
  | bind k hf => cases kind <;> exact ⟨_, List.mem_map.mpr ⟨_, by decide, rfl⟩, rfl⟩
  | bindJSON k hf | bindXML k hf | bindYAML k hf =>
    refine ⟨_, List.mem_singleton.mpr rfl, ?_⟩
    simp only [List.mem_cons, List.not_mem_nil, or_false] at k
    cases kind <;> rcases k with rfl | rfl <;> first | rfl | exact absurd hm (by decide)
  | json k | status k | query k | queryArray k | queryMap k | bindHeader k | postForm k | postFormArray k | postFormMap k | bindQuery k =>
    have := hall kind _ hm
    simp only [List.mem_cons, List.not_mem_nil, or_false] at this
    rcases this with rfl | rfl | rfl | rfl | rfl | rfl | rfl | rfl <;> exact absurd k (by decide)
  | _ => exact absurd (hall kind _ hm) (by decide)

/-! ### The operation -/

theorem kind_sent {Γ : TypeEnv} {SE : SchemaEnv} {cs : List Field} {ch : RouteChoice} {m path : Str} {es : List Entry} {n : Nat} {R : Route}
    {C : Str → Str → List ArgView → Prop} (G : Gathered es path (n + 1) R) (kind : BodyKind)
    (hfrom : ∀ e ∈ es, ∃ pkg mm args, C pkg mm args ∧ Documented Γ pkg args mm e)
    (hto : ∀ pkg mm args, C pkg mm args → mm ∈ supportedMethods → ∃ e ∈ es, Documented Γ pkg args mm e)
    {t : GoType} {S : Schema} (hS : S ≠ {})
    (hmap : ∀ c c' pkg r, Translates Γ c (some pkg) t (c', .ok r) → mapFieldToSchema SE (bodyTag kind) (cleanField m (parseResultToField r)) = some S)
    {code : Int} (hsome : ∃ pkg mm args, C pkg mm args ∧ mm ∈ kind.senders ∧ IsStatus args 0 code)
    (hone : ∀ pkg mm args a t', C pkg mm args → mm ∈ kind.senders → IsStatus args 0 code → args[1]? = some a → a.type = .ok t' → t' = t) :
    ∃ resp, mget (operationOf SE cs ch (cleanRoute m R)).responses (itoa code) = some resp ∧ mget resp.content kind.contentType = some S := by
  obtain ⟨h1, h2⟩ := responses_exact_partial SE cs ch (cleanRoute m R)
  have hall : ∀ rt ∈ (cleanRoute m R).returnTypes, rt.statusCode = code → rt.contentType = kind.contentType → returnSchema SE rt = some S := by
    intro rt hrt hcode hct
    obtain ⟨y, hy, rfl⟩ := List.mem_map.mp hrt
    obtain ⟨e, he, hye⟩ := G.source y hy
    simp only at hcode hct
    obtain ⟨pkg, mm, args, hC, hdoc⟩ := hfrom e he
    obtain ⟨hm, hst, a, t', c, c', r, ha, hat, htr, hf⟩ := response_source hdoc kind hye hct
    rw [hcode] at hst
    have := hone pkg mm args a t' hC hm hst ha hat
    subst this
    unfold returnSchema
    simp only
    rw [hct, (bodyTag_facts kind).2.2, hf]
    exact hmap _ _ _ _ htr
  obtain ⟨pkg, mm, args, hC, hm, hst⟩ := hsome
  obtain ⟨e, he, hdoc⟩ := hto pkg mm args hC (by
    have : ∀ kind : BodyKind, ∀ mm ∈ kind.senders, mm ∈ supportedMethods := by intro kind; cases kind <;> decide
    exact this kind mm hm)
  obtain ⟨rt, hrt, hj, hcode⟩ := response_sent hdoc kind hm hst
  obtain ⟨y, hy, hy1, hy2⟩ := G.responses (Nat.succ_pos n) e he rt hrt
  have hy' : ({ y with field := cleanField m y.field } : ReturnType) ∈ (cleanRoute m R).returnTypes := List.mem_map.mpr ⟨y, hy, rfl⟩
  have hk := (h1 (itoa code)).mpr ⟨_, hy', by simp only; rw [hy1, hcode]⟩
  obtain ⟨resp, hresp⟩ := Option.isSome_iff_exists.mp (mget_isSome_iff.mpr hk)
  refine ⟨resp, hresp, ?_⟩
  have hc := h2 code kind.contentType
  unfold contentAt at hc
  rw [hresp] at hc
  simp only [Option.bind_some] at hc
  have k2 := hall _ hy' (by simp only; rw [hy1, hcode]) (by simp only; rw [hy2, hj])
  have hmem : ({ y with field := cleanField m y.field } : ReturnType) ∈ (cleanRoute m R).returnTypes.filter (fun rt => rt.statusCode = code ∧
      rt.contentType = kind.contentType ∧ returnSchema SE rt ≠ none ∧ returnSchema SE rt ≠ some {}) := by
    rw [List.mem_filter]
    refine ⟨hy', ?_⟩
    rw [k2]
    simp only [decide_eq_true_eq]
    exact ⟨by rw [hy1, hcode], by rw [hy2, hj], by simp, fun h => hS (Option.some.inj h)⟩
  obtain ⟨z, hz⟩ : ∃ z, ((cleanRoute m R).returnTypes.filter (fun rt => rt.statusCode = code ∧
      rt.contentType = kind.contentType ∧ returnSchema SE rt ≠ none ∧ returnSchema SE rt ≠ some {})).getLast? = some z := by
    rw [← Option.isSome_iff_exists, List.getLast?_isSome]
    exact List.ne_nil_of_mem hmem
  have hz' := List.mem_of_getLast? hz
  rw [List.mem_filter] at hz'
  obtain ⟨hz1, hz2⟩ := hz'
  simp only [decide_eq_true_eq] at hz2
  rw [hz, Option.bind_some, hall z hz1 hz2.1 hz2.2.1] at hc
  exact hc

theorem kind_read {Γ : TypeEnv} {SE : SchemaEnv} {cs : List Field} {ch : RouteChoice} {m path : Str} {es : List Entry} {n : Nat} {R : Route}
    {C : Str → Str → List ArgView → Prop} (G : Gathered es path (n + 1) R) (kind : BodyKind)
    (hfrom : ∀ e ∈ es, ∃ pkg mm args, C pkg mm args ∧ Documented Γ pkg args mm e)
    (hto : ∀ pkg mm args, C pkg mm args → mm ∈ supportedMethods → ∃ e ∈ es, Documented Γ pkg args mm e)
    {t : GoType} {S : Schema}
    (hmap : ∀ c c' pkg r, Translates Γ c (some pkg) t (c', .ok r) → mapFieldToSchema SE (bodyTag kind) (cleanField m (parseResultToField r)) = some S)
    (hsome : ∃ pkg mm args, C pkg mm args ∧ mm ∈ kind.binders)
    (hone : ∀ pkg mm args a t', C pkg mm args → mm ∈ kind.binders → args[0]? = some a → a.type = .ok t' → t' = t) :
    ∃ content, (operationOf SE cs ch (cleanRoute m R)).requestBody = some content ∧ mget content kind.contentType = some S := by
  obtain ⟨h1, _⟩ := request_body_exact SE cs ch (cleanRoute m R)
  have hall : ∀ bp ∈ (cleanRoute m R).body, bp.contentType = kind.contentType → bp.name = [] ∧ bodyParamSchema SE bp = some S := by
    intro bp hbp hct
    obtain ⟨y, hy, rfl⟩ := List.mem_map.mp hbp
    obtain ⟨e, he, hye⟩ := G.mem_body.mp hy
    simp only at hct
    obtain ⟨pkg, mm, args, hC, hdoc⟩ := hfrom e he
    obtain ⟨hn, hm, a, t', c, c', r, ha, hat, htr, hf⟩ := body_source hdoc kind hye hct
    have := hone pkg mm args a t' hC hm ha hat
    subst this
    refine ⟨hn, ?_⟩
    unfold bodyParamSchema
    simp only
    rw [hct, (bodyTag_facts kind).2.2, hf]
    exact hmap _ _ _ _ htr
  obtain ⟨pkg, mm, args, hC, hm⟩ := hsome
  obtain ⟨e, he, hdoc⟩ := hto pkg mm args hC (by
    have : ∀ kind : BodyKind, ∀ mm ∈ kind.binders, mm ∈ supportedMethods := by intro kind; cases kind <;> decide
    exact this kind mm hm)
  obtain ⟨bp, hbp, hj⟩ := body_bound hdoc kind hm
  have hy' : ({ bp with field := cleanField m bp.field } : BodyParam) ∈ (cleanRoute m R).body :=
    List.mem_map.mpr ⟨bp, G.mem_body.mpr ⟨e, he, hbp⟩, rfl⟩
  obtain ⟨hn, k2⟩ := hall _ hy' hj
  have hc := h1 kind.contentType
  have hin : ∃ s, (kind.contentType, s) ∈ (cleanRoute m R).body.filterMap (fun bp => (bodyParamSchema SE bp).map (fun s =>
      (bp.contentType, if bp.name = [] then s else ({ type := c!"object", properties := [(bp.name, s)] } : Schema)))) := by
    refine ⟨S, ?_⟩
    rw [List.mem_filterMap]
    refine ⟨_, hy', ?_⟩
    rw [k2]
    simp only [Option.map_some]
    rw [if_pos hn, hj]
  obtain ⟨s, hs⟩ := Option.isSome_iff_exists.mp (lastFor_some_iff.mpr hin)
  rw [hs] at hc
  have hm := lastFor_mem hs
  rw [List.mem_filterMap] at hm
  obtain ⟨bp', hb1, hb2⟩ := hm
  rw [Option.map_eq_some_iff] at hb2
  obtain ⟨s1, hb3, hb4⟩ := hb2
  obtain ⟨hb5, hb6⟩ := Prod.mk.inj hb4
  obtain ⟨hn', j2⟩ := hall bp' hb1 hb5
  rw [hb3] at j2
  cases j2
  rw [if_pos hn'] at hb6
  subst hb6
  cases hr : (operationOf SE cs ch (cleanRoute m R)).requestBody with
  | none => rw [hr] at hc; cases hc
  | some content =>
    rw [hr] at hc
    exact ⟨content, rfl, hc⟩

/-- The schema of an argument that is a struct, or points to one. -/
theorem base_schema {Γ : TypeEnv} {m : Str} {SE : SchemaEnv} {b : BTag} {t : GoType} {x : TName} (hb : Base t x)
    (hn : x.2.1 ∉ reserved ∧ x.2.1 ≠ c!"array" ∧ '.' ∉ x.2.1 ∧ x.2.1 ≠ [] ∧ x.1 ≠ []) {n : Str}
    (hr : refName SE.names b x.2.1 (finalPackage m x.1) = some n) (c c' : List Field) (pkg : Str) (r : Result)
    (h : Translates Γ c (some pkg) t (c', .ok r)) :
    mapFieldToSchema SE b (cleanField m (parseResultToField r)) = some { ref := c!"#/components/schemas/" ++ n } := by
  obtain ⟨hs, _, _⟩ := base_field (m := m) hb hn h
  have hocc : ∀ z, Occurs t z → z = x := by
    intro z hz
    cases hb with
    | value => cases hz; rfl
    | pointer => cases hz with | pointer h => cases h; rfl
  obtain ⟨s, h1, h2⟩ := body_of_type (Γ := Γ) (m := m) (SE := SE) (b := b) (.single hs) (by intro ha; cases hb <;> exact ha) h (by
    intro z hz
    rw [hocc z hz]
    show (refName SE.names b x.2.1 (finalPackage m x.1)).isSome = true
    rw [hr]
    rfl)
  rw [h2]
  have key : ∀ {p n' a : Str}, (p, n', a) = x → TypeSchema (targetOf SE.names m b) (.named (some p) n' a) s → s = { ref := c!"#/components/schemas/" ++ n } := by
    rintro p n' a rfl hs
    cases hs with
    | named ht =>
      have ht : refName SE.names b n' (finalPackage m p) = _ := ht
      rw [hr] at ht
      cases ht
      rfl
  have : s = { ref := c!"#/components/schemas/" ++ n } := by
    cases hb with
    | value => exact key rfl h1
    | pointer => cases h1 with | pointer h1 => exact key rfl h1
  rw [this]
  rfl

/-- C111: a service with gin routers and an OpenAPI output, as in C83, and a run that succeeds. If the values that the handler sends in one format with
one status code are structs of one type, the response is described by a reference to a schema of the document whose properties are exactly the fields
of the struct, under the names that the tags for the format give them; and the same for the structs that the handler reads bodies into. So the
document tells the names that JSON members and XML elements have. Violated for YAML: a field whose tag does not name it is written in lower case, and
no property of the schema has this name; and for XML attributes, text and paths, which are described as elements. Missing: structs with embedded
structs or with fields that have tags for other formats only (no schema is made for the format, C112), fields of defined types, of slices of bytes and of maps. -/
theorem run_body_names_partial (L : Lib) (E : ParseCtx → RouteEnv) (hE : ByModel L E) (U : FPath → Prop) (hL : Tame L U) (getwd : Str) (φ : Faults)
    (w w' : World Proc) (d : FPath)
    (hd : DirAt w.cwd w.st.svc.workDir d) (hg : resolve w.cwd getwd = some w.cwd) (hnames : ProperNames w.fs) (hc : ∀ x ∈ w.cwd, '/' ∉ x)
    (routers : List (List RouteInfo)) (hin : Each GinInput w.st.svc.inputs routers) (hroutes : w.st.svc.routes = [])
    (hnd : DistinctRoutes (allowed w.st.svc.denyList routers.flatten))
    (before after : List Output) (o : Output) (hout : w.st.svc.outputs = before ++ o :: after) (hown : OwnCells w.st.svc.outputs)
    (hbefore : ∀ b ∈ before, Plain b) (loc : Nat) (ho : o.generate = .openapi loc) (q : FPath) (hq : OutputPlace d w.st.svc o.generate q)
    (hplace : OwnPlace w.cwd d w.st.svc after q) (hU : ¬ U q)
    (hcomp : w.st.svc.components = []) (hnm : w.st.names = []) (hord : AnyOrder L.choices.groups)
    (hfmt : ∀ e ∈ w.st.svc.maps.merged, e.1.getLast? ≠ some '.')
    (Γ : TypeEnv) (D : TName → Prop) (hT : TypedProgram E Γ D)
    (h : Astra.parseAll L getwd φ w = (w', .ok ())) :
    ∃ m rs cs doc text, RunResult L w.st.svc (workDirAfter getwd w.st.svc) routers m rs cs ∧ w'.fs.look q = some (.file text) ∧
      L.render (isYaml (withExtension [c!".json", c!".yaml", c!".yml"] (w.st.svc.cells.getD loc []))) doc = .ok text ∧
      (NamedApart Γ m D →
        ∀ i ∈ allowed w.st.svc.denyList routers.flatten, i.method ∈ documentedMethods →
          (∀ j ∈ allowed w.st.svc.denyList routers.flatten, openapiPath j.path = openapiPath i.path → j.method = i.method → j = i) →
          ∃ (relative : Str) (mains : List Str), L.rel i.file = .ok relative ∧ mains.length = routers.length ∧ ∀ (comment id : Str) (es : List Entry),
            (∀ main ∈ mains, HandlerView (E { workDir := workDirAfter getwd w.st.svc, mainPkg := main, customFuncs := w.st.svc.customFuncs })
              i.handler relative i.line comment id es) →
            ∃ op, Document.operation doc (openapiPath i.path) i.method = some op ∧
              ∀ (kind : BodyKind) t fs, StructTarget Γ w.st.svc.maps.merged m t fs → KindStruct kind.key fs →
                (∀ code, (∃ main ∈ mains, HandlerSendsAs (E { workDir := workDirAfter getwd w.st.svc, mainPkg := main, customFuncs := w.st.svc.customFuncs })
                    i.handler relative i.line kind code t) →
                  (∀ main ∈ mains, ∀ t', HandlerSendsAs (E { workDir := workDirAfter getwd w.st.svc, mainPkg := main, customFuncs := w.st.svc.customFuncs })
                    i.handler relative i.line kind code t' → t' = t) →
                  ∃ resp s n, mget op.responses (itoa code) = some resp ∧ mget resp.content kind.contentType = some s ∧ BodyTold doc.schemas kind fs s n) ∧
                ((∃ main ∈ mains, HandlerCallsWith (E { workDir := workDirAfter getwd w.st.svc, mainPkg := main, customFuncs := w.st.svc.customFuncs })
                    i.handler relative i.line kind.binders t) →
                  (∀ main ∈ mains, ∀ t', HandlerCallsWith (E { workDir := workDirAfter getwd w.st.svc, mainPkg := main, customFuncs := w.st.svc.customFuncs })
                    i.handler relative i.line kind.binders t' → t' = t) →
                  ∃ content s n, op.requestBody = some content ∧ mget content kind.contentType = some s ∧ BodyTold doc.schemas kind fs s n)) := by
  obtain ⟨m, rs, cs1, doc, text, names, hres, h3, h2, h1, hn', hrt, hall⟩ := run_components L E hE U hL getwd φ w w' d hd hg hnames hc routers hin hroutes hnd
    before after o hout hown hbefore loc ho q hq hplace hU hcomp hnm Γ D hT h
  obtain ⟨names', hn'', hsound, hcomplete⟩ := schemas_exact _ _ _ _ h1
  dsimp only at hn'' hsound hcomplete
  rw [hn'] at hn''
  cases hn''
  refine ⟨m, rs, _, doc, text, hres, h3, h2, fun hD i hi hm huniq => ?_⟩
  have hown' := NamedApart.ownTypes hD
  have hroot := hrt hown'
  have hD' := NamedApart.recorded hD hroot
  have hmade := rooted_made hroot m
  obtain ⟨relative, mains, hrel, q0, hpos, hE'⟩ := hall i hi hm huniq
  refine ⟨relative, mains, hrel, q0, fun comment id es hv => ?_⟩
  obtain ⟨⟨n, r', S, op⟩, key⟩ := hE' comment id es hv
  obtain ⟨k, hk⟩ : ∃ k, routers.length = k + 1 := ⟨routers.length - 1, by omega⟩
  rw [hk] at S
  refine ⟨_, op, fun kind t fs htarget hqs => ?_⟩
  obtain ⟨x, hb, harr, hu, hreg⟩ := htarget
  -- the schema, once the type is recorded
  have hschema : Recorded Γ D cs1 x → ∃ n, BodyTold doc.schemas kind fs { ref := c!"#/components/schemas/" ++ n } n ∧
      ∀ c c' pkg r, Translates Γ c (some pkg) t (c', .ok r) →
        mapFieldToSchema { types := w.st.svc.maps.merged, names := names } (bodyTag kind) (cleanField m (parseResultToField r)) =
          some { ref := c!"#/components/schemas/" ++ n } := by
    intro hx
    obtain ⟨b1, b2, _⟩ := bodyTag_facts kind
    obtain ⟨n1, n2, n3, n4, _⟩ := hD'.names x hx
    obtain ⟨n, e1, e2, e3⟩ := kind_entry b1 hD' hmade hord hn' hfmt hsound hcomplete hx hu (by rw [b2]; exact hqs) hreg
    rw [b2] at e3
    exact ⟨n, body_told hqs e2 e3, base_schema (SE := { types := w.st.svc.maps.merged, names := names }) hb ⟨n4, harr, n3, n2, n1⟩ e1⟩
  have hrec : ∀ main ∈ mains, ∀ fileId name f named ctx pkg mm args a (j : Nat),
      HandlerIs (E { workDir := workDirAfter getwd w.st.svc, mainPkg := main, customFuncs := w.st.svc.customFuncs }) i.handler relative i.line fileId name f named →
      ContextParam (E { workDir := workDirAfter getwd w.st.svc, mainPkg := main, customFuncs := w.st.svc.customFuncs }).prog f fileId ctx →
      Calls (E { workDir := workDirAfter getwd w.st.svc, mainPkg := main, customFuncs := w.st.svc.customFuncs }).prog fileId ctx ((E { workDir := workDirAfter getwd w.st.svc, mainPkg := main, customFuncs := w.st.svc.customFuncs }).prog.funcs f).body pkg mm args →
      (∃ cc, ctxCase mm = some cc ∧ cc.ops[j]? = some .expressionResult) → args[j]? = some a → a.type = .ok t → Recorded Γ D cs1 x := by
    intro main hmain fileId name f named ctx pkg mm args a j hh hctx hC hcase ha hat
    have htr := key main hmain fileId name f named ctx hh hctx
    obtain ⟨cc, hc1, hc2⟩ := hcase
    have h1 := htr pkg mm args cc j a t hC hc1 hc2 ha hat
    rw [hT.types] at h1
    obtain ⟨file', id', hf, rfl⟩ := calls_args hC
    exact translated_recorded hown' (fun x hx => hT.args _ file' id' mm a t x hf (List.mem_of_getElem? ha) hat hx) hroot h1 x (base_occurs hb)
  constructor
  · rintro code ⟨main, hmain, fileId, name, f, named, ctx, pkg, mm, args, a, hh, hctx, hC, hmm, hst, ha, hat⟩ hone
    obtain ⟨fileId', name', f', named', ctx', hh', hctx', han, _⟩ := hv main hmain
    obtain ⟨rfl, rfl, rfl⟩ := handler_unique hh hh'
    have := contextParam_unique hctx hctx'
    subst this
    obtain ⟨n, htold, hmap⟩ := hschema (hrec main hmain _ _ _ _ _ pkg mm args a 1 hh hctx hC (by
      cases kind <;> simp only [BodyKind.senders, List.mem_cons, List.not_mem_nil, or_false] at hmm
      · rcases hmm with rfl | rfl <;> exact ⟨_, rfl, rfl⟩
      · subst hmm; exact ⟨_, rfl, rfl⟩
      · subst hmm; exact ⟨_, rfl, rfl⟩) ha hat)
    have hfrom := entries_from_calls (hT.plain _) han
    have hto := fun pkg mm args => @calls_documented _ (hT.plain _) _ _ _ _ han pkg mm args
    rw [hT.types] at hfrom hto
    obtain ⟨resp, r1, r2⟩ := kind_sent (SE := { types := w.st.svc.maps.merged, names := names }) (cs := cs1.map (cleanField m)) (ch := L.choices.route _)
      (m := m) S.gathered kind hfrom hto (t := t) (by
        intro h0
        have := congrArg Schema.ref h0
        simp at this) hmap ⟨pkg, mm, args, hC, hmm, hst⟩
      (fun pkg mm args a t' d1 d2 d3 d4 d5 => hone main hmain t' ⟨_, _, _, _, _, pkg, mm, args, a, hh, hctx, d1, d2, d3, d4, d5⟩)
    exact ⟨resp, _, n, r1, r2, htold⟩
  · rintro ⟨main, hmain, fileId, name, f, named, ctx, hh, hctx, pkg, mm, args, a, hC, hmm, ha, hat⟩ hone
    obtain ⟨fileId', name', f', named', ctx', hh', hctx', han, _⟩ := hv main hmain
    obtain ⟨rfl, rfl, rfl⟩ := handler_unique hh hh'
    have := contextParam_unique hctx hctx'
    subst this
    obtain ⟨n, htold, hmap⟩ := hschema (hrec main hmain _ _ _ _ _ pkg mm args a 0 hh hctx hC (by
      cases kind <;> simp only [BodyKind.binders, List.mem_cons, List.not_mem_nil, or_false] at hmm <;>
        rcases hmm with rfl | rfl | rfl | rfl <;> exact ⟨_, rfl, rfl⟩) ha hat)
    have hfrom := entries_from_calls (hT.plain _) han
    have hto := fun pkg mm args => @calls_documented _ (hT.plain _) _ _ _ _ han pkg mm args
    rw [hT.types] at hfrom hto
    obtain ⟨content, r1, r2⟩ := kind_read (SE := { types := w.st.svc.maps.merged, names := names }) (cs := cs1.map (cleanField m)) (ch := L.choices.route _)
      (m := m) S.gathered kind hfrom hto (t := t) hmap ⟨pkg, mm, args, hC, hmm⟩
      (fun pkg mm args a t' d1 d2 d4 d5 => hone main hmain t' ⟨_, _, _, _, _, hh, hctx, pkg, mm, args, a, d1, d2, d4, d5⟩)
    exact ⟨content, _, n, r1, r2, htold⟩

end Astra.Props
