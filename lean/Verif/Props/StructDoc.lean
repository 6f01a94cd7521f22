/-
C89: the schema of a struct.
-/
import Verif.Props.TypesDoc
import Verif.Props.StructEntries

namespace Astra.Props
open Astra.Spec

/-! ### Tags -/

theorem lookup_tagValue {f : StructField} {pairs : List (Str × Str)} (h : TagText f.tag pairs) (key : Str) :
    lookupTag f.tag key = tagValue pairs key := lookupTag_conventional h key

/-- The binding tags of a field that is tagged for JSON at most. -/
theorem json_bindings {f : StructField} (h : JsonTag f) :
    (parseStructTag f.name f.tag).1 = (match lookupTag f.tag c!"json" with
      | none => [(.none, { name := f.name })]
      | some v => [(.json, bindingTagOf f.name v)]) := by
  obtain ⟨pairs, h1, h2, _⟩ := h
  have hl : ∀ key ∈ [c!"header", c!"form", c!"uri", c!"xml", c!"yaml"], lookupTag f.tag key = none := by
    intro key hk
    rw [lookup_tagValue h1, h2 key hk]
  have e1 := hl c!"header" (by simp)
  have e2 := hl c!"form" (by simp)
  have e3 := hl c!"uri" (by simp)
  have e4 := hl c!"xml" (by simp)
  have e5 := hl c!"yaml" (by simp)
  unfold parseStructTag
  simp only [bindingTags, bindingTagsOf, BTag.toStr, e1, e2, e3, e4, e5]
  cases hj : lookupTag f.tag c!"json" with
  | none => simp
  | some v => simp

theorem split_cons (v : Str) : ∃ opts, split ',' v = tagName v :: opts := by
  have := split_head v
  cases h : split ',' v with
  | nil =>
    exfalso
    cases v with
    | nil => simp [split] at h
    | cons c cs =>
      simp only [split] at h
      split at h
      · cases h
      · cases hs : split ',' cs <;> rw [hs] at h <;> cases h
  | cons a l => rw [h] at this; exact ⟨l, by rw [← this]; rfl⟩

/-- A field is shown in JSON under a name just if encoding/json uses the name. -/
theorem shown_iff {f : StructField} (hj : JsonTag f) (hn : f.name ≠ []) {b : BTag} (hb : b = .json ∨ (b ≠ .none ∧ NoJsonTag f)) {g : Field}
    (hg : g.bindingTags = (parseStructTag f.name f.tag).1) (k : Str) : ShownAs b g k ↔ ∃ opts, JsonMember f k opts := by
  have hbind := json_bindings hj
  obtain ⟨pairs, h1, h2, h3⟩ := hj
  have hval := lookup_tagValue h1 c!"json"
  have hall : ∀ {pairs' : List (Str × Str)}, TagText f.tag pairs' → tagValue pairs' c!"json" = tagValue pairs c!"json" := by
    intro pairs' h
    rw [← lookup_tagValue h, hval]
  have hbn : b ≠ .none := by
    rcases hb with rfl | h
    · simp
    · exact h.1
  cases hv : tagValue pairs c!"json" with
  | none =>
    rw [hval, hv] at hbind
    simp only at hbind
    rw [hbind] at hg
    constructor
    · rintro ⟨t, e1, e2, e3, e4⟩
      rw [hg] at e4
      simp only [List.mem_singleton, Prod.mk.injEq] at e4
      rcases e4 with ⟨e, _⟩ | ⟨⟨_, rfl⟩, _⟩
      · exact absurd e hbn
      · subst e1
        exact ⟨[], .untagged h1 hv⟩
    · rintro ⟨opts, hm⟩
      have hk : k = f.name := by
        cases hm with
        | untagged _ _ => rfl
        | tagged t e _ _ _ _ => rw [hall t, hv] at e; cases e
        | unnamed t e _ => rfl
      subst hk
      refine ⟨{ name := f.name }, rfl, rfl, ?_, Or.inr ⟨by rw [hg]; simp, ?_⟩⟩
      · intro e; exact hn (congrArg BindingTag.name e)
      · intro t' ht'
        rw [hg] at ht'
        simp only [List.mem_singleton, Prod.mk.injEq] at ht'
        exact absurd ht'.1 hbn
  | some v =>
    rw [hval, hv] at hbind
    simp only at hbind
    rw [hbind] at hg
    have hbj : b = .json := by
      rcases hb with h | ⟨_, pairs', t', e'⟩
      · exact h
      · rw [hall t', hv] at e'; cases e'
    subst hbj
    obtain ⟨opts, hs⟩ := split_cons v
    have hbt : bindingTagOf f.name v = { (if tagName v = [] then { name := f.name } else if tagName v ≠ c!"-" then { name := tagName v }
        else { notShown := true } : BindingTag) with returnOptional := decide ((split ',' v)[1]? = some c!"omitempty") } := by
      unfold bindingTagOf
      simp only [split_head]
    constructor
    · rintro ⟨t, e1, e2, e3, e4⟩
      rw [hg] at e4
      simp only [List.mem_singleton, Prod.mk.injEq] at e4
      rcases e4 with ⟨_, rfl⟩ | ⟨⟨e, _⟩, _⟩
      · rw [hbt] at e1 e2
        simp only at e1 e2
        by_cases h0 : tagName v = []
        · rw [if_pos h0] at e1
          subst e1
          exact ⟨opts, .unnamed h1 hv (by rw [hs, h0])⟩
        · rw [if_neg h0] at e1 e2
          by_cases hd : tagName v = c!"-"
          · rw [if_neg (by simp [hd])] at e2; cases e2
          · rw [if_pos hd] at e1
            subst e1
            rcases h3 v hv with h | h
            · exact absurd (by rw [h]; rfl) hd
            · exact ⟨opts, .tagged h1 hv (by rintro rfl; exact hd rfl) hs h0 h.2⟩
      · cases e
    · rintro ⟨opts', hm⟩
      have hk : (tagName v = [] ∧ k = f.name) ∨ (tagName v ≠ [] ∧ tagName v ≠ c!"-" ∧ k = tagName v) := by
        cases hm with
        | untagged t e => rw [hall t, hv] at e; cases e
        | tagged t e hne hsp h0 _ =>
          rw [hall t, hv] at e
          cases e
          rw [hs] at hsp
          cases hsp
          refine Or.inr ⟨h0, ?_, rfl⟩
          rcases h3 v hv with h | h
          · exact absurd h hne
          · exact h.1
        | unnamed t e hsp =>
          rw [hall t, hv] at e
          cases e
          rw [hs] at hsp
          exact Or.inl ⟨(List.cons.inj hsp).1, rfl⟩
      refine ⟨bindingTagOf f.name v, ?_, ?_, ?_, Or.inl (by rw [hg]; simp)⟩
      · rw [hbt]
        rcases hk with ⟨h0, rfl⟩ | ⟨h0, hd, rfl⟩
        · simp [h0]
        · simp only [if_neg h0, if_pos hd]
      · rw [hbt]
        rcases hk with ⟨h0, rfl⟩ | ⟨h0, hd, rfl⟩
        · simp [h0]
        · simp only [if_neg h0, if_pos hd]
      · intro e
        have e := congrArg BindingTag.name e
        rw [hbt] at e
        rcases hk with ⟨h0, rfl⟩ | ⟨h0, hd, rfl⟩
        · simp [h0] at e; exact hn e
        · simp only [if_neg h0, if_pos hd] at e; exact h0 e

/-! ### Structs -/

/-- The component of a struct, field by field. -/
structure FieldFor (target refs : Str → Str → Option Str) (e : StructField × GoType) (f : Field) : Prop where
  schema : ∃ s, TypeSchema target e.2 s ∧ FieldSchema refs f s
  dots : '.' ∉ f.type ∧ '.' ∉ f.sliceType ∧ '.' ∉ f.arrayType ∧ '.' ∉ f.mapValueType
  name : f.name = []
  leaf : f.structFields = []
  embedded : f.isEmbedded = e.1.embedded
  tags : f.bindingTags = (parseStructTag e.1.name e.1.tag).1

inductive FieldsFor (target refs : Str → Str → Option Str) : List (StructField × GoType) → List (Str × Field) → Prop
  | nil : FieldsFor target refs [] []
  | cons {e : StructField × GoType} {k : Str} {f : Field} {l : List (StructField × GoType)} {fs : List (Str × Field)} :
      FieldFor target refs e f → FieldsFor target refs l fs → FieldsFor target refs (e :: l) ((k, f) :: fs)

theorem fieldsFor_from {target refs : Str → Str → Option Str} {l : List (StructField × GoType)} {fs : List (Str × Field)}
    (h : FieldsFor target refs l fs) : ∀ e ∈ l, ∃ x ∈ fs, FieldFor target refs e x.2 := by
  induction h with
  | nil => intro e he; cases he
  | @cons e k f l fs he _ ih =>
    intro e' hm
    simp only [List.mem_cons] at hm
    rcases hm with rfl | hm
    · exact ⟨(k, f), by simp, he⟩
    · obtain ⟨x, h1, h2⟩ := ih e' hm
      exact ⟨x, by simp [h1], h2⟩

theorem fieldsFor_to {target refs : Str → Str → Option Str} {l : List (StructField × GoType)} {fs : List (Str × Field)}
    (h : FieldsFor target refs l fs) : ∀ x ∈ fs, ∃ e ∈ l, FieldFor target refs e x.2 := by
  induction h with
  | nil => intro e he; cases he
  | @cons e k f l fs he _ ih =>
    intro x hm
    simp only [List.mem_cons] at hm
    rcases hm with rfl | hm
    · exact ⟨e, by simp, he⟩
    · obtain ⟨e', h1, h2⟩ := ih x hm
      exact ⟨e', by simp [h1], h2⟩

theorem fieldsFor_pairwise {target refs : Str → Str → Option Str} {b : BTag} {l : List (StructField × GoType)} {fs : List (Str × Field)}
    (h : FieldsFor target refs l fs)
    (hp : l.Pairwise (fun e e' => e.1.embedded = false → e'.1.embedded = false → ∀ k o o', JsonMember e.1 k o → ¬ JsonMember e'.1 k o'))
    (hj : ∀ e ∈ l, JsonTag e.1 ∧ e.1.name ≠ [] ∧ (b = .json ∨ (b ≠ .none ∧ NoJsonTag e.1))) :
    fs.Pairwise (fun x y => x.2.isEmbedded = false → y.2.isEmbedded = false → ∀ n, ShownAs b x.2 n → ¬ ShownAs b y.2 n) := by
  induction h with
  | nil => exact .nil
  | @cons e k f l fs he hl ih =>
    rw [List.pairwise_cons] at hp ⊢
    refine ⟨?_, ih hp.2 (fun e' h => hj e' (by simp [h]))⟩
    intro x hx h0 h0' n h1 h2
    obtain ⟨e', he', hf'⟩ := fieldsFor_to hl x hx
    have a := hj e (by simp)
    have a' := hj e' (by simp [he'])
    obtain ⟨o, m⟩ := (shown_iff a.1 a.2.1 a.2.2 he.tags n).mp h1
    obtain ⟨o', m'⟩ := (shown_iff a'.1 a'.2.1 a'.2.2 hf'.tags n).mp h2
    exact hp.1 e' he' (he.embedded ▸ h0) (hf'.embedded ▸ h0') n o o' m m'

theorem primitives_functional : ∀ x ∈ primitives, ∀ y ∈ primitives, x.1 = y.1 → x = y := by decide +kernel

theorem outline_unique {t : GoType} {s : Schema} (h : Outline t s) : ∀ s', Outline t s' → s' = s := by
  induction h with
  | slice => intro s' h'; cases h'; rfl
  | map => intro s' h'; cases h'; rfl
  | struct => intro s' h'; cases h'; rfl
  | pointer _ ih => intro s' h'; cases h' with | pointer h2 => exact ih _ h2

theorem outline_not_single {t : GoType} {s : Schema} (h : Outline t s) : ¬ Single t := by
  induction h with
  | slice => intro h; cases h
  | map => intro h; cases h
  | struct => intro h; cases h
  | pointer _ ih => intro h; cases h with | pointer h => exact ih h

/-- A type has at most one schema. -/
theorem typeSchema_unique {target : Str → Str → Option Str} {t : GoType} {s : Schema} (h : TypeSchema target t s) :
    ∀ s', TypeSchema target t s' → s' = s := by
  induction h with
  | primitive hp =>
    intro s' h'
    cases h' with
    | primitive hp' =>
      have := primitives_functional _ hp _ hp' rfl
      simp only [Prod.mk.injEq] at this
      rw [this.2.1, this.2.2]
  | interface => intro s' h'; cases h'; rfl
  | named h1 => intro s' h'; cases h' with | named h2 => rw [h1] at h2; cases h2; rfl
  | pointer _ ih => intro s' h'; cases h' with | pointer h2 => exact ih _ h2
  | slice hs _ ih =>
    intro s' h'
    cases h' with
    | slice _ h2 => rw [ih _ h2]
    | slices h2 => exact absurd hs (outline_not_single h2)
  | array hs _ ih =>
    intro s' h'
    cases h' with
    | array _ h2 => rw [ih _ h2]
    | arrays h2 => exact absurd hs (outline_not_single h2)
  | map hs _ ih =>
    intro s' h'
    cases h' with
    | map _ h2 => rw [ih _ h2]
    | maps h2 => exact absurd hs (outline_not_single h2)
  | slices ho =>
    intro s' h'
    cases h' with
    | slice hs _ => exact absurd hs (outline_not_single ho)
    | slices h2 => rw [outline_unique ho _ h2]
  | arrays ho =>
    intro s' h'
    cases h' with
    | array hs _ => exact absurd hs (outline_not_single ho)
    | arrays h2 => rw [outline_unique ho _ h2]
  | maps ho =>
    intro s' h'
    cases h' with
    | map hs _ => exact absurd hs (outline_not_single ho)
    | maps h2 => rw [outline_unique ho _ h2]

/-- The schema of a component with such fields. -/
theorem fieldsFor_schema {Γ : TypeEnv} {fs : List (StructField × GoType)} (hj : JsonStruct Γ fs) {E : SchemaEnv} {b : BTag} {target : Str → Str → Option Str}
    (hb : b = .json ∨ (b ≠ .none ∧ ∀ e ∈ fs, e.1.exported = true → NoJsonTag e.1)) {c : Field} (ht : c.type = c!"struct")
    (hm : E.mapping c.name c.package = none) (hm0 : ∀ q, E.mapping [] q = none)
    (hf : FieldsFor target (refName E.names b) (fs.filter (fun e => e.1.exported)) c.structFields) :
    ∃ s, componentToSchema E b c = some s ∧ StructSchema target fs (withDoc c s) := by
  have hmem : ∀ e ∈ fs.filter (fun e => e.1.exported), e ∈ fs ∧ e.1.exported = true := by
    intro e he
    have := List.mem_filter.mp he
    exact ⟨this.1, by simpa using this.2⟩
  have hall : ∀ e ∈ fs.filter (fun e => e.1.exported), JsonTag e.1 ∧ e.1.name ≠ [] ∧ (b = .json ∨ (b ≠ .none ∧ NoJsonTag e.1)) := by
    intro e he
    obtain ⟨h1, h2⟩ := hmem e he
    exact ⟨hj.tags e h1 h2, hj.named e h1 h2, hb.imp id (fun h => ⟨h.1, h.2 e h1 h2⟩)⟩
  have hnod : ∀ x ∈ c.structFields, (x.2.bindingTags.map (·.1)).Nodup := by
    intro x hx
    obtain ⟨e, he, hfe⟩ := fieldsFor_to hf x hx
    rw [hfe.tags, json_bindings (hall e he).1]
    split <;> simp
  have hschema : ∀ e f, FieldFor target (refName E.names b) e f → ∃ s, TypeSchema target e.2 s ∧ componentToSchema E b f = some s := by
    intro e f hfe
    obtain ⟨s, h1, h2⟩ := hfe.schema
    exact ⟨s, h1, property_schema E b f s h2 (by rw [hfe.name]; exact hm0 _) hfe.dots⟩
  have hnz : NoZeroTags c.structFields := by
    intro x hx
    obtain ⟨e, he, hfe⟩ := fieldsFor_to hf x hx
    rw [hfe.tags]
    exact parseStructTag_no_zero _ _ (hall e he).2.1
  have hsome := bindable_schema (E := E) (b := b) (c := c) hnz (Or.inr (Or.inr (by
    intro x hx
    obtain ⟨e, he, hfe⟩ := fieldsFor_to hf x hx
    right
    rw [hfe.tags, json_bindings (hall e he).1]
    cases hl : lookupTag e.1.tag c!"json" with
    | none => exact ⟨(.none, _), List.mem_singleton.mpr rfl, Or.inr rfl⟩
    | some v =>
      refine ⟨(.json, _), List.mem_singleton.mpr rfl, Or.inl ?_⟩
      rcases (hall e he).2.2 with h | ⟨_, pairs, h1, h2⟩
      · exact h.symm
      · rw [lookup_tagValue h1, h2] at hl; cases hl)))
  obtain ⟨s, hs⟩ := Option.isSome_iff_exists.mp hsome
  refine ⟨s, hs, ?_⟩
  have hdist := hj.distinct
  have hsplit : fs.filter (fun e => e.1.exported && !e.1.embedded) = (fs.filter (fun e => e.1.exported)).filter (fun e => !e.1.embedded) := by
    rw [List.filter_filter]
    congr 1
    funext e
    rw [Bool.and_comm]
  rw [hsplit, List.pairwise_filter] at hdist
  obtain ⟨⟨props, parts, hobj⟩, h2, h3, h4⟩ := struct_schema_exact E b c s ht hm hnod (fieldsFor_pairwise hf (hdist.imp (by
    intro e e' h h0 h0'
    exact h (by simp [h0]) (by simp [h0']))) hall) hs
  -- references to the types of embedded fields
  have href : ∀ e ∈ fs.filter (fun e => e.1.exported), ∀ f, FieldFor target (refName E.names b) e f → e.1.embedded = true →
      ∃ r, r ≠ [] ∧ makeRef E.names b f.type f.package = some r ∧ TypeSchema target e.2 { ref := r } := by
    intro e he f hfe hem
    obtain ⟨_, _, x, hx⟩ := hj.embeds e (hmem e he).1 hem
    obtain ⟨u, k1, k2⟩ := hfe.schema
    have hu : ∃ n, u = { ref := c!"#/components/schemas/" ++ n } := by
      generalize e.2 = t at hx k1
      cases hx with
      | value p n a => cases k1 with | named h => exact ⟨_, rfl⟩
      | pointer p n a => cases k1 with | pointer h => cases h with | named h => exact ⟨_, rfl⟩
    obtain ⟨n, rfl⟩ := hu
    refine ⟨c!"#/components/schemas/" ++ n, by simp, ?_, k1⟩
    generalize hu : ({ ref := c!"#/components/schemas/" ++ n } : Schema) = u at k2
    have hur : u.ref = c!"#/components/schemas/" ++ n := by rw [← hu]
    cases k2 with
    | plain _ _ h =>
      generalize f.type = ft at h ⊢
      cases h with
      | primitive _ => simp at hur
      | anything => simp at hur
      | composite _ => simp at hur
      | defined _ h =>
        unfold makeRef
        rw [h]
        exact congrArg some hur
    | enum _ => simp at hur
    | slice _ _ => simp at hur
    | array _ _ => simp at hur
    | map _ _ => simp at hur
  have hparts : ∀ u ∈ s.allOf, (∃ e ∈ fs, e.1.exported = true ∧ e.1.embedded = true ∧ TypeSchema target e.2 u) ∨ ∃ props, u = { properties := props } := by
    intro u hu
    rcases h4 u hu with ⟨r, rfl, hr⟩ | h
    · left
      obtain ⟨x, hx, hemb, hmk⟩ := (h3 r hr).mp hu
      obtain ⟨e, he, hfe⟩ := fieldsFor_to hf x hx
      have hem : e.1.embedded = true := by rw [← hfe.embedded]; exact hemb
      obtain ⟨r', _, hr', hty⟩ := href e he x.2 hfe hem
      rw [hmk] at hr'
      cases hr'
      exact ⟨e, (hmem e he).1, (hmem e he).2, hem, hty⟩
    · exact Or.inr h
  have hbases : ∀ e ∈ fs, e.1.exported = true → e.1.embedded = true → ∃ u ∈ s.allOf, TypeSchema target e.2 u := by
    intro e he hx hem
    have hef : e ∈ fs.filter (fun e => e.1.exported) := List.mem_filter.mpr ⟨he, by simpa using hx⟩
    obtain ⟨x, hxm, hfe⟩ := fieldsFor_from hf e hef
    obtain ⟨r, hr0, hr, hty⟩ := href e hef x.2 hfe hem
    exact ⟨_, (h3 r hr0).mpr ⟨x, hxm, by rw [hfe.embedded]; exact hem, hr⟩, hty⟩
  have hex : ∀ k u, ((k, u) ∈ s.properties ∨ ∃ part ∈ s.allOf, (k, u) ∈ part.properties) ↔
      ∃ e ∈ fs, e.1.exported = true ∧ e.1.embedded = false ∧ (∃ opts, JsonMember e.1 k opts) ∧ TypeSchema target e.2 u := by
    intro k u
    have h := h2 k u
    unfold HasProperty at h
    rw [h]
    constructor
    · rintro ⟨x, hx, hne, hsh, hc⟩
      obtain ⟨e, he, hfe⟩ := fieldsFor_to hf x hx
      obtain ⟨hm1, hm2⟩ := hmem e he
      obtain ⟨u', k1, k2⟩ := hschema e x.2 hfe
      rw [k2] at hc
      cases hc
      have a := hall e he
      exact ⟨e, hm1, hm2, by rw [← hfe.embedded]; exact hne, (shown_iff a.1 a.2.1 a.2.2 hfe.tags k).mp hsh, k1⟩
    · rintro ⟨e, he, hx, hne, hmb, hty⟩
      have hef : e ∈ fs.filter (fun e => e.1.exported) := List.mem_filter.mpr ⟨he, by simpa using hx⟩
      obtain ⟨x, hxm, hfe⟩ := fieldsFor_from hf e hef
      obtain ⟨u', k1, k2⟩ := hschema e x.2 hfe
      have a := hall e hef
      exact ⟨x, hxm, by rw [hfe.embedded]; exact hne, (shown_iff a.1 a.2.1 a.2.2 hfe.tags k).mpr hmb, by rw [k2, typeSchema_unique hty _ k1]⟩
  subst hobj
  unfold withDoc
  split
  · exact ⟨⟨props, parts, [], rfl⟩, hparts, hbases, hex⟩
  · exact ⟨⟨props, parts, c.doc, rfl⟩, hparts, hbases, hex⟩

/-- The component of a struct definition. -/
theorem struct_component (Γ : TypeEnv) (rec : TRec) {names : List (Str × Str)} {m : Str} {b : BTag} {fs : List (StructField × GoType)}
    (hnod : ((fs.filter (fun e => e.1.exported)).map (fun e => e.1.name)).Nodup) (htypes : ∀ e ∈ fs, e.1.exported = true → Describable Γ e.2) (st : List Field) (p n : Str) (st' : List Field) (r : Result) (hn : n ≠ [])
    (ht : typeStep Γ true rec st (some p) n (.struct fs) = some (st', .ok r))
    (htgt : ∀ x, Occurs (.struct fs) x → (targetOf names m b x.1 x.2.1).isSome = true) (doc : Str)
    (hsub : ∀ f : Field, f.name = n → f.package = p → ¬ Substituted f) (c : Field)
    (hc : c = cleanField m (parseResultToField { r with doc := doc })) :
    c.name = n ∧ c.package = finalPackage m p ∧ c.type = c!"struct" ∧ c.bindingTags = [] ∧ c.doc = (if doc ≠ [] then trimSpace doc else []) ∧
    FieldsFor (targetOf names m b) (refName names b) (fs.filter (fun e => e.1.exported)) c.structFields := by
  obtain ⟨h1, h2⟩ := struct_result Γ rec st (some p) n fs st' r ht hnod
  generalize hl : fs.filter (fun e => e.1.exported) = l at *
  have hfields : ∀ {new : List (Str × Result)} {l' : List (StructField × GoType)}, AllEntries Γ rec (some p) l' new → (∀ e ∈ l', e ∈ l) →
      FieldsFor (targetOf names m b) (refName names b) l' ((parseResultsToFields new).map (fun e => (e.1, cleanField m e.2))) := by
    intro new l' h
    induction h with
    | nil => exact fun _ => .nil
    | @cons f t g l' new he _ ih =>
      intro hsubset
      have hmem : (f, t) ∈ fs ∧ f.exported = true := by
        have := hsubset (f, t) (by simp)
        rw [← hl] at this
        have := List.mem_filter.mp this
        exact ⟨this.1, by simpa using this.2⟩
      refine .cons ?_ (ih (fun e h => hsubset e (by simp [h])))
      obtain ⟨s1, s2, r0, d, e1, e2, rfl⟩ := he
      obtain ⟨s, hs⟩ := describable_shape Γ rec (names := names) (m := m) (b := b) (htypes _ hmem.1 hmem.2) s1 (some p) [] s2 r0 e1
        (Or.inl rfl) (fun f hf _ => nameless_not_substituted hf) (fun _ _ _ _ h => absurd rfl h)
        (fun x hx => htgt x (.field hmem.1 hmem.2 hx)) d f.embedded (parseStructTag f.name f.tag).1 (parseStructTag f.name f.tag).2
      exact ⟨⟨s, hs.type, hs.field⟩, hs.dots, hs.name, hs.leaf, hs.embedded, hs.tags⟩
  have hf := hfields h2 (fun e h => h)
  generalize r.structFields = sf at *
  subst h1
  have hns : ¬ Substituted (parseResultToField { type := c!"struct", package := some p, name := n, structFields := sf, doc := doc : Result }) := by
    refine hsub _ rfl ?_
    rw [parse_package _ hn]
    rfl
  rw [clean_only_renames _ _ hns] at hc
  subst hc
  refine ⟨rfl, ?_, rfl, rfl, rfl, hf⟩
  show finalPackage m (parseResultToField _).package = _
  rw [parse_package _ hn]
  rfl

end Astra.Props
