/-
C110: structs that are bound to the query or to the header.
-/
import Verif.Spec.BoundQuery
import Verif.Props.SentRun
import Verif.Props.Headers
import Verif.Props.Comments

namespace Astra.Props
open Astra.Spec

/-! ### Tags -/

theorem bindingTagsOf_sublist (field : Str) (lookup : Str → Option Str) (l : List BTag) : ((bindingTagsOf field lookup l).map (·.1)).Sublist l := by
  induction l with
  | nil => exact .slnil
  | cons a l ih =>
    simp only [bindingTagsOf]
    split
    · exact ih.cons _
    · exact ih.cons_cons _

theorem parseStructTag_nodup (field tag : Str) : ((parseStructTag field tag).1.map (·.1)).Nodup := by
  unfold parseStructTag
  simp only
  split
  · simp
  · exact (bindingTagsOf_sublist _ _ _).nodup (by decide)

theorem binding_mem_iff (field tag : Str) (b : BTag) (t : BindingTag) :
    (b, t) ∈ (parseStructTag field tag).1 ↔ aget (parseStructTag field tag).1 b = some t :=
  ⟨aget_of_mem_nodup (parseStructTag_nodup field tag), aget_some_mem⟩

theorem key_mem {b : BTag} (hb : b ≠ .none) : b.toStr ∈ bindingKeys := by
  cases b <;> first | exact absurd rfl hb | (simp [bindingKeys, BTag.toStr])

/-- A field is shown under a name in the schemas for a binding just if it has this name for the binding. -/
theorem kind_shown_iff {b : BTag} (hb : b ≠ .none) {f : StructField} (hf : TaggedFor b.toStr f) (hn : f.name ≠ []) {g : Field}
    (hg : g.bindingTags = (parseStructTag f.name f.tag).1) (k : Str) : ShownAs b g k ↔ NamedBy b.toStr f k := by
  obtain ⟨pairs, h1, h2⟩ := hf
  have hval : ∀ {pairs' : List (Str × Str)}, TagText f.tag pairs' → ∀ key, tagValue pairs' key = tagValue pairs key := by
    intro pairs' h key
    rw [← lookup_tagValue h, lookup_tagValue h1]
  unfold ShownAs
  simp only [hg, binding_mem_iff]
  rcases h2 with ⟨v, hv, hd⟩ | hnone
  · have hl : lookupTag f.tag b.toStr = some v := by rw [← hv]; exact lookup_tagValue h1 _
    obtain ⟨t, a1, a2, a3, a4, _⟩ := parseStructTag_binding f.name f.tag v b hb hl
    have hnn := (parseStructTag_unbound f.name f.tag).2.2 ⟨b, hb, by rw [hl]; simp⟩
    obtain ⟨opts, hs⟩ := split_cons v
    constructor
    · rintro ⟨t', e1, e2, _, e4⟩
      rcases e4 with e4 | ⟨e4, _⟩
      · rw [a1] at e4
        cases e4
        by_cases h0 : tagName v = []
        · rw [← e1, (a2 h0).1]
          exact .unnamed h1 hv (by rw [hs, h0])
        · by_cases hm : tagName v = c!"-"
          · rw [(a3 hm).2] at e2; cases e2
          · rw [← e1, (a4 h0 hm).1]
            exact .tagged h1 hv (by rintro rfl; exact hm rfl) hs h0
      · rw [hnn] at e4; cases e4
    · intro hk
      have hcase : (tagName v = [] ∧ k = f.name) ∨ (tagName v ≠ [] ∧ tagName v ≠ c!"-" ∧ k = tagName v) := by
        cases hk with
        | untagged t e => rw [hval t, hv] at e; cases e
        | unnamed t e hsp =>
          rw [hval t, hv] at e
          cases e
          rw [hs] at hsp
          exact Or.inl ⟨(List.cons.inj hsp).1, rfl⟩
        | tagged t e hne hsp h0 =>
          rw [hval t, hv] at e
          cases e
          rw [hs] at hsp
          cases hsp
          refine Or.inr ⟨h0, ?_, rfl⟩
          rcases hd with h | h
          · exact absurd h hne
          · exact h
      rcases hcase with ⟨h0, rfl⟩ | ⟨h0, hm, rfl⟩
      · exact ⟨t, (a2 h0).1, (a2 h0).2, fun e => hn (by rw [← (a2 h0).1, e]), Or.inl a1⟩
      · exact ⟨t, (a4 h0 hm).1, (a4 h0 hm).2, fun e => h0 (by rw [← (a4 h0 hm).1, e]), Or.inl a1⟩
  · have hl : ∀ b : BTag, b ≠ .none → lookupTag f.tag b.toStr = none := by
      intro b hb
      rw [lookup_tagValue h1]
      exact hnone _ (key_mem hb)
    have he := (parseStructTag_unbound f.name f.tag).2.1.mp hl
    have hfm := (parseStructTag_unbound f.name f.tag).1 b hb (hl b hb)
    have hnn : aget (parseStructTag f.name f.tag).1 .none = some { name := f.name, notShown := false, returnOptional := false } := by rw [he]; rfl
    constructor
    · rintro ⟨t', e1, _, _, e4⟩
      rcases e4 with e4 | ⟨e4, _⟩
      · rw [hfm] at e4; cases e4
      · rw [hnn] at e4
        cases e4
        subst e1
        exact .untagged h1 (hnone _ (key_mem hb))
    · intro hk
      have hkk : k = f.name := by
        cases hk with
        | untagged _ _ => rfl
        | unnamed _ _ _ => rfl
        | tagged t e _ _ _ => rw [hval t, hnone _ (key_mem hb)] at e; cases e
      subst hkk
      refine ⟨_, rfl, rfl, fun e => hn (congrArg BindingTag.name e), Or.inr ⟨hnn, ?_⟩⟩
      intro t' ht'
      rw [hfm] at ht'; cases ht'

/-- A field with a tag for a binding, or without tags, has this binding, or the one for all kinds. -/
theorem kind_bound {b : BTag} (hb : b ≠ .none) {f : StructField} (hf : TaggedFor b.toStr f) :
    ∃ e ∈ (parseStructTag f.name f.tag).1, e.1 = b ∨ e.1 = .none := by
  obtain ⟨pairs, h1, ⟨v, hv, _⟩ | hnone⟩ := hf
  · obtain ⟨t, a1, _⟩ := parseStructTag_binding f.name f.tag v b hb (by rw [← hv]; exact lookup_tagValue h1 _)
    exact ⟨(b, t), (binding_mem_iff _ _ _ _).mpr a1, Or.inl rfl⟩
  · have he := (parseStructTag_unbound f.name f.tag).2.1.mp (by
      intro b hb
      rw [lookup_tagValue h1]
      exact hnone _ (key_mem hb))
    exact ⟨(.none, _), by rw [he]; exact List.mem_singleton.mpr rfl, Or.inr rfl⟩

/-! ### The types of the fields -/

theorem query_primitive : ∀ n ∈ queryPrimitives, n ∈ primitives.map (·.1) ∧ n ∉ [c!"byte", c!"rune", c!"file"] := by decide +kernel

theorem query_describable {Γ : TypeEnv} {t : GoType} (h : QueryType t) : Describable Γ t ∧ ∀ x, ¬ Occurs t x := by
  induction h with
  | basic hn => exact ⟨.single (.basic (query_primitive _ hn).1 (query_primitive _ hn).2), fun x hx => by cases hx⟩
  | slice hn hb =>
    refine ⟨.slice (.basic (query_primitive _ hn).1 (query_primitive _ hn).2) ?_, fun x hx => by cases hx with | slice h => cases h⟩
    rintro (rfl | rfl)
    · exact absurd hn (by decide)
    · exact hb rfl
  | pointer _ ih => exact ⟨.pointer ih.1, fun x hx => by cases hx with | pointer h => exact ih.2 x h⟩

theorem primitive_not_object : ∀ x ∈ primitives, x.2.1 ≠ c!"object" := by decide +kernel

theorem query_schema_type {target : Str → Str → Option Str} {t : GoType} {s : Schema} (h : QueryType t) (hs : TypeSchema target t s) :
    s.type ≠ c!"object" := by
  induction h with
  | basic hn => cases hs with | primitive hp => exact primitive_not_object _ hp
  | slice hn hb =>
    cases hs with
    | slice _ _ => simp
    | slices _ => simp
  | pointer _ ih => cases hs with | pointer h => exact ih h

/-! ### Reading -/

/-- The only value that a text sets a value of a basic type to. -/
def setJson (n text : Str) : Json :=
  if n = c!"string" then .str text else if n = c!"bool" then .bool (text = c!"true") else .num text

theorem setBy_eq {n text : Str} {v : Json} (h : SetBy n text v) : v = setJson n text := by
  have hi : ∀ n ∈ integerTypes, n ≠ c!"string" ∧ n ≠ c!"bool" := by decide +kernel
  have hfl : ∀ n ∈ [c!"float32", c!"float64"], n ≠ c!"string" ∧ n ≠ c!"bool" := by decide +kernel
  cases h with
  | string s => rfl
  | integer i hn => unfold setJson; rw [if_neg (hi _ hn).1, if_neg (hi _ hn).2]
  | float text hn => unfold setJson; rw [if_neg (hfl _ hn).1, if_neg (hfl _ hn).2]
  | yes => rfl
  | no => rfl

theorem allSetBy_eq {n : Str} {texts : List Str} {vs : List Json} (h : AllSetBy n texts vs) : vs = texts.map (setJson n) := by
  induction h with
  | nil => rfl
  | cons h _ ih => rw [ih, setBy_eq h]; rfl

theorem fieldRead_unique {query : List (Str × Str)} {name : Str} {t : GoType} {v v' : Json} (h : FieldRead query name t v)
    (h' : FieldRead query name t v') : v' = v := by
  induction h with
  | basic a b =>
    cases h' with
    | basic a' b' => rw [a] at a'; cases a'; rw [setBy_eq b, setBy_eq b']
  | slice a b => cases h' with | slice a' b' => rw [allSetBy_eq b, allSetBy_eq b']
  | pointer _ ih => cases h' with | pointer h' => exact ih h'

/-- A plain value can be said, and read. -/
theorem plain_said {Γ : TypeEnv} {k : BasicKind} {n : Str} {v : Json} (h : Encodes Γ (fun _ _ => none) false (.basic k n) v) :
    ∃ text, PlainText v text ∧ SetBy n text v := by
  cases h with
  | string s => exact ⟨s, .str s, .string s⟩
  | bool b => cases b with
    | true => exact ⟨_, .yes, .yes⟩
    | false => exact ⟨_, .no, .no⟩
  | integer i hn => exact ⟨_, .num _, .integer i hn⟩
  | float text hn => exact ⟨_, .num _, .float text hn⟩

theorem plains_said {Γ : TypeEnv} {k : BasicKind} {n : Str} : ∀ {vs : List Json}, (∀ v ∈ vs, Encodes Γ (fun _ _ => none) false (.basic k n) v) →
    ∃ texts, PlainTexts vs texts ∧ AllSetBy n texts vs
  | [], _ => ⟨[], .nil, .nil⟩
  | v :: vs, h => by
    obtain ⟨texts, h1, h2⟩ := plains_said (fun v hv => h v (List.mem_cons_of_mem _ hv))
    obtain ⟨text, h3, h4⟩ := plain_said (h v List.mem_cons_self)
    exact ⟨text :: texts, .cons h3 h1, .cons h4 h2⟩

/-- What a client says of a value of a field, and how the field is set. -/
theorem field_said {Γ : TypeEnv} {t : GoType} (ht : QueryType t) : ∀ {v : Json}, Encodes Γ (fun _ _ => none) false t v → v ≠ .arr [] →
    ∃ said, SaysInQuery v said ∧ ((∃ text, said = .one text) ∨ ∃ texts, said = .many texts) ∧
      ∀ name pairs, written c!"form" true name said = some pairs → ∀ query, valuesOf query name = pairs.map (·.2) → FieldRead query name t v := by
  induction ht with
  | @basic k n hn =>
    intro v hv _
    obtain ⟨text, h1, h2⟩ := plain_said hv
    refine ⟨.one text, h1, Or.inl ⟨_, rfl⟩, ?_⟩
    intro name pairs hp query hq
    simp only [written, if_true, Option.some.injEq] at hp
    subst hp
    exact .basic (by rw [hq]; rfl) h2
  | @slice k n hn hb =>
    intro v hv hne
    cases hv with
    | bytes _ hbl =>
      rcases hbl with rfl | rfl
      · exact absurd hn (by decide)
      · exact absurd rfl hb
    | @slice _ xs _ hxs =>
      obtain ⟨texts, h1, h2⟩ := plains_said hxs
      refine ⟨.many texts, ⟨xs, rfl, h1⟩, Or.inr ⟨_, rfl⟩, ?_⟩
      intro name pairs hp query hq
      simp only [written, if_true, Option.some.injEq] at hp
      subst hp
      have hq' : valuesOf query name = texts := by rw [hq]; simp [Function.comp_def]
      refine .slice ?_ (by rw [hq']; exact h2)
      rw [hq']
      rintro rfl
      cases h1
      exact hne rfl
    | nilSlice h => cases h
  | pointer _ ih =>
    intro v hv hne
    cases hv with
    | pointer hv =>
      obtain ⟨said, h1, h2, h3⟩ := ih hv hne
      exact ⟨said, h1, h2, fun name pairs hp query hq => .pointer (h3 name pairs hp query hq)⟩
    | nilPointer h => cases h

theorem written_names {name : Str} {said : QueryValue} (h : (∃ text, said = .one text) ∨ ∃ texts, said = .many texts) :
    ∃ vs : List Str, written c!"form" true name said = some (vs.map (fun v => (name, v))) := by
  rcases h with ⟨text, rfl⟩ | ⟨texts, rfl⟩
  · exact ⟨[text], rfl⟩
  · exact ⟨texts, rfl⟩

/-- C110 for one parameter. -/
theorem bound_field_understood (schemas : List (Str × Schema)) {yaml : Bool} {o : OParam} {j : Json} (h : ShowsParameter yaml o j) (hn : o.name ≠ [])
    (hs : (o.schema.type = c!"object" → o.style = c!"deepObject" ∧ o.explode = true) ∧
      (o.schema.type ≠ c!"object" → o.style = c!"form" ∧ o.explode = false))
    {Γ : TypeEnv} {target : Str → Str → Option Str} {t : GoType} (ht : QueryType t) (hsch : TypeSchema target t o.schema) {v : Json}
    (hv : Encodes Γ (fun _ _ => none) false t v) (hne : v ≠ .arr []) : FieldUnderstood schemas o j t v := by
  obtain ⟨hd, hocc⟩ := query_describable (Γ := Γ) ht
  refine ⟨described_admits (D := fun _ => False) (fun x hx => hx.elim) hv hd (fun x hx => hocc x hx) _ hsch, ?_⟩
  obtain ⟨said, h1, h2, h3⟩ := field_said ht hv hne
  obtain ⟨k1, k2, k3⟩ := styles_shown h hn hs
  rw [if_neg (query_schema_type ht hsch)] at k3
  obtain ⟨vs, hw⟩ := written_names (name := o.name) h2
  refine ⟨said, _, h1, by unfold writtenBy; rw [k1, k2, k3]; exact hw, ?_⟩
  intro before after hb ha
  have hr : FieldRead (before ++ vs.map (fun v => (o.name, v)) ++ after) o.name t v := by
    refine h3 o.name _ hw _ ?_
    rw [valuesOf_append, valuesOf_append, valuesOf_other hb, valuesOf_other ha, valuesOf_name]
    simp [Function.comp_def]
  exact ⟨hr, fun v' hv' => fieldRead_unique hr hv'⟩

/-! ### The schema of the struct -/

theorem shown_fields_pairwise {b : BTag} {N : StructField → Str → Prop} {target refs : Str → Str → Option Str} {l : List (StructField × GoType)}
    {fs : List (Str × Field)} (h : FieldsFor target refs l fs) (hp : l.Pairwise (fun e e' => ∀ k, N e.1 k → ¬ N e'.1 k))
    (hj : ∀ e ∈ l, ∀ g : Field, g.bindingTags = (parseStructTag e.1.name e.1.tag).1 → ∀ k, ShownAs b g k → N e.1 k) :
    fs.Pairwise (fun x y => x.2.isEmbedded = false → y.2.isEmbedded = false → ∀ n, ShownAs b x.2 n → ¬ ShownAs b y.2 n) := by
  induction h with
  | nil => exact .nil
  | @cons e k f l fs he hl ih =>
    rw [List.pairwise_cons] at hp ⊢
    refine ⟨?_, ih hp.2 (fun e' h => hj e' (by simp [h]))⟩
    intro x hx _ _ n h1 h2
    obtain ⟨e', he', hf'⟩ := fieldsFor_to hl x hx
    exact hp.1 e' he' n (hj e (by simp) f he.tags n h1) (hj e' (by simp [he']) x.2 hf'.tags n h2)

theorem structLoop_flat {E : SchemaEnv} {b : BTag} : ∀ {l : List (Str × Field)} {e e' : List Schema} {p p' : List (Str × Schema)},
    (∀ x ∈ l, x.2.isEmbedded = false) → structLoop E b l e p = some (e', p') → e' = e
  | [], e, e', p, p', _, h => by simp only [structLoop, Option.some.injEq, Prod.mk.injEq] at h; exact h.1.symm
  | (k, f) :: l, e, e', p, p', hl, h => by
    have hf : f.isEmbedded = false := hl (k, f) (by simp)
    have hl' : ∀ x ∈ l, x.2.isEmbedded = false := fun x hx => hl x (by simp [hx])
    rw [structLoop, if_neg (by rw [hf]; simp)] at h
    cases hb : fieldBinding f b with
    | none => rw [hb] at h; cases h
    | some tag =>
      rw [hb] at h
      simp only at h
      split at h
      · exact structLoop_flat hl' h
      · split at h
        · exact structLoop_flat hl' h
        · exact structLoop_flat hl' h

theorem flat_properties {E : SchemaEnv} {b : BTag} {c : Field} (ht : c.type = c!"struct") (hm : E.mapping c.name c.package = none)
    (hl : ∀ x ∈ c.structFields, x.2.isEmbedded = false) {s : Schema} (h : componentToSchema E b c = some s) : s.allOf = [] := by
  rw [componentToSchema_eq, hm] at h
  simp only [Option.isSome_none, Bool.false_eq_true, if_false, ht, if_true] at h
  cases hs : structLoop E b c.structFields [] [] with
  | none => rw [hs] at h; cases h
  | some x =>
    obtain ⟨e, props⟩ := x
    rw [hs] at h
    have := structLoop_flat hl hs
    subst this
    simp only [Option.some.injEq] at h
    rw [← h]
    unfold composeStruct
    simp

/-- The properties of the schema of a struct, by the names that its fields are shown under. -/
theorem shown_struct_schema {b : BTag} {N : StructField → Str → Prop} {fs : List (StructField × GoType)} (hflat : ∀ e ∈ fs, e.1.embedded = false)
    (hdist : (fs.filter (fun e => e.1.exported)).Pairwise (fun e e' => ∀ k, N e.1 k → ¬ N e'.1 k))
    (hN : ∀ e ∈ fs, e.1.exported = true → ∀ g : Field, g.bindingTags = (parseStructTag e.1.name e.1.tag).1 → ∀ k, ShownAs b g k ↔ N e.1 k)
    {E : SchemaEnv} {target : Str → Str → Option Str} {c : Field}
    (ht : c.type = c!"struct") (hm : E.mapping c.name c.package = none) (hm0 : ∀ q, E.mapping [] q = none)
    (hf : FieldsFor target (refName E.names b) (fs.filter (fun e => e.1.exported)) c.structFields) {s : Schema} (hs : componentToSchema E b c = some s) :
    ∀ k u, (k, u) ∈ s.properties ↔ ∃ e ∈ fs, e.1.exported = true ∧ N e.1 k ∧ TypeSchema target e.2 u := by
  have hmem : ∀ e ∈ fs.filter (fun e => e.1.exported), e ∈ fs ∧ e.1.exported = true := by
    intro e he
    have := List.mem_filter.mp he
    exact ⟨this.1, by simpa using this.2⟩
  have hemb : ∀ x ∈ c.structFields, x.2.isEmbedded = false := by
    intro x hx
    obtain ⟨e, he, hfe⟩ := fieldsFor_to hf x hx
    rw [hfe.embedded]
    exact hflat e (hmem e he).1
  have hnod : ∀ x ∈ c.structFields, (x.2.bindingTags.map (·.1)).Nodup := by
    intro x hx
    obtain ⟨e, he, hfe⟩ := fieldsFor_to hf x hx
    rw [hfe.tags]
    exact parseStructTag_nodup _ _
  intro k u
  have hno := flat_properties ht hm hemb hs
  have h2 := (struct_schema_exact E b c s ht hm hnod (shown_fields_pairwise hf hdist
    (fun e he g hg k => (hN e (hmem e he).1 (hmem e he).2 g hg k).mp)) hs).2.1 k u
  unfold HasProperty at h2
  rw [hno] at h2
  simp only [List.not_mem_nil, false_and, exists_false, or_false] at h2
  rw [h2]
  have hschema : ∀ e f, FieldFor target (refName E.names b) e f → ∃ s, TypeSchema target e.2 s ∧ componentToSchema E b f = some s := by
    intro e f hfe
    obtain ⟨s, h1, h2⟩ := hfe.schema
    exact ⟨s, h1, property_schema E b f s h2 (by rw [hfe.name]; exact hm0 _) hfe.dots⟩
  constructor
  · rintro ⟨x, hx, _, hsh, hc⟩
    obtain ⟨e, he, hfe⟩ := fieldsFor_to hf x hx
    obtain ⟨u', k1, k2⟩ := hschema e x.2 hfe
    rw [k2] at hc
    cases hc
    exact ⟨e, (hmem e he).1, (hmem e he).2, (hN e (hmem e he).1 (hmem e he).2 x.2 hfe.tags k).mp hsh, k1⟩
  · rintro ⟨e, he, hx, hk, hty⟩
    have hef : e ∈ fs.filter (fun e => e.1.exported) := List.mem_filter.mpr ⟨he, by simpa using hx⟩
    obtain ⟨x, hxm, hfe⟩ := fieldsFor_from hf e hef
    obtain ⟨u', k1, k2⟩ := hschema e x.2 hfe
    exact ⟨x, hxm, hemb x hxm, (hN e he hx x.2 hfe.tags k).mpr hk, by rw [k2, typeSchema_unique hty _ k1]⟩

/-- The schema of a struct for a binding has exactly the names that the fields have for it as properties. -/
theorem kind_struct_schema {b : BTag} (hb : b ≠ .none) {fs : List (StructField × GoType)} (hj : KindStruct b.toStr fs) {E : SchemaEnv} {target : Str → Str → Option Str} {c : Field}
    (ht : c.type = c!"struct") (hm : E.mapping c.name c.package = none) (hm0 : ∀ q, E.mapping [] q = none)
    (hf : FieldsFor target (refName E.names b) (fs.filter (fun e => e.1.exported)) c.structFields) :
    ∃ s, componentToSchema E b c = some s ∧
      ∀ k u, (k, u) ∈ s.properties ↔ ∃ e ∈ fs, e.1.exported = true ∧ NamedBy b.toStr e.1 k ∧ TypeSchema target e.2 u := by
  have hall : ∀ e ∈ fs.filter (fun e => e.1.exported), TaggedFor b.toStr e.1 ∧ e.1.name ≠ [] := by
    intro e he
    obtain ⟨h1, h2⟩ := List.mem_filter.mp he
    exact ⟨hj.tags e h1 (by simpa using h2), hj.named e h1 (by simpa using h2)⟩
  have hnz : NoZeroTags c.structFields := by
    intro x hx
    obtain ⟨e, he, hfe⟩ := fieldsFor_to hf x hx
    rw [hfe.tags]
    exact parseStructTag_no_zero _ _ (hall e he).2
  have hsome := bindable_schema (E := E) (b := b) (c := c) hnz (Or.inr (Or.inr (by
    intro x hx
    obtain ⟨e, he, hfe⟩ := fieldsFor_to hf x hx
    right
    rw [hfe.tags]
    exact kind_bound hb (hall e he).1)))
  obtain ⟨s, hs⟩ := Option.isSome_iff_exists.mp hsome
  exact ⟨s, hs, shown_struct_schema hj.flat hj.distinct (fun e he hx g hg k => kind_shown_iff hb (hj.tags e he hx) (hj.named e he hx) hg k) ht hm hm0 hf hs⟩

/-! ### Names -/

section
variable {Γ : TypeEnv} {m : Str} {D : TName → Prop}

theorem NamedApart.ownTypes (h : NamedApart Γ m D) : OwnTypes Γ D :=
  ⟨h.closed, fun x hx => ⟨(h.names x hx).1, (h.names x hx).2.1⟩, h.own, h.instances⟩

theorem NamedApart.recorded (h : NamedApart Γ m D) {st : List Field} (hst : Rooted Γ D st) : NamedApart Γ m (Recorded Γ D st) where
  closed := recorded_closed (NamedApart.ownTypes h) hst
  names := fun x hx => h.names x hx.1
  duration := fun x hx => h.duration x hx.1
  instances := fun x hx y hy => h.instances x hx.1 y hy.1
  main := fun x hx => h.main x hx.1
  own := fun x hx => h.own x hx.1
  separable := fun pkgs hp => h.separable pkgs (fun q hq => by obtain ⟨x, hx, e⟩ := hp q hq; exact ⟨x, hx.1, e⟩)

theorem apart_identity (hD : NamedApart Γ m D) {x : TName} (hx : D x) {c : Field} (h : MadeFrom Γ m x c) :
    c.name = x.2.1 ∧ c.package = finalPackage m x.1 := by
  obtain ⟨rec, st, st', r, h1, rfl⟩ := madeFrom_step h
  obtain ⟨n1, n2, _⟩ := hD.names x hx
  have e1 := own_name Γ rec x.1 x.2.1 n2 _ (hD.own x hx) _ _ _ h1
  have e2 := element_package Γ rec x.1 _ (own_element (hD.own x hx)) _ _ _ _ h1
  rw [(cleanField_identity m _).1, (cleanField_identity m _).2, parse_name, parse_package _ (by simp only [e1]; exact n2)]
  simp only [e1, e2]
  exact ⟨trivial, rfl⟩

theorem apart_inj (hD : NamedApart Γ m D) {x y : TName} (hx : D x) (hy : D y) (hp : finalPackage m x.1 = finalPackage m y.1)
    (hn : x.2.1 = y.2.1) : x = y := by
  refine hD.instances x hx y hy ?_ hn
  unfold finalPackage at hp
  by_cases h1 : x.1 = m
  · by_cases h2 : y.1 = m
    · rw [h1, h2]
    · rw [if_pos h1, if_neg h2] at hp
      exact absurd (by rw [← hp, hD.main y hy hp.symm]) h2
  · by_cases h2 : y.1 = m
    · rw [if_neg h1, if_pos h2] at hp
      exact absurd (by rw [hp, hD.main x hx hp]) h1
    · rwa [if_neg h1, if_neg h2] at hp

/-- References to the component of a struct for a binding can be made. -/
theorem kind_name {b : BTag} (hb : b ≠ .none) (hD : NamedApart Γ m D) {components : List Field} (hc : MadeFromAll Γ m D components)
    {order : List (Str × List Field) → List (Str × List Field)} (hord : AnyOrder order) {names : List (Str × Str)}
    (hm : makeNames order components [] = .ok names) {c : Field} (hcm : c ∈ components)
    (hk : ∀ x ∈ c.structFields, ∃ e ∈ x.2.bindingTags, e.1 = b ∨ e.1 = .none) : (refName names b c.name c.package).isSome = true := by
  obtain ⟨names', hm', _, hsome⟩ := schema_names_distinct_partial components order hord (by
      apply hD.separable
      intro q hq
      obtain ⟨c, hcm, rfl⟩ := List.mem_map.mp hq
      obtain ⟨x, hx, hmade⟩ := hc.1 c hcm
      exact ⟨x, hx, (apart_identity hD hx hmade).2⟩) (by
      intro c hcm
      obtain ⟨x, hx, hmade⟩ := hc.1 c hcm
      rw [(apart_identity hD hx hmade).1]
      exact (hD.names x hx).2.2.1) (by
      intro c hcm
      obtain ⟨x, hx, hmade⟩ := hc.1 c hcm
      rw [(apart_identity hD hx hmade).2]
      exact (hD.names x hx).2.2.2.2)
  rw [hm] at hm'
  cases hm'
  refine (hsome c hcm b).mp ⟨c, hcm, rfl, rfl, ?_⟩
  cases hs : c.structFields with
  | nil =>
    refine Or.inl (Or.inr ⟨?_, hb⟩)
    rintro ⟨t, x, hx, _⟩
    rw [hs] at hx
    cases hx
  | cons x l =>
    have hx : x ∈ c.structFields := by rw [hs]; simp
    obtain ⟨e, he, h | h⟩ := hk x hx
    · exact Or.inl (Or.inl ⟨x, hx, e, he, h⟩)
    · exact Or.inr (Or.inl ⟨x, hx, e, he, h⟩)

/-! ### The parameters of a bound struct -/

theorem base_field {t : GoType} {x : TName} (hb : Base t x) (hn : x.2.1 ∉ reserved ∧ x.2.1 ≠ c!"array" ∧ '.' ∉ x.2.1 ∧ x.2.1 ≠ [] ∧ x.1 ≠ [])
    {c c' : List Field} {pkg : Str} {r : Result} (h : Translates Γ c (some pkg) t (c', .ok r)) :
    Single t ∧ (cleanField m (parseResultToField r)).type = x.2.1 ∧ (cleanField m (parseResultToField r)).package = finalPackage m x.1 := by
  have hs : Single t := by
    cases hb with
    | value => exact .named hn.1 hn.2.1 hn.2.2.1 hn.2.2.2.1 hn.2.2.2.2
    | pointer => exact .pointer (.named hn.1 hn.2.1 hn.2.2.1 hn.2.2.2.1 hn.2.2.2.2)
  refine ⟨hs, ?_⟩
  have hr : r = { type := x.2.1, package := some x.1 } := by
    obtain ⟨k, h⟩ := h
    have key : ∀ rec, typeStep Γ true rec c (some pkg) [] t = some (c', .ok r) → r = { type := x.2.1, package := some x.1 } := by
      intro rec h
      have := single_result Γ rec hs c (some pkg) c' r h
      cases hb with
      | value => exact this
      | pointer => exact this
    cases k with
    | zero => exact key _ h
    | succ k => exact key _ h
  subst hr
  obtain ⟨mk, e⟩ := leaf_field m { type := x.2.1, package := some x.1 } rfl (nameless_not_substituted rfl)
  rw [e]
  refine ⟨rfl, ?_⟩
  simp only
  rw [if_pos (by simp [needsPackage, not_accepted hn.1])]
  rfl

/-- The components of a struct with fields of simple types. -/
theorem struct_components (hD : NamedApart Γ m D) {components : List Field} (hc : MadeFromAll Γ m D components) (names : List (Str × Str)) (b : BTag)
    {x : TName} (hx : D x) {fs : List (StructField × GoType)} (hu : Γ.underlying x.1 x.2.1 x.2.2 = .struct fs)
    (hnod : ((fs.filter (fun e => e.1.exported)).map (fun e => e.1.name)).Nodup) (hqt : ∀ e ∈ fs, e.1.exported = true → QueryType e.2)
    {c : Field} (hcm : c ∈ components) (hcp : c.package = finalPackage m x.1) (hcn : c.name = x.2.1) :
    c.type = c!"struct" ∧ FieldsFor (targetOf names m b) (refName names b) (fs.filter (fun e => e.1.exported)) c.structFields := by
  obtain ⟨n1, n2, n3, n4, n5⟩ := hD.names x hx
  obtain ⟨y, hy, hmade⟩ := hc.1 c hcm
  obtain ⟨j1, j2⟩ := apart_identity hD hy hmade
  have hxy : y = x := apart_inj hD hy hx (by rw [← j2, hcp]) (by rw [← j1, hcn])
  subst hxy
  obtain ⟨rec, s0, s1, r0, h1, h2⟩ := madeFrom_step hmade
  rw [hu] at h1
  have htypes : ∀ e ∈ fs, e.1.exported = true → Describable Γ e.2 ∧ ∀ z, ¬ Occurs e.2 z := fun e he hx => query_describable (hqt e he hx)
  have hocc : ∀ z, ¬ Occurs (.struct fs) z := by
    intro z hz
    cases hz with
    | field he hx h => exact (htypes _ he hx).2 z h
  obtain ⟨_, _, c3, _, _, c6⟩ := struct_component Γ rec (names := names) (m := m) (b := b) hnod (fun e he hx => (htypes e he hx).1) s0 y.1 y.2.1 s1 r0 n2 h1
    (fun z hz => absurd hz (hocc z)) _ (fun f e1 e2 => not_substituted e1 e2 n1 n3 (hD.duration y hx)) c h2
  exact ⟨c3, c6⟩

/-- The component of a struct with fields of simple types. -/
theorem bound_component (hD : NamedApart Γ m D) {components : List Field} (hc : MadeFromAll Γ m D components) (names : List (Str × Str)) (b : BTag)
    {x : TName} (hx : D x) {fs : List (StructField × GoType)} (hu : Γ.underlying x.1 x.2.1 x.2.2 = .struct fs)
    (hnod : ((fs.filter (fun e => e.1.exported)).map (fun e => e.1.name)).Nodup) (hqt : ∀ e ∈ fs, e.1.exported = true → QueryType e.2) :
    ∃ c ∈ components, findComponent components (finalPackage m x.1) x.2.1 = some c ∧ c.package = finalPackage m x.1 ∧ c.name = x.2.1 ∧
      c.type = c!"struct" ∧ FieldsFor (targetOf names m b) (refName names b) (fs.filter (fun e => e.1.exported)) c.structFields := by
  obtain ⟨c0, hc0, hmade0⟩ := hc.2 x hx
  obtain ⟨i1, i2⟩ := apart_identity hD hx hmade0
  obtain ⟨c, hfind⟩ : ∃ c, findComponent components (finalPackage m x.1) x.2.1 = some c := by
    cases hf : findComponent components (finalPackage m x.1) x.2.1 with
    | some c => exact ⟨c, rfl⟩
    | none =>
      have := List.find?_eq_none.mp hf c0 hc0
      rw [i1, i2] at this
      simp at this
  have hcm : c ∈ components := List.mem_of_find?_eq_some hfind
  have hcid : c.package = finalPackage m x.1 ∧ c.name = x.2.1 := by
    have := List.find?_some hfind
    simpa using this
  exact ⟨c, hcm, hfind, hcid.1, hcid.2, struct_components hD hc names b hx hu hnod hqt hcm hcid.1 hcid.2⟩

/-- The parameters that the operation has for a struct for the query. -/
theorem bound_struct_parameters (hD : NamedApart Γ m D) {components : List Field} (hc : MadeFromAll Γ m D components)
    {order : List (Str × List Field) → List (Str × List Field)} (hord : AnyOrder order) {names : List (Str × Str)}
    (hm : makeNames order components [] = .ok names) {types : List (Str × TypeFormat)} (hfmt : ∀ e ∈ types, e.1.getLast? ≠ some '.')
    {x : TName} (hx : D x) {t : GoType} (hb : Base t x) {fs : List (StructField × GoType)} (hu : Γ.underlying x.1 x.2.1 x.2.2 = .struct fs)
    (hq : QueryStruct fs) (hreg : registeredFormat types (finalPackage m x.1) x.2.1 = none) (harr : x.2.1 ≠ c!"array")
    {st st' : List Field} {pkg : Str} {r : Result} (htr : Translates Γ st (some pkg) t (st', .ok r)) {p : Param}
    (hp : p.isBound = true) (hpf : p.field = cleanField m (parseResultToField r)) (o : OParam) :
    o ∈ documentedQuery { types := types, names := names } components [p] ↔
      ∃ e ∈ fs, e.1.exported = true ∧ ∃ k u, FormName e.1 k ∧ TypeSchema (targetOf names m .form) e.2 u ∧ o = queryDoc k p.isRequired u := by
  obtain ⟨n1, n2, n3, n4, n5⟩ := hD.names x hx
  obtain ⟨hs, f1, f2⟩ := base_field (m := m) hb ⟨n4, harr, n3, n2, n1⟩ htr
  -- the component
  obtain ⟨c, hcm, hfind, hcp, hcn, c3, c6⟩ := bound_component hD hc names .form hx hu hq.names hq.types
  obtain ⟨s, hs1, hs2⟩ := kind_struct_schema (b := .form) (by simp) hq (E := { types := types, names := names }) c3
    (by rw [hcp, hcn, mapping_registered n4]; exact hreg) (fun q => mapping_nameless hfmt q) c6
  -- its name
  have hname   := kind_name (b := .form) (by simp) hD hc hord hm hcm (by
    intro z hz
    obtain ⟨e, he, hfe⟩ := fieldsFor_to c6 z hz
    obtain ⟨he1, he2⟩ := List.mem_filter.mp he
    rw [hfe.tags]
    exact kind_bound (b := .form) (by simp) (hq.tags e he1 (by simpa using he2)))
  rw [hcp, hcn] at hname
  obtain ⟨s', _, hmap⟩ := body_of_type (Γ := Γ) (m := m) (SE := { types := types, names := names }) (b := .form) (.single hs)
    (by intro ha; cases hb <;> exact ha) htr (by
      intro z hz
      have : z = x := by
        cases hb with
        | value => cases hz; rfl
        | pointer => cases hz with | pointer h => cases h; rfl
      subst this
      exact hname)
  have hpar : documentedQuery { types := types, names := names } components [p] = s.properties.map (fun x => queryDoc x.1 p.isRequired x.2) := by
    unfold documentedQuery
    simp only [List.flatMap_cons, List.flatMap_nil, List.append_nil, mapParamToSchema, hp, if_true, hpf, hmap, f1, f2, hfind, hs1]
  rw [hpar, List.mem_map]
  constructor
  · rintro ⟨⟨k, u⟩, hku, rfl⟩
    obtain ⟨e, he, hex, hk, hty⟩ := (hs2 k u).mp hku
    exact ⟨e, he, hex, k, u, hk, hty, rfl⟩
  · rintro ⟨e, he, hex, k, u, hk, hty, rfl⟩
    exact ⟨(k, u), (hs2 k u).mpr ⟨e, he, hex, hk, hty⟩, rfl⟩

theorem structLoop_unbound {E : SchemaEnv} {b : BTag} : ∀ {l : List (Str × Field)} (e : List Schema) (p : List (Str × Schema)),
    (∀ x ∈ l, x.2.isEmbedded = false) → (∃ x ∈ l, fieldBinding x.2 b = none) → structLoop E b l e p = none
  | [], _, _, _, h => by obtain ⟨x, hx, _⟩ := h; cases hx
  | (k, f) :: l, e, p, hl, h => by
    have hf : f.isEmbedded = false := hl (k, f) (by simp)
    have hl' : ∀ x ∈ l, x.2.isEmbedded = false := fun x hx => hl x (by simp [hx])
    rw [structLoop, if_neg (by rw [hf]; simp)]
    cases hb : fieldBinding f b with
    | none => rfl
    | some tag =>
      have h' : ∃ x ∈ l, fieldBinding x.2 b = none := by
        obtain ⟨x, hx, hn⟩ := h
        rcases List.mem_cons.mp hx with rfl | hx
        · rw [hb] at hn; cases hn
        · exact ⟨x, hx, hn⟩
      simp only
      split
      · exact structLoop_unbound _ _ hl' h'
      · split
        · exact structLoop_unbound _ _ hl' h'
        · exact structLoop_unbound _ _ hl' h'

/-- One field that is tagged for another binding only, and the operation has no parameter for the whole struct. -/
theorem mixed_struct_lost (hD : NamedApart Γ m D) {components : List Field} (hc : MadeFromAll Γ m D components) {names : List (Str × Str)}
    {types : List (Str × TypeFormat)}
    {x : TName} (hx : D x) {t : GoType} (hb : Base t x) {fs : List (StructField × GoType)} (hu : Γ.underlying x.1 x.2.1 x.2.2 = .struct fs)
    (hq : MixedStruct fs) (hreg : registeredFormat types (finalPackage m x.1) x.2.1 = none) (harr : x.2.1 ≠ c!"array")
    {st st' : List Field} {pkg : Str} {r : Result} (htr : Translates Γ st (some pkg) t (st', .ok r)) {p : Param}
    (hp : p.isBound = true) (hpf : p.field = cleanField m (parseResultToField r)) :
    documentedQuery { types := types, names := names } components [p] = [] := by
  obtain ⟨n1, n2, n3, n4, n5⟩ := hD.names x hx
  obtain ⟨hs, f1, f2⟩ := base_field (m := m) hb ⟨n4, harr, n3, n2, n1⟩ htr
  obtain ⟨c, hcm, hfind, hcp, hcn, c3, c6⟩ := bound_component hD hc names .form hx hu hq.names hq.types
  have hnone : componentToSchema { types := types, names := names } .form c = none := by
    rw [componentToSchema_eq, hcp, hcn, mapping_registered n4, hreg]
    simp only [Option.isSome_none, Bool.false_eq_true, if_false, c3, if_true]
    rw [structLoop_unbound]
    · intro z hz
      obtain ⟨e, he, hfe⟩ := fieldsFor_to c6 z hz
      rw [hfe.embedded]
      exact hq.flat e (List.mem_filter.mp he).1
    · obtain ⟨e, he, hex, pairs, key, ht, hf, hk, hkv⟩ := hq.other
      obtain ⟨z, hz, hfe⟩ := fieldsFor_from c6 e (List.mem_filter.mpr ⟨he, by simpa using hex⟩)
      refine ⟨z, hz, ?_⟩
      have a1 := (parseStructTag_unbound e.1.name e.1.tag).1 .form (by simp) (by rw [lookup_tagValue ht]; exact hf)
      have a2 := (parseStructTag_unbound e.1.name e.1.tag).2.2 (by
        simp only [bindingKeys, List.mem_cons, List.not_mem_nil, or_false] at hk
        rcases hk with rfl | rfl | rfl | rfl | rfl | rfl
        · exact ⟨.json, by simp, by rw [lookup_tagValue ht]; exact hkv⟩
        · exact ⟨.header, by simp, by rw [lookup_tagValue ht]; exact hkv⟩
        · exact ⟨.form, by simp, by rw [lookup_tagValue ht]; exact hkv⟩
        · exact ⟨.uri, by simp, by rw [lookup_tagValue ht]; exact hkv⟩
        · exact ⟨.xml, by simp, by rw [lookup_tagValue ht]; exact hkv⟩
        · exact ⟨.yaml, by simp, by rw [lookup_tagValue ht]; exact hkv⟩)
      unfold fieldBinding
      rw [hfe.tags, a1, a2]
      simp
  unfold documentedQuery
  simp only [List.flatMap_cons, List.flatMap_nil, List.append_nil, hp, if_true, hpf, f1, f2, hfind, hnone]
  split <;> rfl

end

/-! ### A run -/

theorem query_typed {target : Str → Str → Option Str} {t : GoType} (h : QueryType t) : ∃ u, TypeSchema target t u := by
  have prim : ∀ {k : BasicKind} {n : Str}, n ∈ queryPrimitives → Single (.basic k n) ∧ ∃ u, TypeSchema target (.basic k n) u := by
    intro k n hn
    obtain ⟨h1, h2⟩ := query_primitive n hn
    obtain ⟨⟨n', type, fmt⟩, hp, rfl⟩ := List.mem_map.mp h1
    exact ⟨.basic h1 h2, _, .primitive hp⟩
  induction h with
  | basic hn => exact (prim hn).2
  | slice hn _ =>
    obtain ⟨h1, u, hu⟩ := prim hn
    exact ⟨_, .slice h1 hu⟩
  | pointer _ ih =>
    obtain ⟨u, hu⟩ := ih
    exact ⟨u, .pointer hu⟩

theorem formName_ne {f : StructField} (hf : f.name ≠ []) {k : Str} (h : FormName f k) : k ≠ [] := by
  cases h with
  | untagged _ _ => exact hf
  | unnamed _ _ _ => exact hf
  | tagged _ _ _ _ h => exact h

theorem queryDoc_facts (k : Str) (req : Bool) (u : Schema) :
    (queryDoc k req u).name = k ∧ (queryDoc k req u).loc = c!"query" ∧ (queryDoc k req u).schema = u := by
  unfold queryDoc
  split <;> exact ⟨rfl, rfl, rfl⟩

theorem documentedQuery_mem {E : SchemaEnv} {cs : List Field} {ps : List Param} {o : OParam} :
    o ∈ documentedQuery E cs ps ↔ ∃ p ∈ ps, o ∈ documentedQuery E cs [p] := by
  unfold documentedQuery
  rw [List.mem_flatMap]
  simp only [List.flatMap_cons, List.flatMap_nil, List.append_nil]

theorem binder_entry {Γ : TypeEnv} {pkg m : Str} {args : List ArgView} {e : Entry} (hd : Documented Γ pkg args m e)
    (hm : m ∈ [c!"BindQuery", c!"ShouldBindQuery", c!"Bind", c!"ShouldBind"]) :
    ∃ f, IsField Γ pkg args 0 f ∧ ({ field := f, isBound := true } : Param) ∈ e.queryParams := by
  cases hd with
  | bindQuery _ hf => exact ⟨_, hf, List.mem_singleton.mpr rfl⟩
  | bind _ hf => exact ⟨_, hf, List.mem_singleton.mpr rfl⟩
  | json k | status k | query k | queryArray k | queryMap k | bindJSON k | bindXML k | bindYAML k | bindHeader k | postForm k | postFormArray k | postFormMap k =>
    simp only [List.mem_cons, List.not_mem_nil, or_false] at hm; rcases hm with rfl | rfl | rfl | rfl <;> exact absurd k (by decide)
  | _ => exact absurd hm (by decide)

/-- The context methods that read a parameter of the query by its name. -/
theorem query_entry_source {Γ : TypeEnv} {pkg m : Str} {args : List ArgView} {e : Entry} (hd : Documented Γ pkg args m e) {p : Param}
    (hp : p ∈ e.queryParams) :
    (p.isBound = false ∧ m ∈ [c!"Query", c!"GetQuery", c!"QueryArray", c!"GetQueryArray", c!"QueryMap", c!"GetQueryMap"] ∧ IsName args 0 p.name) ∨
    (p.isBound = true ∧ m ∈ [c!"BindQuery", c!"ShouldBindQuery", c!"Bind", c!"ShouldBind"] ∧ IsField Γ pkg args 0 p.field) := by
  cases hd with
  | query k hn | queryArray k hn | queryMap k hn =>
    simp only [List.mem_singleton] at hp
    subst hp
    refine Or.inl ⟨rfl, ?_, hn⟩
    simp only [List.mem_cons, List.not_mem_nil, or_false] at k ⊢
    rcases k with h | h <;> simp [h]
  | bindQuery k hf | bind k hf =>
    simp only [List.mem_singleton] at hp
    subst hp
    refine Or.inr ⟨rfl, ?_, hf⟩
    simp only [List.mem_cons, List.not_mem_nil, or_false] at k ⊢
    rcases k with h | h <;> simp [h]
  | _ => cases hp

/-- C110 for the query: a service with gin routers and an OpenAPI output, as in C83, and a run that succeeds. If the handler fills a struct for the
query from the query, the operation has a parameter for each field of the struct under the name that gin looks it up under; a client who has the
parameter object of the file can write each value of the field, the schema of the parameter admits it, and gin sets the field to this value, whatever
else is in the query. Violated for structs with a field that has a tag for another binding only: gin fills them all the same, but the operation has
no parameter for any of their fields. If all structs that the handler binds are of these two kinds, the query parameters of the operation are those of
the first kind and those that the handler reads by name. Missing: structs with embedded structs, fields with a tag for another binding only, maps and slices of bytes (see
DESIGN), and defined types of fields. -/
theorem run_bound_query_understood_partial (L : Lib) (E : ParseCtx → RouteEnv) (hE : ByModel L E) (U : FPath → Prop) (hL : Tame L U) (getwd : Str) (φ : Faults)
    (w w' : World Proc) (d : FPath)
    (hd : DirAt w.cwd w.st.svc.workDir d) (hg : resolve w.cwd getwd = some w.cwd) (hnames : ProperNames w.fs) (hc : ∀ x ∈ w.cwd, '/' ∉ x)
    (routers : List (List RouteInfo)) (hin : Each GinInput w.st.svc.inputs routers) (hroutes : w.st.svc.routes = [])
    (hnd : DistinctRoutes (allowed w.st.svc.denyList routers.flatten))
    (before after : List Output) (o : Output) (hout : w.st.svc.outputs = before ++ o :: after) (hown : OwnCells w.st.svc.outputs)
    (hbefore : ∀ b ∈ before, Plain b) (loc : Nat) (ho : o.generate = .openapi loc) (q : FPath) (hq : OutputPlace d w.st.svc o.generate q)
    (hplace : OwnPlace w.cwd d w.st.svc after q) (hU : ¬ U q)
    (hcomp : w.st.svc.components = []) (hnm : w.st.names = []) (hord : AnyOrder L.choices.groups) (hch : ∀ n, ValidChoice (L.choices.route n))
    (hfmt : ∀ e ∈ w.st.svc.maps.merged, e.1.getLast? ≠ some '.')
    (Γ : TypeEnv) (D : TName → Prop) (hT : TypedProgram E Γ D)
    (h : Astra.parseAll L getwd φ w = (w', .ok ())) :
    ∃ m rs cs doc text, RunResult L w.st.svc (workDirAfter getwd w.st.svc) routers m rs cs ∧ w'.fs.look q = some (.file text) ∧
      L.render (isYaml (withExtension [c!".json", c!".yaml", c!".yml"] (w.st.svc.cells.getD loc []))) doc = .ok text ∧
      (NamedApart Γ m D →
        ∀ i ∈ allowed w.st.svc.denyList routers.flatten, i.method ∈ documentedMethods →
          (∀ j ∈ allowed w.st.svc.denyList routers.flatten, openapiPath j.path = openapiPath i.path → j.method = i.method → j = i) →
          ∃ (relative : Str) (mains : List Str), L.rel i.file = .ok relative ∧ mains.length = routers.length ∧ ∀ (comment id : Str) (es : List Entry),
            (∀ main ∈ mains, HandlerView (E { workDir := workDirAfter getwd w.st.svc, mainPkg := main, customFuncs := w.st.svc.customFuncs })
              i.handler relative i.line comment id es) →
            ∃ op, Document.operation doc (openapiPath i.path) i.method = some op ∧
              (∀ main ∈ mains, ∀ t fs, HandlerCallsWith (E { workDir := workDirAfter getwd w.st.svc, mainPkg := main, customFuncs := w.st.svc.customFuncs })
                  i.handler relative i.line (queryBinders i.method) t → StructTarget Γ w.st.svc.maps.merged m t fs → QueryStruct fs →
                ∀ e ∈ fs, e.1.exported = true → ∀ k, FormName e.1 k →
                  ∃ o ∈ op.parameters, o.name = k ∧ o.loc = c!"query" ∧ ∀ yaml j, ShowsParameter yaml o j →
                    ∀ v, Encodes Γ (fun _ _ => none) false e.2 v → v ≠ .arr [] → FieldUnderstood doc.schemas o j e.2 v) ∧
              ((∀ main ∈ mains, ∀ t, HandlerCallsWith (E { workDir := workDirAfter getwd w.st.svc, mainPkg := main, customFuncs := w.st.svc.customFuncs })
                  i.handler relative i.line [c!"BindQuery", c!"ShouldBindQuery", c!"Bind", c!"ShouldBind"] t →
                  ∃ fs, StructTarget Γ w.st.svc.maps.merged m t fs ∧ (QueryStruct fs ∨ MixedStruct fs)) →
                ∀ o ∈ op.parameters, o.loc = c!"query" → ∃ main ∈ mains,
                  HandlerNames (E { workDir := workDirAfter getwd w.st.svc, mainPkg := main, customFuncs := w.st.svc.customFuncs })
                    i.handler relative i.line [c!"Query", c!"GetQuery", c!"QueryArray", c!"GetQueryArray", c!"QueryMap", c!"GetQueryMap"] o.name ∨
                  ∃ t fs e, HandlerCallsWith (E { workDir := workDirAfter getwd w.st.svc, mainPkg := main, customFuncs := w.st.svc.customFuncs })
                      i.handler relative i.line [c!"BindQuery", c!"ShouldBindQuery", c!"Bind", c!"ShouldBind"] t ∧
                    StructTarget Γ w.st.svc.maps.merged m t fs ∧ QueryStruct fs ∧ e ∈ fs ∧ e.1.exported = true ∧ FormName e.1 o.name)) := by
  obtain ⟨m, rs, cs1, doc, text, names, hres, h3, h2, _, hn', hrt, hall⟩ := run_components L E hE U hL getwd φ w w' d hd hg hnames hc routers hin hroutes hnd
    before after o hout hown hbefore loc ho q hq hplace hU hcomp hnm Γ D hT h
  refine ⟨m, rs, _, doc, text, hres, h3, h2, fun hD i hi hm huniq => ?_⟩
  have hown' := NamedApart.ownTypes hD
  have hroot := hrt hown'
  have hD' := NamedApart.recorded hD hroot
  have hmade := rooted_made hroot m
  obtain ⟨relative, mains, hrel, q0, hpos, hE'⟩ := hall i hi hm huniq
  refine ⟨relative, mains, hrel, q0, fun comment id es hv => ?_⟩
  obtain ⟨⟨n, r', S, op⟩, key⟩ := hE' comment id es hv
  obtain ⟨k, hk⟩ : ∃ k, routers.length = k + 1 := ⟨routers.length - 1, by omega⟩
  rw [hk] at S
  -- what is recorded for the argument of a binder
  have hrec : ∀ main ∈ mains, ∀ fileId name f named ctx pkg mm args a t x,
      HandlerIs (E { workDir := workDirAfter getwd w.st.svc, mainPkg := main, customFuncs := w.st.svc.customFuncs }) i.handler relative i.line fileId name f named →
      ContextParam (E { workDir := workDirAfter getwd w.st.svc, mainPkg := main, customFuncs := w.st.svc.customFuncs }).prog f fileId ctx →
      Calls (E { workDir := workDirAfter getwd w.st.svc, mainPkg := main, customFuncs := w.st.svc.customFuncs }).prog fileId ctx ((E { workDir := workDirAfter getwd w.st.svc, mainPkg := main, customFuncs := w.st.svc.customFuncs }).prog.funcs f).body pkg mm args →
      mm ∈ [c!"BindQuery", c!"ShouldBindQuery", c!"Bind", c!"ShouldBind"] → args[0]? = some a → a.type = .ok t → Occurs t x → Recorded Γ D cs1 x := by
    intro main hmain fileId name f named ctx pkg mm args a t x hh hctx hC hmm ha hat hx
    have htr := key main hmain fileId name f named ctx hh hctx
    have hcase : ∃ cc, ctxCase mm = some cc ∧ cc.ops[0]? = some .expressionResult := by
      simp only [List.mem_cons, List.not_mem_nil, or_false] at hmm
      rcases hmm with rfl | rfl | rfl | rfl <;> exact ⟨_, rfl, rfl⟩
    obtain ⟨cc, hc1, hc2⟩ := hcase
    have h1 := htr pkg mm args cc 0 a t hC hc1 hc2 ha hat
    rw [hT.types] at h1
    obtain ⟨file', id', hf, rfl⟩ := calls_args hC
    exact translated_recorded hown' (fun x hx => hT.args _ file' id' mm a t x hf (List.mem_of_getElem? ha) hat hx) hroot h1 x hx
  have hpar := (parameters_sorted_complete { types := w.st.svc.maps.merged, names := names } (cs1.map (cleanField m)) (L.choices.route n) (hch n) (cleanRoute m r')).2
  have hcq : (cleanRoute m r').queryParams = r'.queryParams.map (fun p => { p with field := cleanField m p.field }) := rfl
  refine ⟨_, op, ?_, ?_⟩
  · rintro main hmain t fs ⟨fileId, name, f, named, ctx, hh, hctx, pkg, mm, args, a, hC, hmm, ha, hat⟩ ⟨x, hb, harr, hu, hreg⟩ hqs e he hex kk hkk
    obtain ⟨fileId', name', f', named', ctx', hh', hctx', han, _⟩ := hv main hmain
    obtain ⟨rfl, rfl, rfl⟩ := handler_unique hh hh'
    have := contextParam_unique hctx hctx'
    subst this
    have hmm' : mm ∈ [c!"BindQuery", c!"ShouldBindQuery", c!"Bind", c!"ShouldBind"] := by
      unfold queryBinders at hmm
      rcases List.mem_append.mp hmm with h | h
      · simp only [List.mem_cons, List.not_mem_nil, or_false] at h ⊢
        rcases h with h | h <;> simp [h]
      · split at h
        · simp only [List.mem_cons, List.not_mem_nil, or_false] at h ⊢
          rcases h with h | h <;> simp [h]
        · cases h
    have hx := hrec main hmain _ _ _ _ _ pkg mm args a t x hh hctx hC hmm' ha hat (base_occurs hb)
    obtain ⟨en, hen, hdoc⟩ := calls_documented (hT.plain _) han hC (by
      simp only [List.mem_cons, List.not_mem_nil, or_false] at hmm'
      rcases hmm' with rfl | rfl | rfl | rfl <;> decide)
    obtain ⟨g, ⟨a', t', c, c', r, ha', hat', htr, rfl⟩, hpm⟩ := binder_entry hdoc hmm'
    rw [ha] at ha'
    cases ha'
    rw [hat] at hat'
    cases hat'
    rw [hT.types] at htr
    obtain ⟨u, hty⟩ := query_typed (target := targetOf names m .form) (hqs.types e he hex)
    have hmem := (bound_struct_parameters hD' hmade hord hn' hfmt hx hb hu hqs hreg harr htr
      (p := { field := cleanField m (parseResultToField r), isBound := true }) rfl rfl (queryDoc kk false u)).mpr ⟨e, he, hex, kk, u, hkk, hty, rfl⟩
    have hin' : queryDoc kk false u ∈ (operationOf { types := w.st.svc.maps.merged, names := names } (cs1.map (cleanField m)) (L.choices.route n) (cleanRoute m r')).parameters := by
      refine hpar.mem_iff.mpr (List.mem_append_right _ (documentedQuery_mem.mpr ⟨_, ?_, hmem⟩))
      rw [hcq]
      exact List.mem_map.mpr ⟨_, S.gathered.mem_query.mpr ⟨en, hen, hpm⟩, rfl⟩
    obtain ⟨o1, o2, o3⟩ := queryDoc_facts kk false u
    refine ⟨_, hin', o1, o2, fun yaml j hj v hen' hne => ?_⟩
    exact bound_field_understood doc.schemas hj (by rw [o1]; exact formName_ne (hqs.named e he hex) hkk)
      (query_parameter_style _ _ _ (hch n) _ _ hin' o2) (hqs.types e he hex) (by rw [o3]; exact hty) hen' hne
  · intro hallq o ho hloc
    have ho' := hpar.mem_iff.mp ho
    have hq' : o ∈ documentedQuery { types := w.st.svc.maps.merged, names := names } (cs1.map (cleanField m)) (cleanRoute m r').queryParams := by
      have hdd : ∀ b l ps, l ≠ c!"query" → o ∉ documented { types := w.st.svc.maps.merged, names := names } b l ps := by
        intro b l ps hl hmem
        obtain ⟨p, _, hp⟩ := List.mem_flatMap.mp hmem
        cases hs : mapParamToSchema { types := w.st.svc.maps.merged, names := names } b p with
        | none => rw [hs] at hp; simp at hp
        | some s =>
          rw [hs] at hp
          simp only [List.mem_singleton] at hp
          subst hp
          exact hl hloc
      rcases List.mem_append.mp ho' with h | h
      · rcases List.mem_append.mp h with h | h
        · exact absurd h (hdd _ _ _ (by decide))
        · exact absurd h (hdd _ _ _ (by decide))
      · exact h
    obtain ⟨p, hp, hop⟩ := documentedQuery_mem.mp hq'
    rw [hcq] at hp
    obtain ⟨p0, hp0, rfl⟩ := List.mem_map.mp hp
    obtain ⟨en, hen, hpm⟩ := S.gathered.mem_query.mp hp0
    obtain ⟨main, hmain⟩ : ∃ main, main ∈ mains := List.exists_mem_of_length_pos (by omega)
    obtain ⟨fileId, name, f, named, ctx, hh, hctx, han, _⟩ := hv main hmain
    obtain ⟨pkg, mm, args, hC, hdoc⟩ := entries_from_calls (hT.plain _) han en hen
    refine ⟨main, hmain, ?_⟩
    rcases query_entry_source hdoc hpm with ⟨hb, hmm, hname⟩ | ⟨hb, hmm, hfield⟩
    · left
      refine ⟨fileId, name, f, named, ctx, pkg, mm, args, hh, hctx, hC, hmm, ?_⟩
      have : o.name = p0.name := by
        unfold documentedQuery at hop
        simp only [List.flatMap_cons, List.flatMap_nil, List.append_nil, hb, Bool.false_eq_true, if_false] at hop
        split at hop
        · cases hop
        · rw [List.mem_singleton.mp hop, (queryDoc_facts _ _ _).1]
      rw [this]
      exact hname
    · right
      obtain ⟨a, t, c, c', r, ha, hat, htr, hf⟩ := hfield
      have hcall : HandlerCallsWith (E { workDir := workDirAfter getwd w.st.svc, mainPkg := main, customFuncs := w.st.svc.customFuncs })
          i.handler relative i.line [c!"BindQuery", c!"ShouldBindQuery", c!"Bind", c!"ShouldBind"] t :=
        ⟨fileId, name, f, named, ctx, hh, hctx, pkg, mm, args, a, hC, hmm, ha, hat⟩
      obtain ⟨fs, hqt, hkind⟩ := hallq main hmain t hcall
      have hqt' := hqt
      obtain ⟨x, hbase, harr, hu, hreg⟩ := hqt'
      have hx := hrec main hmain _ _ _ _ _ pkg mm args a t x hh hctx hC hmm ha hat (base_occurs hbase)
      rw [hT.types] at htr
      rcases hkind with hqs | hmix
      · obtain ⟨e, he, hex, kk, u, hkk, _, rfl⟩ := (bound_struct_parameters hD' hmade hord hn' hfmt hx hbase hu hqs hreg harr htr
          (p := { p0 with field := cleanField m p0.field }) hb (by simp only [hf]) o).mp hop
        exact ⟨t, fs, e, hcall, hqt, hqs, he, hex, by rw [(queryDoc_facts _ _ _).1]; exact hkk⟩
      · rw [mixed_struct_lost hD' hmade hx hbase hu hmix hreg harr htr (p := { p0 with field := cleanField m p0.field }) hb (by simp only [hf])] at hop
        cases hop

/-! ### Headers -/

/-- A parameter without a name says nothing to a client. -/
theorem nameless_header {yaml : Bool} {o : OParam} {j : Json} (h : ShowsParameter yaml o j) (hn : o.name = []) (v : Str) : headerWritten j v = none := by
  obtain ⟨_, h1, _⟩ := h
  unfold ShowsText at h1
  rw [if_pos hn] at h1
  unfold headerWritten
  rw [h1]

theorem header_entry_source {Γ : TypeEnv} {pkg m : Str} {args : List ArgView} {e : Entry} (hd : Documented Γ pkg args m e) {p : Param}
    (hp : p ∈ e.requestHeaders) : (m = c!"GetHeader" ∧ IsName args 0 p.name) ∨ p.name = [] := by
  cases hd with
  | getHeader hn =>
    simp only [List.mem_singleton] at hp
    subst hp
    exact Or.inl ⟨rfl, hn⟩
  | bindHeader _ _ | bind _ _ =>
    simp only [List.mem_singleton] at hp
    subst hp
    exact Or.inr rfl
  | _ => cases hp

/-- C110 for headers, violated: a service with gin routers and an OpenAPI output, as in C83, without custom functions, and a run that succeeds. The
only parameters in the header that a client can write anything for are those that the handler reads by name with `GetHeader`: no field of a struct
that the handler binds to the header (`BindHeader`, `ShouldBindHeader`, `Bind`, `ShouldBind`) is told to the client. -/
theorem run_bound_headers_untold (L : Lib) (E : ParseCtx → RouteEnv) (hE : ByModel L E) (U : FPath → Prop) (hL : Tame L U)
    (hch : ∀ n, ValidChoice (L.choices.route n)) (getwd : Str) (φ : Faults)
    (w w' : World Proc) (d : FPath)
    (hd : DirAt w.cwd w.st.svc.workDir d) (hg : resolve w.cwd getwd = some w.cwd) (hnames : ProperNames w.fs) (hc : ∀ x ∈ w.cwd, '/' ∉ x)
    (routers : List (List RouteInfo)) (hin : Each GinInput w.st.svc.inputs routers) (hroutes : w.st.svc.routes = [])
    (hnd : DistinctRoutes (allowed w.st.svc.denyList routers.flatten))
    (before after : List Output) (o : Output) (hout : w.st.svc.outputs = before ++ o :: after) (hown : OwnCells w.st.svc.outputs)
    (hbefore : ∀ b ∈ before, Plain b) (loc : Nat) (ho : o.generate = .openapi loc) (q : FPath) (hq : OutputPlace d w.st.svc o.generate q)
    (hplace : OwnPlace w.cwd d w.st.svc after q) (hU : ¬ U q) (hno : ∀ ctx, (E ctx).prog.customs = [])
    (h : Astra.parseAll L getwd φ w = (w', .ok ())) :
    ∃ doc text, w'.fs.look q = some (.file text) ∧
      L.render (isYaml (withExtension [c!".json", c!".yaml", c!".yml"] (w.st.svc.cells.getD loc []))) doc = .ok text ∧
      ∀ i ∈ allowed w.st.svc.denyList routers.flatten, i.method ∈ documentedMethods →
        (∀ j ∈ allowed w.st.svc.denyList routers.flatten, openapiPath j.path = openapiPath i.path → j.method = i.method → j = i) →
        ∃ (relative : Str) (mains : List Str), L.rel i.file = .ok relative ∧ mains.length = routers.length ∧ ∀ (comment id : Str) (es : List Entry),
          (∀ main ∈ mains, HandlerView (E { workDir := workDirAfter getwd w.st.svc, mainPkg := main, customFuncs := w.st.svc.customFuncs })
            i.handler relative i.line comment id es) →
            ∃ op, Document.operation doc (openapiPath i.path) i.method = some op ∧
              ∀ o ∈ op.parameters, o.loc = c!"header" →
                (∃ main ∈ mains, HandlerNames (E { workDir := workDirAfter getwd w.st.svc, mainPkg := main, customFuncs := w.st.svc.customFuncs })
                  i.handler relative i.line [c!"GetHeader"] o.name) ∨
                ∀ yaml j, ShowsParameter yaml o j → ∀ v, headerWritten j v = none := by
  obtain ⟨doc, text, h3, h4, h6⟩ := run_stage L E hE U hL hch getwd φ w w' d hd hg hnames hc routers hin
    hroutes hnd before after o hout hown hbefore loc ho q hq hplace hU h
  refine ⟨doc, text, h3, h4, fun i hi hm huniq => ?_⟩
  obtain ⟨relative, mains, hrel, hlen, h7⟩ := h6 i hi hm huniq
  refine ⟨relative, mains, hrel, hlen, fun comment id es hv => ?_⟩
  obtain ⟨SE, cs, ch, m, r', hc', hpos, S, ⟨_, _, _, _, han⟩, hop⟩ := h7 comment id es hv
  obtain ⟨k, hk⟩ : ∃ k, routers.length = k + 1 := ⟨routers.length - 1, by omega⟩
  rw [hk] at S
  obtain ⟨_, s2⟩ := document_shows SE cs ch hc' m es i.path k r' S.gathered (analysed_unbound han)
  refine ⟨_, hop, fun o ho hl => ?_⟩
  obtain ⟨e, he, p, hp, hpn⟩ := s2.header o ho hl
  obtain ⟨main, hmain⟩ : ∃ main, main ∈ mains := List.exists_mem_of_length_pos (by omega)
  obtain ⟨fileId, name, f, named, ctx, hh, hctx, han', _⟩ := hv main hmain
  obtain ⟨pkg, mm, args, hC, hdoc⟩ := entries_from_calls (hno _) han' e he
  rcases header_entry_source hdoc hp with ⟨rfl, hn⟩ | hn
  · exact Or.inl ⟨main, hmain, fileId, name, f, named, ctx, pkg, _, args, hh, hctx, hC, List.mem_singleton.mpr rfl, by rw [← hpn]; exact hn⟩
  · exact Or.inr fun yaml j hj v => nameless_header hj (by rw [← hpn]; exact hn) v

end Astra.Props
