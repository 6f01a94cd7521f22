/-
C89, C90: the entries of a document describe the types of the program.
-/
import Verif.Props.StructDoc
import Verif.Props.OpenApiNames
import Verif.Props.Enums
import Verif.Lemmas.Silent

namespace Astra.Props
open Astra.Spec

theorem typeDoc_trimmed (Γ : TypeEnv) (pkg name : Str) : trimSpace (typeDoc Γ pkg name) = typeDoc Γ pkg name := by
  unfold typeDoc
  split
  · exact trimBy_idem _ _
  · rfl

theorem raw_doc (r : Result) (Γ : TypeEnv) (pkg name : Str) :
    (parseResultToField { r with doc := typeDoc Γ pkg name }).doc = typeDoc Γ pkg name := by
  cases r
  simp only [parseResultToField, typeDoc_trimmed]
  split
  · rfl
  · rename_i h
    exact (Decidable.not_not.mp h).symm

theorem cleanField_doc (m : Str) (f : Field) : (cleanField m f).doc = f.doc := by
  have h : ∀ f, (handleSubstituteTypes f).doc = f.doc := by
    intro f
    unfold handleSubstituteTypes
    split <;> rfl
  cases f
  simp only [cleanField]
  split <;> exact h _

/-- The component was made from the definition of the type. -/
def MadeFrom (Γ : TypeEnv) (m : Str) (x : TName) (c : Field) : Prop :=
  ∃ k st st' r, typeResult Γ true k st (some x.1) x.2.1 (Γ.underlying x.1 x.2.1 x.2.2) = some (st', .ok r) ∧
    c = cleanField m (parseResultToField { r with doc := typeDoc Γ x.1 x.2.1 })

theorem madeFrom_step {Γ : TypeEnv} {m : Str} {x : TName} {c : Field} (h : MadeFrom Γ m x c) :
    ∃ rec st st' r, typeStep Γ true rec st (some x.1) x.2.1 (Γ.underlying x.1 x.2.1 x.2.2) = some (st', .ok r) ∧
      c = cleanField m (parseResultToField { r with doc := typeDoc Γ x.1 x.2.1 }) := by
  obtain ⟨k, st, st', r, h1, h2⟩ := h
  cases k with
  | zero => exact ⟨_, st, st', r, h1, h2⟩
  | succ k => exact ⟨_, st, st', r, h1, h2⟩

theorem not_substituted {f : Field} {p n : Str} (h1 : f.name = n) (h2 : f.package = p) (hp : p ≠ []) (hn : '.' ∉ n)
    (hd : ¬ (p = c!"time" ∧ n = c!"Duration")) : ¬ Substituted f := by
  unfold Substituted qualifiedName
  rw [h1, h2, if_pos hp]
  rintro (e | e)
  · have e' : p ++ '.' :: n = c!"time" ++ '.' :: c!"Duration" := e
    exact hd (append_sep_inj e' hn (by decide))
  · have : '.' ∈ c!"error" := by rw [← e]; simp
    exact absurd this (by decide)

theorem cleanField_tags (m : Str) (f : Field) : (cleanField m f).bindingTags = f.bindingTags := by
  rw [cleanField_eq]
  unfold renameMain handleSubstituteTypes
  split <;> rfl

theorem parse_tags (r : Result) : (parseResultToField r).bindingTags = r.bindingTags := by cases r; rfl

theorem parse_fields_nil (l : List (Str × Result)) : parseResultsToFields l = l.map (fun e => (e.1, parseResultToField e.2)) := by
  induction l with
  | nil => rfl
  | cons x l ih => obtain ⟨k, r⟩ := x; simp only [parseResultsToFields, ih, List.map_cons]

theorem parse_structFields (r : Result) : (parseResultToField r).structFields = r.structFields.map (fun e => (e.1, parseResultToField e.2)) := by
  cases r; simp only [parseResultToField, parse_fields_nil]

/-- A definition that is not a struct has no struct fields. -/
theorem no_fields (Γ : TypeEnv) (rec : TRec) {p : Str} {t : GoType} (ho : OwnDefinition p t) (hs : ∀ fs, t ≠ .struct fs) (st : List Field)
    (n : Str) (st' : List Field) (r : Result) (h : typeStep Γ true rec st (some p) n t = some (st', .ok r)) : r.structFields = [] := by
  have hf : ∀ (r r' : Result), finishResult n r = .ok r' → r.structFields = [] → r'.structFields = [] := by
    intro r r' h h0
    obtain ⟨_, h3⟩ := finishResult_ok h
    rw [h3]; split <;> exact h0
  cases t with
  | basic k tn =>
    simp only [typeStep] at h
    split at h
    · exact hf _ _ (Prod.mk.inj (Option.some.inj h)).2 rfl
    · split at h
      · cases h
      · exact hf _ _ (Prod.mk.inj (Option.some.inj h)).2 rfl
  | named _ _ _ => exact absurd ho (by simp [OwnDefinition])
  | pointer _ => exact absurd ho (by simp [OwnDefinition])
  | other => exact absurd ho (by simp [OwnDefinition])
  | struct fs => exact absurd rfl (hs fs)
  | interface => simp only [typeStep] at h; exact hf _ _ (Prod.mk.inj (Option.some.inj h)).2 rfl
  | slice e =>
    simp only [typeStep] at h
    split at h
    · exact hf _ _ (Prod.mk.inj (Option.some.inj h)).2 rfl
    · rename_i hx; exact absurd h (hx _ _)
  | array l e =>
    simp only [typeStep] at h
    split at h
    · exact hf _ _ (Prod.mk.inj (Option.some.inj h)).2 rfl
    · rename_i hx; exact absurd h (hx _ _)
  | map k e =>
    simp only [typeStep] at h
    split at h
    · split at h
      · exact hf _ _ (Prod.mk.inj (Option.some.inj h)).2 rfl
      · rename_i hx; exact absurd h (hx _ _)
    · rename_i hx; exact absurd h (hx _ _)

section
variable {Γ : TypeEnv} {marshal : Str → Str → Option (Json → Prop)} {types : List (Str × TypeFormat)} {m : Str} {D : TName → Prop}

theorem made_identity (hD : Documentable Γ marshal types m D) {x : TName} (hx : D x) {c : Field} (h : MadeFrom Γ m x c) :
    c.name = x.2.1 ∧ c.package = finalPackage m x.1 := by
  obtain ⟨rec, st, st', r, h1, h2⟩ := madeFrom_step h
  obtain ⟨n1, n2, n3, n4, n5⟩ := hD.names x hx
  have e1 := own_name Γ rec x.1 x.2.1 n2 _ (hD.own x hx) _ _ _ h1
  have e2 := element_package Γ rec x.1 _ (own_element (hD.own x hx)) _ _ _ _ h1
  have e3 : (parseResultToField { r with doc := typeDoc Γ x.1 x.2.1 }).name = x.2.1 := by rw [parse_name]; exact e1
  have e4 : (parseResultToField { r with doc := typeDoc Γ x.1 x.2.1 }).package = x.1 := by
    rw [parse_package _ (by simp only [e1]; exact n2)]
    simp only [e2]
    rfl
  rw [clean_only_renames _ _ (not_substituted e3 e4 n1 n3 (hD.duration x hx))] at h2
  subst h2
  exact ⟨e3, by simp only [finalPackage, e4]⟩

/-- The exported fields of a type that fits. -/
theorem fits_fields {x : TName} (h : Fits Γ marshal types m x) :
    ((exportedFields (Γ.underlying x.1 x.2.1 x.2.2)).map (·.name)).Nodup ∧
    ∀ f ∈ exportedFields (Γ.underlying x.1 x.2.1 x.2.2), f.name ≠ [] ∧ JsonTag f := by
  have hs : ∀ fs, Γ.underlying x.1 x.2.1 x.2.2 = .struct fs → JsonStruct Γ fs →
      ((exportedFields (Γ.underlying x.1 x.2.1 x.2.2)).map (·.name)).Nodup ∧
      ∀ f ∈ exportedFields (Γ.underlying x.1 x.2.1 x.2.2), f.name ≠ [] ∧ JsonTag f := by
    intro fs e hj
    rw [e]
    simp only [exportedFields, List.map_map]
    refine ⟨hj.names, ?_⟩
    intro f hf
    obtain ⟨e, he, rfl⟩ := List.mem_map.mp hf
    obtain ⟨h1, h2⟩ := List.mem_filter.mp he
    exact ⟨hj.named e h1 (by simpa using h2), hj.tags e h1 (by simpa using h2)⟩
  cases h with
  | registered _ _ _ h => rw [h]; exact ⟨by simp, by simp⟩
  | declared _ _ h => rw [h]; exact ⟨by simp [exportedFields], by simp [exportedFields]⟩
  | tagged _ _ e hj _ _ _ => exact hs _ e hj
  | untagged _ _ e hj _ _ _ => exact hs _ e hj
  | other _ _ hd _ _ =>
    have : exportedFields (Γ.underlying x.1 x.2.1 x.2.2) = [] := by
      cases hu : Γ.underlying x.1 x.2.1 x.2.2 with
      | struct fs => rw [hu] at hd; cases hd with | single hs => cases hs
      | _ => rfl
    rw [this]
    exact ⟨by simp, by simp⟩

/-- The tags of the fields of a component are those of the exported fields of the definition. -/
theorem made_tags (hD : Documentable Γ marshal types m D) {x : TName} (hx : D x) {c : Field} (h : MadeFrom Γ m x c) :
    (∀ y ∈ c.structFields, ∃ f ∈ exportedFields (Γ.underlying x.1 x.2.1 x.2.2), y.2.bindingTags = (parseStructTag f.name f.tag).1) ∧
    (∀ f ∈ exportedFields (Γ.underlying x.1 x.2.1 x.2.2), ∃ y ∈ c.structFields, y.2.bindingTags = (parseStructTag f.name f.tag).1) := by
  have hid := made_identity hD hx h
  obtain ⟨rec, st, st', r, h1, h2⟩ := madeFrom_step h
  obtain ⟨n1, n2, n3, n4, n5⟩ := hD.names x hx
  have e1 := own_name Γ rec x.1 x.2.1 n2 _ (hD.own x hx) _ _ _ h1
  have e2 := element_package Γ rec x.1 _ (own_element (hD.own x hx)) _ _ _ _ h1
  have e3 : (parseResultToField { r with doc := typeDoc Γ x.1 x.2.1 }).name = x.2.1 := by rw [parse_name]; exact e1
  have e4 : (parseResultToField { r with doc := typeDoc Γ x.1 x.2.1 }).package = x.1 := by
    rw [parse_package _ (by simp only [e1]; exact n2)]
    simp only [e2]
    rfl
  rw [clean_only_renames _ _ (not_substituted e3 e4 n1 n3 (hD.duration x hx))] at h2
  have hcf : c.structFields = r.structFields.map (fun e => (e.1, cleanField m (parseResultToField e.2))) := by
    rw [h2]
    simp only [parse_structFields, List.map_map]
    rfl
  have hnod := (fits_fields (hD.fits x hx)).1
  cases hu : Γ.underlying x.1 x.2.1 x.2.2 with
  | struct fs =>
    rw [hu] at h1 hnod
    simp only [exportedFields, List.map_map] at hnod
    obtain ⟨_, he⟩ := struct_result Γ rec st (some x.1) x.2.1 fs st' r h1 hnod
    constructor
    · intro y hy
      rw [hcf] at hy
      obtain ⟨z, hz, rfl⟩ := List.mem_map.mp hy
      obtain ⟨e, he', _, _, _, _, _, _, _, hg⟩ := entries_to he z hz
      refine ⟨e.1, List.mem_map.mpr ⟨e, he', rfl⟩, ?_⟩
      simp only
      rw [cleanField_tags, parse_tags, hg]
      rfl
    · intro f hf
      obtain ⟨e, he', rfl⟩ := List.mem_map.mp hf
      obtain ⟨g, hg, _, _, _, _, _, _, heq⟩ := entries_from he e he'
      refine ⟨(e.1.name, cleanField m (parseResultToField g)), by rw [hcf]; exact List.mem_map.mpr ⟨_, hg, rfl⟩, ?_⟩
      simp only
      rw [cleanField_tags, parse_tags, heq]
      rfl
  | _ =>
    have hnil : c.structFields = [] := by
      rw [hcf, no_fields Γ rec (hD.own x hx) (by rw [hu]; intro fs; simp) _ _ _ _ h1]
      rfl
    rw [hnil]
    exact ⟨by simp, by simp [exportedFields]⟩

/-- A tag for JSON at most, as binding tags. -/
theorem jsonTag_cases {f : StructField} (h : JsonTag f) :
    (NoJsonTag f ∧ (parseStructTag f.name f.tag).1 = [(.none, { name := f.name })]) ∨
    (¬ NoJsonTag f ∧ ∃ t, (parseStructTag f.name f.tag).1 = [(.json, t)]) := by
  have hb := json_bindings h
  obtain ⟨pairs, h1, _, _⟩ := h
  cases hl : lookupTag f.tag c!"json" with
  | none =>
    rw [hl] at hb
    exact Or.inl ⟨⟨pairs, h1, by rw [← lookup_tagValue h1, hl]⟩, hb⟩
  | some v =>
    rw [hl] at hb
    refine Or.inr ⟨?_, _, hb⟩
    rintro ⟨pairs', h2, h3⟩
    rw [← lookup_tagValue h2, hl] at h3
    cases h3

/-- What is known of the binding kinds of a component. -/
theorem made_kinds (hD : Documentable Γ marshal types m D) {x : TName} (hx : D x) {c : Field} (h : MadeFrom Γ m x c) :
    NoZeroTags c.structFields ∧ ¬ HasTwoBindings c.structFields ∧ (KindOf c .json ∨ KindOf c .none) ∧
    (KindFree (Γ.underlying x.1 x.2.1 x.2.2) → ∀ b, b ≠ .none → KindOf c b ∨ KindOf c .none) := by
  obtain ⟨h1, h2⟩ := made_tags hD hx h
  obtain ⟨_, hf⟩ := fits_fields (hD.fits x hx)
  have hfree : KindFree (Γ.underlying x.1 x.2.1 x.2.2) → ∀ b, b ≠ .none → KindOf c b ∨ KindOf c .none := by
    rintro (h0 | ⟨f, hfm, hno⟩) b hb
    · left
      right
      refine ⟨?_, hb⟩
      rintro ⟨t, y, hy, _⟩
      obtain ⟨f, hfm, _⟩ := h1 y hy
      rw [h0] at hfm
      cases hfm
    · right
      left
      obtain ⟨y, hy, ht⟩ := h2 f hfm
      rcases jsonTag_cases (hf f hfm).2 with ⟨_, e⟩ | ⟨hn, _⟩
      · rw [e] at ht
        exact ⟨y, hy, (.none, { name := f.name }), by rw [ht]; simp, rfl⟩
      · exact absurd hno hn
  refine ⟨?_, ?_, ?_, hfree⟩
  · intro y hy
    obtain ⟨f, hfm, ht⟩ := h1 y hy
    rw [ht]
    exact parseStructTag_no_zero _ _ (hf f hfm).1
  · rintro ⟨y, hy, e, he, e', he', hne⟩
    obtain ⟨f, hfm, ht⟩ := h1 y hy
    rw [ht] at he he'
    rcases jsonTag_cases (hf f hfm).2 with ⟨_, q⟩ | ⟨_, t, q⟩ <;>
    · rw [q, List.mem_singleton] at he he'
      subst he he'
      exact hne rfl
  · by_cases hk : KindFree (Γ.underlying x.1 x.2.1 x.2.2)
    · exact hfree hk .json (by simp)
    · left
      left
      have hne : exportedFields (Γ.underlying x.1 x.2.1 x.2.2) ≠ [] := fun e => hk (Or.inl e)
      obtain ⟨f, hfm⟩ := List.exists_mem_of_ne_nil _ hne
      obtain ⟨y, hy, ht⟩ := h2 f hfm
      rcases jsonTag_cases (hf f hfm).2 with ⟨hno, _⟩ | ⟨_, t, q⟩
      · exact absurd (Or.inr ⟨f, hfm, hno⟩) hk
      · rw [q] at ht
        exact ⟨y, hy, (.json, t), by rw [ht]; simp, rfl⟩

theorem finalPackage_inj (hD : Documentable Γ marshal types m D) {x y : TName} (hx : D x) (hy : D y) (hp : finalPackage m x.1 = finalPackage m y.1)
    (hn : x.2.1 = y.2.1) : x = y := by
  refine hD.instances x hx y hy ?_ hn
  unfold finalPackage at hp
  by_cases h1 : x.1 = m
  · by_cases h2 : y.1 = m
    · rw [h1, h2]
    · rw [if_pos h1, if_neg h2] at hp
      exact absurd (by rw [← hp, hD.main y hy hp.symm]) h2
  · by_cases h2 : y.1 = m
    · rw [if_neg h1, if_pos h2] at hp
      exact absurd (by rw [hp, hD.main x hx hp]) h1
    · rwa [if_neg h1, if_neg h2] at hp

/-- The name of the schema of a type. -/
def entryName (components : List Field) (pkg name : Str) : Str :=
  pkgPart (sameUntil ((groupOf components pkg).map (·.package))) pkg ++ '.' :: name

/-- The components of a program are made from the types in `D`, and each of the types has one. -/
def MadeFromAll (Γ : TypeEnv) (m : Str) (D : TName → Prop) (components : List Field) : Prop :=
  (∀ c ∈ components, ∃ x, D x ∧ MadeFrom Γ m x c) ∧ ∀ x, D x → ∃ c ∈ components, MadeFrom Γ m x c

theorem made_names (hD : Documentable Γ marshal types m D) {components : List Field} (hc : MadeFromAll Γ m D components)
    {order : List (Str × List Field) → List (Str × List Field)} (hord : AnyOrder order) {names : List (Str × Str)}
    (hm : makeNames order components [] = .ok names) :
    (∀ x, D x → ∀ b n, targetOf names m b x.1 x.2.1 = some n → n = entryName components (finalPackage m x.1) x.2.1) ∧
    (∀ x, D x → (targetOf names m .json x.1 x.2.1).isSome = true) ∧
    (∀ x, D x → KindFree (Γ.underlying x.1 x.2.1 x.2.2) → ∀ b, b ≠ .none → targetOf names m b x.1 x.2.1 = targetOf names m .json x.1 x.2.1) ∧
    (∀ x, D x → ∀ y, D y → ∀ b b' n, targetOf names m b x.1 x.2.1 = some n → targetOf names m b' y.1 y.2.1 = some n → x = y) := by
  have hname : ∀ c ∈ components, '.' ∉ c.name := by
    intro c hcm
    obtain ⟨x, hx, hmade⟩ := hc.1 c hcm
    rw [(made_identity hD hx hmade).1]
    exact (hD.names x hx).2.2.1
  have hpkg : ∀ c ∈ components, PlainPackage c.package := by
    intro c hcm
    obtain ⟨x, hx, hmade⟩ := hc.1 c hcm
    rw [(made_identity hD hx hmade).2]
    exact (hD.names x hx).2.2.2.2
  have hsep : Separable (components.map (·.package)) := by
    apply hD.separable
    intro q hq
    obtain ⟨c, hcm, rfl⟩ := List.mem_map.mp hq
    obtain ⟨x, hx, hmade⟩ := hc.1 c hcm
    exact ⟨x, hx, (made_identity hD hx hmade).2⟩
  obtain ⟨names', hm', hdis, hsome⟩ := schema_names_distinct_partial components order hord hsep hname hpkg
  rw [hm] at hm'
  cases hm'
  have hfirst : ∀ x, D x → ∀ b n, targetOf names m b x.1 x.2.1 = some n → n = entryName components (finalPackage m x.1) x.2.1 := by
    intro x hx b n hn
    obtain ⟨c, hcm, e1, e2, b', _, k, hw⟩ := refName_writes hord hm hname hpkg (hD.names x hx).2.2.1 (hD.names x hx).2.2.2.2.1 hn
    obtain ⟨y, hy, hmade⟩ := hc.1 c hcm
    obtain ⟨i1, i2⟩ := made_identity hD hy hmade
    have hxy : y = x := finalPackage_inj hD hy hx (by rw [← i2, e2]) (by rw [← i1, e1])
    subst hxy
    obtain ⟨hz, hno, _, _⟩ := made_kinds hD hy hmade
    have hu : (extractBindingTags c.structFields).2 = false := by
      cases h : (extractBindingTags c.structFields).2 with
      | false => rfl
      | true => exact absurd (((extractBindingTags_exact c.structFields).2.2.2 hz).mp h) hno
    have := safeName_eq hw.2.2
    rw [hu] at this
    simp only [Bool.false_eq_true, if_false] at this
    rw [this, i1, i2]
    rfl
  have hkind : ∀ x, D x → ∀ b, (∀ c, MadeFrom Γ m x c → KindOf c b ∨ KindOf c .none) → (targetOf names m b x.1 x.2.1).isSome = true := by
    intro x hx b hk
    obtain ⟨c, hcm, hmade⟩ := hc.2 x hx
    obtain ⟨i1, i2⟩ := made_identity hD hx hmade
    have := (hsome c hcm b).mp ⟨c, hcm, rfl, rfl, hk c hmade⟩
    unfold targetOf
    rwa [i1, i2] at this
  have hjson : ∀ x, D x → (targetOf names m .json x.1 x.2.1).isSome = true :=
    fun x hx => hkind x hx .json (fun c hmade => (made_kinds hD hx hmade).2.2.1)
  refine ⟨hfirst, hjson, ?_, ?_⟩
  · intro x hx hfree b hb
    obtain ⟨n, hn⟩ := Option.isSome_iff_exists.mp (hkind x hx b (fun c hmade => (made_kinds hD hx hmade).2.2.2 hfree b hb))
    obtain ⟨n', hn'⟩ := Option.isSome_iff_exists.mp (hjson x hx)
    rw [hn, hn', hfirst x hx b n hn, hfirst x hx .json n' hn']
  · intro x hx y hy b b' n h1 h2
    obtain ⟨c, hcm, hmade⟩ := hc.2 x hx
    obtain ⟨c', hcm', hmade'⟩ := hc.2 y hy
    obtain ⟨i1, i2⟩ := made_identity hD hx hmade
    obtain ⟨j1, j2⟩ := made_identity hD hy hmade'
    unfold targetOf at h1 h2
    rw [← i1, ← i2] at h1
    rw [← j1, ← j2] at h2
    obtain ⟨e1, e2⟩ := hdis c hcm c' hcm' b b' n h1 h2
    exact finalPackage_inj hD hx hy (by rw [← i2, ← j2, e2]) (by rw [← i1, ← j1, e1])

theorem typeSchema_congr {tgt tgt' : Str → Str → Option Str} {t : GoType} {s : Schema} (h : TypeSchema tgt t s) :
    (∀ y, Occurs t y → tgt y.1 y.2.1 = tgt' y.1 y.2.1) → TypeSchema tgt' t s := by
  induction h with
  | primitive hp => exact fun _ => .primitive hp
  | interface => exact fun _ => .interface
  | @named p n a s h1 => intro he; exact .named (by rw [← he (p, n, a) (.named p n a)]; exact h1)
  | pointer _ ih => exact fun he => .pointer (ih (fun y hy => he y (.pointer hy)))
  | slice hs _ ih => exact fun he => .slice hs (ih (fun y hy => he y (.slice hy)))
  | array hs _ ih => exact fun he => .array hs (ih (fun y hy => he y (.array hy)))
  | map hs _ ih => exact fun he => .map hs (ih (fun y hy => he y (.value hy)))
  | slices ho => exact fun _ => .slices ho
  | arrays ho => exact fun _ => .arrays ho
  | maps ho => exact fun _ => .maps ho

theorem structSchema_congr {tgt tgt' : Str → Str → Option Str} {fs : List (StructField × GoType)} {s : Schema} (h : StructSchema tgt fs s)
    (he : ∀ y, Occurs (.struct fs) y → tgt y.1 y.2.1 = tgt' y.1 y.2.1) : StructSchema tgt' fs s := by
  have fwd : ∀ e ∈ fs, e.1.exported = true → ∀ u, TypeSchema tgt e.2 u → TypeSchema tgt' e.2 u := by
    rintro ⟨f, t⟩ h1 h2 u h4
    exact typeSchema_congr h4 (fun y hy => he y (.field h1 h2 hy))
  have bwd : ∀ e ∈ fs, e.1.exported = true → ∀ u, TypeSchema tgt' e.2 u → TypeSchema tgt e.2 u := by
    rintro ⟨f, t⟩ h1 h2 u h4
    exact typeSchema_congr h4 (fun y hy => (he y (.field h1 h2 hy)).symm)
  refine ⟨h.object, ?_, ?_, ?_⟩
  · intro u hu
    exact (h.parts u hu).imp (fun ⟨e, h1, h2, h3, h4⟩ => ⟨e, h1, h2, h3, fwd e h1 h2 u h4⟩) id
  · intro e h1 h2 h3
    obtain ⟨u, hu, h4⟩ := h.bases e h1 h2 h3
    exact ⟨u, hu, fwd e h1 h2 u h4⟩
  · intro k u
    rw [h.exact]
    constructor
    · rintro ⟨e, h1, h2, h3, h4, h5⟩
      exact ⟨e, h1, h2, h3, h4, fwd e h1 h2 u h5⟩
    · rintro ⟨e, h1, h2, h3, h4, h5⟩
      exact ⟨e, h1, h2, h3, h4, bwd e h1 h2 u h5⟩

theorem mapping_registered {E : SchemaEnv} {p n : Str} (hn : n ∉ reserved) : E.mapping n p = registeredFormat E.types p n := by
  unfold SchemaEnv.mapping registeredFormat typeMappingKey
  rw [if_neg (by rw [not_accepted hn]; simp)]

theorem mapping_nameless {E : SchemaEnv} (h : ∀ e ∈ E.types, e.1.getLast? ≠ some '.') (p : Str) : E.mapping [] p = none := by
  unfold SchemaEnv.mapping typeMappingKey
  rw [if_neg (by decide)]
  cases hg : mget E.types (p ++ ['.']) with
  | none => rfl
  | some f => exact absurd (by simp) (h _ (mget_some_mem hg))

/-- An untagged field has no option. -/
theorem noTag_options {f : StructField} (h : NoJsonTag f) (k : Str) (o : List Str) (hm : JsonMember f k o) : c!"string" ∉ o := by
  obtain ⟨pairs, h1, h2⟩ := h
  have e : ∀ {pairs' : List (Str × Str)} {v : Str}, TagText f.tag pairs' → tagValue pairs' c!"json" = some v → False := by
    intro pairs' v h3 h4
    rw [← lookup_tagValue h3, lookup_tagValue h1, h2] at h4
    cases h4
  cases hm with
  | untagged _ _ => simp
  | tagged t hv _ _ _ _ => exact (e t hv).elim
  | unnamed t hv _ => exact (e t hv).elim

theorem noTag_noName {f : StructField} (h : NoJsonTag f) : NoJsonName f := by
  obtain ⟨pairs, h1, h2⟩ := h
  exact ⟨pairs, h1, fun v hv => by rw [h2] at hv; cases hv⟩

theorem base_occurs {t : GoType} {x : TName} (h : Base t x) : Occurs t x := by
  cases h with
  | value p n a => exact .named p n a
  | pointer p n a => exact .pointer (.named p n a)

theorem base_unique {t : GoType} {x y : TName} (h : Base t x) (h' : Base t y) : x = y := by
  cases h <;> cases h' <;> rfl

/-- A struct definition that fits. -/
theorem fits_struct {x : TName} (h : Fits Γ marshal types m x) (hm : marshal x.1 x.2.1 = none) {fs : List (StructField × GoType)}
    (hu : Γ.underlying x.1 x.2.1 x.2.2 = .struct fs) :
    JsonStruct Γ fs ∧ Embeds Γ marshal fs ∧ ∀ y ∈ fs, y.1.exported = true → ∀ k o, JsonMember y.1 k o → c!"string" ∉ o := by
  cases h with
  | registered h1 => rw [hm] at h1; cases h1
  | declared h1 => rw [hm] at h1; cases h1
  | tagged _ _ e hj he hs _ => rw [hu] at e; cases e; exact ⟨hj, he, hs⟩
  | untagged _ _ e hj he hn _ => rw [hu] at e; cases e; exact ⟨hj, he, fun y hy hex => noTag_options (hn y hy hex)⟩
  | other _ _ hd _ _ => rw [hu] at hd; cases hd with | single hs => cases hs

/-- All fields that a documentable struct offers, itself or through embedded structs, are covered. -/
theorem offers_covered (hD : Documentable Γ marshal types m D) {fs : List (StructField × GoType)} {path : List Nat} {y : StructField × GoType}
    (h : Offers Γ fs path y) : ∀ x, D x → marshal x.1 x.2.1 = none → Γ.underlying x.1 x.2.1 x.2.2 = .struct fs →
    Describable Γ y.2 ∧ (∀ z, Occurs y.2 z → D z) ∧ ∀ k o, JsonMember y.1 k o → c!"string" ∉ o := by
  induction h with
  | @own fs i e hi hex _ =>
    intro x hx hm hu
    obtain ⟨hj, _, hs⟩ := fits_struct (hD.fits x hx) hm hu
    have hy := List.mem_of_getElem? hi
    refine ⟨hj.types e hy hex, ?_, hs e hy hex⟩
    intro z hz
    refine hD.closed x hx z ?_
    unfold Uses
    rw [hu]
    obtain ⟨f, t⟩ := e
    exact .field hy hex hz
  | @inner fs gs i b e path hi hin _ ih =>
    intro x hx hm hu
    obtain ⟨hj, hem, _⟩ := fits_struct (hD.fits x hx) hm hu
    have hy := List.mem_of_getElem? hi
    obtain ⟨h1, _, z, hz, hgs⟩ := hin
    obtain ⟨hmz, _⟩ := hem.structs b hy h1 z hz
    refine ih z (hD.closed x hx z ?_) hmz hgs
    unfold Uses
    rw [hu]
    obtain ⟨f, t⟩ := b
    exact .field hy (hj.embeds _ hy h1).1 (base_occurs hz)

/-- The schema of a component, for a kind for which it has one, describes the type it was made from. -/
theorem made_describes (hD : Documentable Γ marshal types m D) {components : List Field} (hc : MadeFromAll Γ m D components)
    {order : List (Str × List Field) → List (Str × List Field)} (hord : AnyOrder order) {names : List (Str × Str)}
    (hm : makeNames order components [] = .ok names) {x : TName} (hx : D x) {c : Field} (hmade : MadeFrom Γ m x c) {b : BTag} (hb : b ≠ .none) :
    (∀ s, componentToSchema { types := types, names := names } b c = some s →
      Describes Γ marshal (targetOf names m .json) D x (withDoc c s)) ∧
    (b = .json → (componentToSchema { types := types, names := names } b c).isSome = true) := by
  obtain ⟨_, hjson, hfree, _⟩ := made_names hD hc hord hm
  obtain ⟨n1, n2, n3, n4, n5⟩ := hD.names x hx
  obtain ⟨i1, i2⟩ := made_identity hD hx hmade
  have hfit := hD.fits x hx
  have hown := hD.own x hx
  have hns : ∀ f : Field, f.name = x.2.1 → f.package = x.1 → ¬ Substituted f :=
    fun f h1 h2 => not_substituted h1 h2 n1 n3 (hD.duration x hx)
  have hmap : ({ types := types, names := names } : SchemaEnv).mapping c.name c.package = registeredFormat types (finalPackage m x.1) x.2.1 := by
    rw [i1, i2]
    exact mapping_registered n4
  have hmap0 : ∀ q, ({ types := types, names := names } : SchemaEnv).mapping [] q = none := fun q => mapping_nameless hD.formats q
  -- structs
  have hstruct : ∀ fs, Γ.underlying x.1 x.2.1 x.2.2 = .struct fs → JsonStruct Γ fs → Embeds Γ marshal fs → marshal x.1 x.2.1 = none →
      registeredFormat types (finalPackage m x.1) x.2.1 = none →
      (b = .json ∨ ((∀ e ∈ fs, e.1.exported = true → NoJsonTag e.1) ∧ ∀ y, Uses Γ x y → KindFree (Γ.underlying y.1 y.2.1 y.2.2))) →
      ∃ s, componentToSchema { types := types, names := names } b c = some s ∧ Describes Γ marshal (targetOf names m .json) D x (withDoc c s) := by
    intro fs hu hj hemb hmar hreg hkind
    have hsame : ∀ y, Occurs (.struct fs) y → targetOf names m b y.1 y.2.1 = targetOf names m .json y.1 y.2.1 := by
      intro y hy
      rcases hkind with rfl | ⟨_, hk⟩
      · rfl
      · have huse : Uses Γ x y := by unfold Uses; rw [hu]; exact hy
        exact hfree y (hD.closed x hx y huse) (hk y huse) b hb
    obtain ⟨rec, st, st', r, h1, h2⟩ := madeFrom_step hmade
    rw [hu] at h1
    have htgt : ∀ y, Occurs (.struct fs) y → (targetOf names m b y.1 y.2.1).isSome = true := by
      intro y hy
      rw [hsame y hy]
      exact hjson y (hD.closed x hx y (by unfold Uses; rw [hu]; exact hy))
    obtain ⟨c1, c2, c3, c4, c5, c6⟩ := struct_component Γ rec (names := names) (m := m) (b := b) hj.names hj.types st x.1 x.2.1 st' r n2 h1 htgt _ hns c h2
    obtain ⟨s, k1, k2⟩ := fieldsFor_schema hj (E := { types := types, names := names }) (b := b)
      (hkind.imp id (fun h => ⟨hb, h.1⟩)) c3 (by rw [hmap]; exact hreg) hmap0 c6
    refine ⟨s, k1, .struct hmar hu (structSchema_congr k2 hsame) hemb ?_ (fun path y hy => offers_covered hD hy x hx hmar hu)⟩
    intro e he hem
    obtain ⟨hexp, hno, z, hz⟩ := hj.embeds e he hem
    refine ⟨noTag_noName hno, z, hz, hD.closed x hx z ?_⟩
    unfold Uses
    rw [hu]
    obtain ⟨f, t⟩ := e
    exact .field he hexp (base_occurs hz)
  cases hfit with
  | @registered M f h1 h2 h3 h4 =>
    have hs : componentToSchema { types := types, names := names } b c = some (mapTypeFormat { types := types, names := names } c.name c.package) := by
      rw [componentToSchema_eq, hmap, h2]
      rfl
    refine ⟨?_, fun _ => by rw [hs]; rfl⟩
    intro s hs'
    rw [hs] at hs'
    cases hs'
    have hf : mapTypeFormat { types := types, names := names } c.name c.package
        = { type := f.type, format := if f.type = [] then [] else f.format } := by
      unfold mapTypeFormat
      rw [hmap, h2]
      unfold formatSchema
      by_cases h0 : f.type = []
      · simp [h0]
      · simp [h0]
    rw [hf]
    unfold withDoc
    split
    · exact .custom h1 h3
    · exact .custom h1 h3
  | @declared M k n type format h1 h2 h3 h4 h5 h6 =>
    obtain ⟨rec, st, st', r, g1, g2⟩ := madeFrom_step hmade
    rw [h3] at g1
    simp only [typeStep] at g1
    rw [if_neg n2] at g1
    split at g1
    · cases g1
    · have hr := (finishResult_ok (Prod.mk.inj (Option.some.inj g1)).2).2
      rw [set_name _ _ rfl, enum_values_declared_partial Γ x.1 k x.2.1 h5] at hr
      subst hr
      obtain ⟨mk, he⟩ := leaf_field m { type := n, package := some x.1, name := x.2.1, enumValues := declaredConstants (Γ.files x.1) x.2.1, doc := typeDoc Γ x.1 x.2.1 } rfl
        (hns _ rfl (by rw [parse_package _ n2]; rfl))
      rw [he] at g2
      have hsch := property_schema { types := types, names := names } b c { type := type, format := format, enum := c.enumValues }
        (.enum (by rw [g2]; exact h4)) (by rw [hmap]; exact h2) (by rw [g2]; exact ⟨(primitive_no_dot _ h4).1, by simp, by simp, by simp⟩)
      refine ⟨?_, fun _ => by rw [hsch]; rfl⟩
      intro s hs
      rw [hsch] at hs
      cases hs
      have hen : c.enumValues = declaredConstants (Γ.files x.1) x.2.1 := by rw [g2]
      rw [hen]
      unfold withDoc
      split
      · exact .declared h1 h6
      · exact .declared h1 h6
  | @tagged fs h1 h2 h3 h4 h4' h5 h6 =>
    refine ⟨?_, ?_⟩
    · intro s hs
      by_cases hbj : b = .json
      · obtain ⟨s', k1, k2⟩ := hstruct fs h3 h4 h4' h1 h2 (Or.inl hbj)
        rw [hs] at k1
        cases k1
        exact k2
      · exfalso
        obtain ⟨e, he, hex, hno⟩ := h6
        obtain ⟨y, hy, ht⟩ := (made_tags hD hx hmade).2 e.1 (by
          rw [h3]
          exact List.mem_map.mpr ⟨e, List.mem_filter.mpr ⟨he, by simpa using hex⟩, rfl⟩)
        rcases jsonTag_cases (h4.tags e he hex) with ⟨q, _⟩ | ⟨_, t, q⟩
        · exact hno q
        · obtain ⟨rec, st, st', r, g1, g2⟩ := madeFrom_step hmade
          rw [h3] at g1
          have htgt : ∀ y, Occurs (.struct fs) y → (targetOf names m .json y.1 y.2.1).isSome = true := by
            intro y hy
            exact hjson y (hD.closed x hx y (by unfold Uses; rw [h3]; exact hy))
          obtain ⟨_, _, c3, _, _, c6⟩ := struct_component Γ rec (names := names) (m := m) (b := .json) h4.names h4.types st x.1 x.2.1 st' r n2 g1 htgt _ hns c g2
          have hsome := (struct_schema_iff_tagged { types := types, names := names } b c c3 (by rw [hmap]; exact h2)).mp (by rw [hs]; rfl) y hy
          obtain ⟨e', he', hfe⟩ := fieldsFor_to c6 y hy
          obtain ⟨he1, he2⟩ := List.mem_filter.mp he'
          have htag := hfe.tags
          rw [ht, q] at hsome htag
          rcases hsome with h | ⟨t', _, h | h⟩
          · rw [hfe.embedded] at h
            rcases jsonTag_cases (h4.tags e' he1 (by simpa using he2)) with ⟨_, q'⟩ | ⟨q', _⟩
            · rw [q'] at htag; cases htag
            · exact q' (h4.embeds e' he1 h).2.1
          · have hne : BTag.json ≠ b := fun e => hbj e.symm
            simp [aget, hne] at h
          · simp [aget] at h
    · intro hbj
      obtain ⟨s', k1, k2⟩ := hstruct fs h3 h4 h4' h1 h2 (Or.inl hbj)
      rw [k1]
      rfl
  | @untagged fs h1 h2 h3 h4 h4' h5 h6 =>
    obtain ⟨s', k1, k2⟩ := hstruct fs h3 h4 h4' h1 h2 (Or.inr ⟨h5, h6⟩)
    refine ⟨?_, fun _ => by rw [k1]; rfl⟩
    intro s hs
    rw [hs] at k1
    cases k1
    exact k2
  | other h1 h2 h3 h4 h5 =>
    obtain ⟨rec, st, st', r, g1, g2⟩ := madeFrom_step hmade
    have hsame : ∀ y, Uses Γ x y → targetOf names m b y.1 y.2.1 = targetOf names m .json y.1 y.2.1 :=
      fun y hy => hfree y (hD.closed x hx y hy) (h5 y hy) b hb
    obtain ⟨s', hs'⟩ := describable_shape Γ rec (names := names) (m := m) (b := b) h3 st (some x.1) x.2.1 st' r g1
      (Or.inr ⟨x.1, rfl, hown⟩) (by
        intro f hf hp
        rcases hp with hp | hp
        · exact absurd hp n2
        · exact hns f hf (Option.some.inj hp).symm)
      (by intro k n p hk _ hp; cases hp; exact h4 k n hk)
      (fun y hy => by rw [hsame y hy]; exact hjson y (hD.closed x hx y hy)) (typeDoc Γ x.1 x.2.1) r.isEmbedded r.bindingTags r.validationTags
    have hce : c = cleanField m (parseResultToField { r with doc := typeDoc Γ x.1 x.2.1, isEmbedded := r.isEmbedded, bindingTags := r.bindingTags, validationTags := r.validationTags }) := g2
    rw [← hce] at hs'
    have hsch := property_schema { types := types, names := names } b c s' hs'.field (by rw [hmap]; exact h2) hs'.dots
    refine ⟨?_, fun _ => by rw [hsch]; rfl⟩
    intro s hs
    rw [hsch] at hs
    cases hs
    have ht := typeSchema_congr hs'.type hsame
    unfold withDoc
    split
    · have := Describes.other (D := D) (description := s'.description) h1 h3 ht (hD.closed x hx)
      cases s'
      exact this
    · exact .other h1 h3 ht (hD.closed x hx)

/-- The schemas of a document describe the types of the program: the names of the entries are given by a table in which no two types
share a name, every documentable type has an entry, and every entry is the description of the one type of its name. -/
theorem document_describes_core (hD : Documentable Γ marshal types m D) {s : OpenApiInput} (hty : s.types = types)
    (hc : MadeFromAll Γ m D s.components) (ch : Choices) (hord : AnyOrder ch.groups) {d : Document} (hgen : generateDoc ch [] s = .ok d) :
    ∃ names, makeNames ch.groups s.components [] = .ok names ∧
      (∀ x, D x → ∃ n e, targetOf names m .json x.1 x.2.1 = some n ∧ (n, e) ∈ d.schemas) ∧
      (∀ n e, (n, e) ∈ d.schemas → ∃ x, D x ∧ targetOf names m .json x.1 x.2.1 = some n ∧
        Describes Γ marshal (targetOf names m .json) D x e ∧ e.description = typeDoc Γ x.1 x.2.1) ∧
      (∀ x y, D x → D y → targetOf names m .json x.1 x.2.1 = targetOf names m .json y.1 y.2.1 → x = y) := by
  subst hty
  obtain ⟨names, h1, h2, h3⟩ := schemas_exact ch [] s d hgen
  obtain ⟨hent, hjson, _, hinj⟩ := made_names hD hc hord h1
  refine ⟨names, h1, ?_, ?_, ?_⟩
  · intro x hx
    obtain ⟨c, hcm, hmade⟩ := hc.2 x hx
    obtain ⟨i1, i2⟩ := made_identity hD hx hmade
    obtain ⟨n, hn⟩ := Option.isSome_iff_exists.mp (hjson x hx)
    have hk := h3 c hcm .json n (by simp) (by rw [i1, i2]; exact hn) ((made_describes hD hc hord h1 hx hmade (by simp)).2 rfl)
    obtain ⟨e, he, hke⟩ := List.mem_map.mp hk
    exact ⟨n, e.2, hn, by rw [← hke]; exact he⟩
  · intro n e he
    obtain ⟨c, hcm, b, s0, hb, hr, hs, rfl⟩ := h2 n e he
    obtain ⟨x, hx, hmade⟩ := hc.1 c hcm
    obtain ⟨i1, i2⟩ := made_identity hD hx hmade
    refine ⟨x, hx, ?_, (made_describes hD hc hord h1 hx hmade hb).1 s0 hs, ?_⟩
    rotate_left
    · have hd : c.doc = typeDoc Γ x.1 x.2.1 := by
        obtain ⟨k, st, st', r, _, rfl⟩ := hmade
        rw [cleanField_doc, raw_doc]
      rw [← hd]
      unfold withDoc
      split
      · rename_i h0
        rw [h0]
        exact undescribed_component _ _ _ _ hs _ (.self _)
      · rfl
    obtain ⟨n', hn'⟩ := Option.isSome_iff_exists.mp (hjson x hx)
    rw [hn', hent x hx .json n' hn', hent x hx b n (by unfold targetOf; rw [← i1, ← i2]; exact hr)]
  · intro x y hx hy h
    obtain ⟨n, hn⟩ := Option.isSome_iff_exists.mp (hjson x hx)
    exact hinj x hx y hy .json .json n hn (by rw [← h]; exact hn)

end

end Astra.Props
