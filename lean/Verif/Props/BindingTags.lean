/-
C25, C26: binding kinds.
-/
import Verif.Lemmas.Basic
import Verif.Model.BindingTags

namespace Astra.Props

/-! ### C26: content types -/

/-- C26: every content type listed for a binding kind maps back to it. -/
theorem contentTypes_roundtrip (b : BTag) (ct : Str) (h : ct ∈ bindingTagToContentTypes b) :
    contentTypeToBindingTag ct = b := by
  cases b <;> simp [bindingTagToContentTypes] at h
  · rcases h with h | h <;> subst h <;> decide
  · subst h; decide
  · subst h; decide
  · subst h; decide

/-- C26: every content type that has a binding kind is listed for this kind. -/
theorem contentType_listed (ct : Str) (h : contentTypeToBindingTag ct ≠ .none) :
    ct ∈ bindingTagToContentTypes (contentTypeToBindingTag ct) := by
  unfold contentTypeToBindingTag at h ⊢
  cases hg : aget contentTypeTable ct with
  | none => rw [hg] at h; simp at h
  | some b =>
    have hm := aget_some_mem hg
    simp only [contentTypeTable, List.mem_cons, Prod.mk.injEq, List.not_mem_nil, or_false] at hm
    rcases hm with ⟨rfl, rfl⟩ | ⟨rfl, rfl⟩ | ⟨rfl, rfl⟩ | ⟨rfl, rfl⟩ | ⟨rfl, rfl⟩ <;>
      simp [bindingTagToContentTypes]

/-- C26: content types of different kinds are different. -/
theorem contentTypes_disjoint (b b' : BTag) (ct : Str) (h : ct ∈ bindingTagToContentTypes b)
    (h' : ct ∈ bindingTagToContentTypes b') : b = b' := by
  rw [← contentTypes_roundtrip b ct h, contentTypes_roundtrip b' ct h']

example : contentTypeToBindingTag c!"multipart/form-data" = .form ∧ contentTypeToBindingTag c!"text/plain" = .none := by
  decide

/-! ### C25: ExtractBindingTags -/

/-- `t` is used as a binding kind by some field of the map. -/
def UsesKind (fields : List (Str × Field)) (t : BTag) : Prop := ∃ x ∈ fields, ∃ e ∈ x.2.bindingTags, e.1 = t

/-- Some field has two different bindings. -/
def HasTwoBindings (fields : List (Str × Field)) : Prop :=
  ∃ x ∈ fields, ∃ e ∈ x.2.bindingTags, ∃ e' ∈ x.2.bindingTags, e.2 ≠ e'.2

/-- No binding tag is the zero value (true of everything `ParseStructTag` returns for a named field). -/
def NoZeroTags (fields : List (Str × Field)) : Prop := ∀ x ∈ fields, ∀ e ∈ x.2.bindingTags, e.2 ≠ {}

theorem inner_tags (l : List (BTag × BindingTag)) (prev : BindingTag) (tags : List BTag) (u : Bool) :
    (∀ t, t ∈ (extractTagsInner l prev (tags, u)).1 ↔ t ∈ tags ∨ ∃ e ∈ l, e.1 = t) ∧
    (tags.Nodup → (extractTagsInner l prev (tags, u)).1.Nodup) := by
  induction l generalizing prev tags u with
  | nil => simp [extractTagsInner]
  | cons p l ih =>
    obtain ⟨bt, tag⟩ := p
    simp only [extractTagsInner]
    obtain ⟨h1, h2⟩ := ih tag (if elemB tags bt then tags else tags ++ [bt])
      (if prev ≠ {} ∧ u = false then decide (tag ≠ prev) else u)
    constructor
    · intro t
      rw [h1]
      by_cases hm : elemB tags bt = true
      · rw [if_pos hm]
        rw [elemB_iff] at hm
        constructor
        · rintro (h | ⟨e, he, rfl⟩)
          · exact Or.inl h
          · exact Or.inr ⟨e, by simp [he], rfl⟩
        · rintro (h | ⟨e, he, rfl⟩)
          · exact Or.inl h
          · simp only [List.mem_cons] at he
            rcases he with rfl | he
            · exact Or.inl hm
            · exact Or.inr ⟨e, he, rfl⟩
      · rw [if_neg hm]
        simp only [List.mem_append, List.mem_cons, List.not_mem_nil, or_false]
        constructor
        · rintro ((h | h) | ⟨e, he, rfl⟩)
          · exact Or.inl h
          · exact Or.inr ⟨_, Or.inl rfl, h.symm⟩
          · exact Or.inr ⟨e, Or.inr he, rfl⟩
        · rintro (h | ⟨e, rfl | he, rfl⟩)
          · exact Or.inl (Or.inl h)
          · exact Or.inl (Or.inr rfl)
          · exact Or.inr ⟨e, he, rfl⟩
    · intro hn
      apply h2
      split
      · exact hn
      · rename_i hm
        rw [elemB_iff] at hm
        rw [List.nodup_append]
        refine ⟨hn, by simp, ?_⟩
        intro x hx y hy e
        simp at hy; subst hy; subst e; exact hm hx

theorem inner_unique (l : List (BTag × BindingTag)) (prev : BindingTag) (tags : List BTag) (u : Bool)
    (hz : ∀ e ∈ l, e.2 ≠ {}) (hp : prev ≠ {}) :
    (extractTagsInner l prev (tags, u)).2 = true ↔ u = true ∨ ∃ e ∈ l, e.2 ≠ prev := by
  induction l generalizing prev tags u with
  | nil => simp [extractTagsInner]
  | cons p l ih =>
    obtain ⟨bt, tag⟩ := p
    have htag : tag ≠ {} := hz (bt, tag) (by simp)
    simp only [extractTagsInner]
    rw [ih tag _ _ (fun e he => hz e (by simp [he])) htag]
    simp only [ne_eq, hp, not_false_eq_true, true_and, List.mem_cons]
    cases u with
    | true => simp
    | false =>
      simp only [if_true, decide_eq_true_eq, Bool.false_eq_true, false_or]
      constructor
      · rintro (h | ⟨e, he, hne⟩)
        · exact ⟨_, Or.inl rfl, h⟩
        · by_cases h2 : tag = prev
          · exact ⟨e, Or.inr he, by rw [← h2]; exact hne⟩
          · exact ⟨_, Or.inl rfl, h2⟩
      · rintro ⟨e, rfl | he, hne⟩
        · exact Or.inl hne
        · by_cases h2 : tag = prev
          · exact Or.inr ⟨e, he, by rw [h2]; exact hne⟩
          · exact Or.inl h2

theorem inner_unique_zero (l : List (BTag × BindingTag)) (tags : List BTag) (u : Bool) (hz : ∀ e ∈ l, e.2 ≠ {}) :
    (extractTagsInner l {} (tags, u)).2 = true ↔ u = true ∨ ∃ e ∈ l, ∃ e' ∈ l, e.2 ≠ e'.2 := by
  cases l with
  | nil => simp [extractTagsInner]
  | cons p l =>
    obtain ⟨bt, tag⟩ := p
    simp only [extractTagsInner, ne_eq, not_true_eq_false, false_and, if_false]
    rw [inner_unique l tag _ u (fun e he => hz e (by simp [he])) (hz (bt, tag) (by simp))]
    constructor
    · rintro (h | ⟨e, he, hne⟩)
      · exact Or.inl h
      · exact Or.inr ⟨e, by simp [he], (bt, tag), by simp, hne⟩
    · rintro (h | ⟨e, he, e', he', hne⟩)
      · exact Or.inl h
      · right
        simp only [List.mem_cons] at he he'
        rcases he with rfl | he <;> rcases he' with rfl | he'
        · exact absurd rfl hne
        · exact ⟨e', he', fun h => hne h.symm⟩
        · exact ⟨e, he, hne⟩
        · by_cases h : e.2 = tag
          · exact ⟨e', he', fun h' => hne (h.trans h'.symm)⟩
          · exact ⟨e, he, h⟩

theorem outer_spec (fields : List (Str × Field)) (tags : List BTag) (u : Bool) :
    (∀ t, t ∈ (extractTagsOuter fields (tags, u)).1 ↔ t ∈ tags ∨ UsesKind fields t) ∧
    (tags.Nodup → (extractTagsOuter fields (tags, u)).1.Nodup) ∧
    (NoZeroTags fields → ((extractTagsOuter fields (tags, u)).2 = true ↔ u = true ∨ HasTwoBindings fields)) := by
  induction fields generalizing tags u with
  | nil => simp [extractTagsOuter, UsesKind, HasTwoBindings]
  | cons p fields ih =>
    obtain ⟨k, f⟩ := p
    simp only [extractTagsOuter]
    obtain ⟨i1, i2⟩ := inner_tags f.bindingTags {} tags u
    obtain ⟨h1, h2, h3⟩ := ih (extractTagsInner f.bindingTags {} (tags, u)).1 (extractTagsInner f.bindingTags {} (tags, u)).2
    refine ⟨?_, fun hn => h2 (i2 hn), ?_⟩
    · intro t
      rw [h1, i1]
      unfold UsesKind
      constructor
      · rintro ((h | h) | ⟨x, hx, h⟩)
        · exact Or.inl h
        · exact Or.inr ⟨(k, f), by simp, h⟩
        · exact Or.inr ⟨x, by simp [hx], h⟩
      · rintro (h | ⟨x, hx, h⟩)
        · exact Or.inl (Or.inl h)
        · simp only [List.mem_cons] at hx
          rcases hx with rfl | hx
          · exact Or.inl (Or.inr h)
          · exact Or.inr ⟨x, hx, h⟩
    · intro hz
      rw [h3 (fun x hx => hz x (by simp [hx])), inner_unique_zero _ _ _ (hz (k, f) (by simp))]
      unfold HasTwoBindings
      constructor
      · rintro ((h | h) | ⟨x, hx, h⟩)
        · exact Or.inl h
        · exact Or.inr ⟨(k, f), by simp, h⟩
        · exact Or.inr ⟨x, by simp [hx], h⟩
      · rintro (h | ⟨x, hx, h⟩)
        · exact Or.inl (Or.inl h)
        · simp only [List.mem_cons] at hx
          rcases hx with rfl | hx
          · exact Or.inl (Or.inr h)
          · exact Or.inr ⟨x, hx, h⟩

/-- C25: the result lists, without repetition, exactly the binding kinds used by some field, or all six if no field has
any; `uniqueBindings` is true iff some field has two different bindings. This holds for every iteration order of both
maps, since the lists `fields` and `bindingTags` are in arbitrary order. -/
theorem extractBindingTags_exact (fields : List (Str × Field)) :
    ((∃ t, UsesKind fields t) → ∀ t, t ∈ (extractBindingTags fields).1 ↔ UsesKind fields t) ∧
    ((¬ ∃ t, UsesKind fields t) → (extractBindingTags fields).1 = [.header, .form, .uri, .json, .xml, .yaml]) ∧
    (extractBindingTags fields).1.Nodup ∧
    (NoZeroTags fields → ((extractBindingTags fields).2 = true ↔ HasTwoBindings fields)) := by
  obtain ⟨h1, h2, h3⟩ := outer_spec fields [] false
  have hn := h2 (by simp)
  simp only [List.not_mem_nil, false_or, Bool.false_eq_true] at h1 h3
  unfold extractBindingTags
  generalize extractTagsOuter fields ([], false) = r at *
  obtain ⟨tags, u⟩ := r
  simp only at *
  by_cases ht : tags = []
  · subst ht
    simp only [if_true]
    refine ⟨?_, fun _ => rfl, by decide, h3⟩
    rintro ⟨t, hu⟩
    exact absurd ((h1 t).mpr hu) (by simp)
  · rw [if_neg ht]
    refine ⟨fun _ => h1, ?_, hn, h3⟩
    intro h
    exfalso
    cases tags with
    | nil => exact ht rfl
    | cons t ts => exact h ⟨t, (h1 t).mp (by simp)⟩

/-- Two association lists that represent the same Go map of fields as far as binding tags are concerned: each field of
one occurs in the other with its tags in some order. -/
def SameFields (fields fields' : List (Str × Field)) : Prop :=
  (∀ x ∈ fields, ∃ y ∈ fields', x.1 = y.1 ∧ x.2.bindingTags.Perm y.2.bindingTags) ∧
  (∀ y ∈ fields', ∃ x ∈ fields, x.1 = y.1 ∧ x.2.bindingTags.Perm y.2.bindingTags)

theorem SameFields.usesKind {a b : List (Str × Field)} (h : SameFields a b) (t : BTag) : UsesKind a t ↔ UsesKind b t := by
  constructor
  · rintro ⟨x, hx, e, he, rfl⟩
    obtain ⟨y, hy, _, hp⟩ := h.1 x hx
    exact ⟨y, hy, e, hp.mem_iff.mp he, rfl⟩
  · rintro ⟨y, hy, e, he, rfl⟩
    obtain ⟨x, hx, _, hp⟩ := h.2 y hy
    exact ⟨x, hx, e, hp.mem_iff.mpr he, rfl⟩

/-- C25: the iteration order of the field map and of the tag maps does not matter. -/
theorem extractBindingTags_order_independent (fields fields' : List (Str × Field)) (h : SameFields fields fields')
    (hz : NoZeroTags fields) :
    (extractBindingTags fields).1.Perm (extractBindingTags fields').1 ∧
    (extractBindingTags fields).2 = (extractBindingTags fields').2 := by
  have hz' : NoZeroTags fields' := by
    intro y hy e he
    obtain ⟨x, hx, _, hp⟩ := h.2 y hy
    exact hz x hx e (hp.mem_iff.mpr he)
  obtain ⟨a1, a2, a3, a4⟩ := extractBindingTags_exact fields
  obtain ⟨b1, b2, b3, b4⟩ := extractBindingTags_exact fields'
  have hex : (∃ t, UsesKind fields t) ↔ ∃ t, UsesKind fields' t :=
    ⟨fun ⟨t, ht⟩ => ⟨t, (h.usesKind t).mp ht⟩, fun ⟨t, ht⟩ => ⟨t, (h.usesKind t).mpr ht⟩⟩
  constructor
  · by_cases hu : ∃ t, UsesKind fields t
    · rw [List.perm_ext_iff_of_nodup a3 b3]
      intro t
      rw [a1 hu t, b1 (hex.mp hu) t, h.usesKind t]
    · rw [a2 hu, b2 (fun hc => hu (hex.mpr hc))]
  · have h2 : HasTwoBindings fields ↔ HasTwoBindings fields' := by
      constructor
      · rintro ⟨x, hx, e, he, e', he', hne⟩
        obtain ⟨y, hy, _, hp⟩ := h.1 x hx
        exact ⟨y, hy, e, hp.mem_iff.mp he, e', hp.mem_iff.mp he', hne⟩
      · rintro ⟨y, hy, e, he, e', he', hne⟩
        obtain ⟨x, hx, _, hp⟩ := h.2 y hy
        exact ⟨x, hx, e, hp.mem_iff.mpr he, e', hp.mem_iff.mpr he', hne⟩
    rw [Bool.eq_iff_iff, a4 hz, b4 hz', h2]

example : extractBindingTags [(c!"A", { bindingTags := [(.json, { name := c!"a" }), (.form, { name := c!"b" })] })]
    = ([.json, .form], true) := by decide
example : extractBindingTags [(c!"A", { bindingTags := [(.form, { name := c!"b" }), (.json, { name := c!"a" })] })]
    = ([.form, .json], true) := by decide

/-- Without the non-zero hypothesis the iteration order matters (a zero tag is never produced by `ParseStructTag`,
see `parseStructTag_no_zero`). -/
theorem extractBindingTags_zero_tag_order :
    (extractBindingTags [(c!"A", { bindingTags := [(.json, {}), (.form, { name := c!"b" })] })]).2 ≠
    (extractBindingTags [(c!"A", { bindingTags := [(.form, { name := c!"b" }), (.json, {})] })]).2 := by decide

end Astra.Props
