/-
Lemmas about the JSON form of the service: reading back what was written.
-/
import Verif.Model.Codec
import Verif.Spec.Cache
import Verif.Lemmas.Json

namespace Astra
open Spec

/-! ### Generic parts -/

theorem aget_members_none {ms : List Member} {k : Str} (h : k ∉ ms.map (·.key)) : aget (members ms) k = none := by
  induction ms with
  | nil => rfl
  | cons m ms ih =>
    simp only [List.map_cons, List.mem_cons, not_or] at h
    simp only [members]
    split
    · exact ih h.2
    · simp only [aget, if_neg (fun e : m.key = k => h.1 e.symm)]; exact ih h.2

theorem lastMember_members_none {ms : List Member} {k : Str} (h : foldKey k ∉ ms.map (fun m => foldKey m.key)) :
    lastMember (members ms) k = none := by
  induction ms with
  | nil => rfl
  | cons m ms ih =>
    simp only [List.map_cons, List.mem_cons, not_or] at h
    simp only [members]
    split
    · exact ih h.2
    · simp only [lastMember, ih h.2, if_neg (fun e : foldKey m.key = foldKey k => h.1 e.symm)]

theorem member_members {ms : List Member} (hn : (ms.map (fun m => foldKey m.key)).Nodup) {m : Member} (hm : m ∈ ms) :
    member (members ms) m.key = m.value ∨ (isZeroJson m.value = true ∧ member (members ms) m.key = .null) := by
  induction ms with
  | nil => cases hm
  | cons a as ih =>
    simp only [List.map_cons, List.nodup_cons] at hn
    rcases List.mem_cons.mp hm with rfl | hm
    · simp only [members]
      split
      · rename_i h
        simp only [Bool.and_eq_true] at h
        exact Or.inr ⟨h.2, by simp [member, lastMember_members_none hn.1]⟩
      · exact Or.inl (by simp [member, lastMember, lastMember_members_none hn.1])
    · have hne : foldKey a.key ≠ foldKey m.key := by
        intro e; exact hn.1 (by rw [e]; exact List.mem_map.mpr ⟨m, hm, rfl⟩)
      simp only [members]
      split
      · exact ih hn.2 hm
      · have : member ((a.key, a.value) :: members as) m.key = member (members as) m.key := by
          simp only [member, lastMember, hne, if_false]
          cases lastMember (members as) m.key <;> rfl
        rw [this]; exact ih hn.2 hm

/-- Reading a member gives what reading its value gives, if the reader treats empty values as null. -/
theorem read_member {α : Type} (R : Json → Option α) {ms : List Member} (hn : (ms.map (fun m => foldKey m.key)).Nodup) {o : Bool} {k : Str} {v : Json}
    (hm : ⟨o, k, v⟩ ∈ ms) (hz : isZeroJson v = true → R v = R .null) : R (member (members ms) k) = R v := by
  rcases member_members hn hm with h | ⟨h1, h2⟩
  · exact congrArg R h
  · simp only at h1 h2; rw [h2, hz h1]

theorem readStr_zero (s : Str) (h : isZeroJson (.str s) = true) : readStr (.str s) = readStr .null := by
  cases s with
  | nil => rfl
  | cons c cs => simp [isZeroJson] at h

theorem readBool_zero (b : Bool) (h : isZeroJson (.bool b) = true) : readBool (.bool b) = readBool .null := by
  cases b with
  | false => rfl
  | true => simp [isZeroJson] at h

theorem atoi_itoa (i : Int) : atoi (itoa i) = some i := by
  cases i with
  | ofNat n =>
    have hd : ∀ c ∈ natToStr n, 48 ≤ c.toNat ∧ c.toNat ≤ 57 := natDigits_digits _ _
    have hne : natToStr n ≠ [] := natDigits_ne_nil _ _
    have hp := parseNat_natToStr n
    simp only [itoa]
    cases hs : natToStr n with
    | nil => exact absurd hs hne
    | cons c cs =>
      rw [hs] at hp hd
      have hc := hd c (by simp)
      have h1 : c ≠ '-' := by intro e; subst e; revert hc; decide
      have h2 : c ≠ '+' := by intro e; subst e; revert hc; decide
      rw [atoi]
      · rw [hp]; rfl
      · intro s e; exact h1 (List.cons.inj e).1
      · intro s e; exact h2 (List.cons.inj e).1
  | negSucc n => simp only [itoa, atoi, parseNat_natToStr, Option.map_some]; rfl

theorem readInt_zero (i : Int) (h : isZeroJson (.num (itoa i)) = true) : readInt (.num (itoa i)) = readInt .null := by
  simp only [isZeroJson, decide_eq_true_eq] at h
  have : itoa i = itoa 0 := by rw [h]; decide
  have := itoa_inj this
  subst this
  simp only [readInt, atoi_itoa]

theorem readArr_zero {α : Type} (f : Json → Option α) (xs : List Json) (h : isZeroJson (.arr xs) = true) :
    readArr f (.arr xs) = readArr f .null := by
  cases xs with
  | nil => rfl
  | cons x xs => simp [isZeroJson] at h

theorem readMap_zero {K α : Type} (key : Str → Option K) (f : Json → Option α) (ms : List (Str × Json))
    (h : isZeroJson (.obj ms) = true) : readMap key f (.obj ms) = readMap key f .null := by
  cases ms with
  | nil => rfl
  | cons x xs => simp [isZeroJson] at h

theorem readAll_map {α β γ : Type} {f : β → Option γ} {e : α → β} {d : α → γ} (xs : List α) (h : ∀ x ∈ xs, f (e x) = some (d x)) :
    readAll f (xs.map e) = some (xs.map d) := by
  induction xs with
  | nil => rfl
  | cons x xs ih =>
    simp only [List.map_cons, readAll, h x (by simp), ih (fun y hy => h y (by simp [hy]))]

theorem readAll_each {α β γ : Type} {f : β → Option γ} {e : α → β} {R : α → γ → Prop} (xs : List α)
    (h : ∀ x ∈ xs, ∃ y, f (e x) = some y ∧ R x y) : ∃ ys, readAll f (xs.map e) = some ys ∧ Each R xs ys := by
  induction xs with
  | nil => exact ⟨[], rfl, .nil⟩
  | cons x xs ih =>
    obtain ⟨y, hy, hr⟩ := h x (by simp)
    obtain ⟨ys, hys, hrs⟩ := ih (fun z hz => h z (by simp [hz]))
    exact ⟨y :: ys, by simp only [List.map_cons, readAll, hy, hys], .cons hr hrs⟩

theorem readAll_perm {α β : Type} {f : α → Option β} {xs xs' : List α} (hp : xs.Perm xs') {ys : List β} (h : readAll f xs = some ys) :
    ∃ ys', readAll f xs' = some ys' ∧ ys.Perm ys' := by
  induction hp generalizing ys with
  | nil => exact ⟨ys, h, .refl _⟩
  | cons x hp ih =>
    simp only [readAll] at h
    split at h
    · cases h
    · rename_i y hy
      split at h
      · cases h
      · rename_i zs hzs
        cases h
        obtain ⟨zs', h1, h2⟩ := ih hzs
        exact ⟨y :: zs', by simp only [readAll, hy, h1], h2.cons y⟩
  | swap x y l =>
    simp only [readAll] at h
    split at h
    · cases h
    · rename_i b hb
      split at h
      · cases h
      · rename_i zs hzs
        split at hzs
        · cases hzs
        · rename_i a ha
          split at hzs
          · cases hzs
          · rename_i ws hws
            cases hzs; cases h
            exact ⟨a :: b :: ws, by simp only [readAll, ha, hb, hws], .swap _ _ _⟩
  | trans _ _ ih1 ih2 =>
    obtain ⟨ys1, h1, p1⟩ := ih1 h
    obtain ⟨ys2, h2, p2⟩ := ih2 h1
    exact ⟨ys2, h2, p1.trans p2⟩

theorem mset_perm {V : Type} {m : List (Str × V)} {k : Str} (v : V) (h : k ∉ m.map (·.1)) : (mset m k v).Perm ((k, v) :: m) := by
  induction m with
  | nil => exact .refl _
  | cons e m ih =>
    simp only [List.map_cons, List.mem_cons, not_or] at h
    simp only [mset, if_neg (fun e' : e.1 = k => h.1 e'.symm)]
    split
    · exact .refl _
    · exact ((ih h.2).cons e).trans (.swap _ _ _)

theorem foldl_mset_perm {V : Type} (l : List (Str × V)) : ∀ acc : List (Str × V), ((acc ++ l).map (·.1)).Nodup →
    (l.foldl (fun acc e => mset acc e.1 e.2) acc).Perm (acc ++ l) := by
  induction l with
  | nil => intro acc _; simp
  | cons e l ih =>
    intro acc hn
    have hk : e.1 ∉ acc.map (·.1) := by
      simp only [List.map_append, List.map_cons, List.nodup_append] at hn
      intro hm
      exact hn.2.2 _ hm e.1 (by simp) rfl
    have hp := mset_perm e.2 hk
    have hp2 : (mset acc e.1 e.2 ++ l).Perm (acc ++ e :: l) :=
      (hp.append_right l).trans (List.perm_middle (l₁ := acc) (a := e) (l₂ := l)).symm
    have hn2 : ((mset acc e.1 e.2 ++ l).map (·.1)).Nodup := (hp2.map _).nodup_iff.mpr hn
    exact (ih _ hn2).trans hp2

theorem sortedMembers_perm {ms : List (Str × Json)} (hn : (ms.map (·.1)).Nodup) : (sortedMembers ms).Perm ms := by
  have := foldl_mset_perm ms [] (by simpa using hn)
  rw [List.nil_append] at this
  exact this

theorem sortedMembers_nil_iff (ms : List (Str × Json)) (hn : (ms.map (·.1)).Nodup) : sortedMembers ms = [] ↔ ms = [] :=
  ⟨fun h => by have := sortedMembers_perm hn; rw [h] at this; simpa using this.symm.eq_nil, fun h => by subst h; rfl⟩

/-- A map is read back up to the order of its entries. -/
theorem readMap_sorted {K V : Type} {toStr : K → Str} {key : Str → Option K} {enc : V → Json} {dec : Json → Option V}
    (hk : ∀ k, key (toStr k) = some k) (l : List (K × V)) (hd : ∀ e ∈ l, dec (enc e.2) = some e.2) (hn : (l.map (·.1)).Nodup) :
    ∃ l', readMap key dec (.obj (sortedMembers (l.map (fun e => (toStr e.1, enc e.2))))) = some l' ∧ l.Perm l' := by
  have hinj : ∀ a b, toStr a = toStr b → a = b := by
    intro a b h
    have := hk a; rw [h, hk b] at this; exact (Option.some.inj this).symm
  have hn2 : ((l.map (fun e => (toStr e.1, enc e.2))).map (·.1)).Nodup := by
    simp only [List.map_map]
    have : l.map ((fun x => x.1) ∘ fun e => (toStr e.1, enc e.2)) = (l.map (·.1)).map toStr := by simp [List.map_map]
    rw [this]
    exact List.Pairwise.map toStr (fun a b hab e => hab (hinj a b e)) hn
  have h1 : readAll (readEntry key dec) (l.map (fun e => (toStr e.1, enc e.2))) = some (l.map id) :=
    readAll_map l (fun e he => by simp [readEntry, hk, hd e he])
  obtain ⟨l', h2, h3⟩ := readAll_perm (sortedMembers_perm hn2).symm h1
  exact ⟨l', h2, by simpa using h3⟩

theorem member_nil (k : Str) : member [] k = .null := rfl

/-! ### Leaf types -/

theorem bTagOf_toStr (b : BTag) : bTagOf b.toStr = some b := by cases b <;> decide

theorem vTagOf_toStr (v : VTag) : vTagOf v.toStr = some v := by cases v <;> decide

theorem decBindingTag_enc (t : BindingTag) : decBindingTag (encBindingTag t) = some t := by
  simp only [decBindingTag, encBindingTag, readObj]
  rw [read_member readStr (o := true) (v := .str t.name) (by simp only [List.map_cons, List.map_nil]; decide) (by simp) (readStr_zero _),
    read_member readBool (o := true) (v := .bool t.notShown) (by simp only [List.map_cons, List.map_nil]; decide) (by simp) (readBool_zero _),
    read_member readBool (o := true) (v := .bool t.returnOptional) (by simp only [List.map_cons, List.map_nil]; decide) (by simp) (readBool_zero _)]
  rfl

theorem decValidationTag_enc (b : Bool) : decValidationTag (encValidationTag b) = some b := by
  simp only [decValidationTag, encValidationTag, readObj]
  rw [read_member readBool (o := true) (v := .bool b) (by simp only [List.map_cons, List.map_nil]; decide) (by simp) (readBool_zero _)]
  rfl

theorem decEnum_enc (f64 : Str → Str) (v : EnumVal) : decEnum f64 (encEnum v) = some (asFloat f64 v) := by
  cases v <;> rfl

/-! ### Fields -/

/-- The keys of the members of a field. -/
def fieldKeys : List Str := [c!"package", c!"type", c!"name", c!"enumValues", c!"isRequired", c!"isEmbedded", c!"sliceType",
  c!"arrayType", c!"arrayLength", c!"mapKeyPackage", c!"mapKeyType", c!"mapValueType", c!"structFields", c!"structFieldBindingTags",
  c!"structFieldValidationTags", c!"doc"]

theorem fieldKeys_nodup : (fieldKeys.map foldKey).Nodup := by decide

theorem decFieldEntries_eq (f64 : Str → Str) (ms : List (Str × Json)) :
    decFieldEntries f64 ms = readAll (readEntry some (decField f64)) ms := by
  induction ms with
  | nil => simp [decFieldEntries, readAll]
  | cons e ms ih =>
    obtain ⟨k, v⟩ := e
    simp only [decFieldEntries, readAll, readEntry, ih]
    cases decField f64 v with
    | none => rfl
    | some f => cases readAll (readEntry some (decField f64)) ms <;> rfl

theorem decFieldMap_eq (f64 : Str → Str) (v : Json) : decFieldMap f64 v = readMap some (decField f64) v := by
  cases v <;> simp [decFieldMap, readMap, decFieldEntries_eq]

theorem decStructFields_eq (f64 : Str → Str) (ms : List (Str × Json)) :
    decStructFields f64 ms = readMap some (decField f64) (member ms c!"structFields") := by
  induction ms with
  | nil => simp [decStructFields, member, lastMember, readMap]
  | cons e ms ih =>
    obtain ⟨k, v⟩ := e
    simp only [decStructFields, member, lastMember]
    rw [member] at ih
    cases h : lastMember ms c!"structFields" with
    | some w => simpa [h] using ih
    | none =>
      simp only [Option.isSome_none, Bool.false_eq_true, if_false]
      split
      · simp [decFieldMap_eq]
      · simp [readMap]

theorem encFields_eq (fs : List (Str × Field)) : encFields fs = fs.map (fun e => (e.1, encField e.2)) := by
  induction fs with
  | nil => simp [encFields]
  | cons e fs ih => obtain ⟨k, f⟩ := e; simp [encFields, ih]

theorem mapEnumsList_eq (g : EnumVal → EnumVal) (fs : List (Str × Field)) :
    mapEnumsList g fs = fs.map (fun e => (e.1, mapEnums g e.2)) := by
  induction fs with
  | nil => simp [mapEnumsList]
  | cons e fs ih => obtain ⟨k, f⟩ := e; simp [mapEnumsList, ih]

theorem each_map_left {α β γ : Type} {R : γ → β → Prop} {g : α → γ} {l : List α} {l' : List β} (h : Each (fun a b => R (g a) b) l l') :
    Each R (l.map g) l' := by
  induction h with
  | nil => exact .nil
  | cons h _ ih => exact .cons h ih

/-- Related struct fields, one by one. -/
theorem SameField.each (f : Field) (before : List (Str × Field)) {l l' : List (Str × Field)}
    (h : Each (fun e e' : Str × Field => e'.1 = e.1 ∧ SameField e.2 e'.2) l l') (hf : f.structFields = before ++ l) :
    SameField f { f with structFields := before ++ l' } := by
  induction h generalizing f before with
  | nil =>
    rw [← hf]
    clear hf
    cases f
    exact .refl _
  | @cons a b as bs hab _ ih =>
    obtain ⟨ka, fa⟩ := a
    obtain ⟨kb, fb⟩ := b
    simp only at hab
    obtain ⟨rfl, hs⟩ := hab
    have h1 := SameField.inner f hf hs
    have h2 := ih { f with structFields := before ++ (kb, fb) :: as } (before ++ [(kb, fb)]) (by simp)
    have : before ++ [(kb, fb)] ++ bs = before ++ (kb, fb) :: bs := by simp
    rw [this] at h2
    exact .trans h1 h2

/-- Reading back a field. -/
theorem decField_enc (f64 : Str → Str) (f : Field) (hm : GoMaps f) : ∃ f', decField f64 (encField f) = some f' ∧ Restored f64 f f' := by
  induction hm with
  | @mk f hn hb hv _ ih =>
    obtain ⟨package, type, name, enumValues, isRequired, isEmbedded, sliceType, arrayType, arrayLength, mapKeyPackage, mapKeyType,
      mapValueType, structFields, bindingTags, validationTags, doc⟩ := f
    simp only at hn hb hv ih
    simp only [encField, decField, decStructFields_eq]
    have hk : ((fieldMembers package type name enumValues isRequired isEmbedded sliceType arrayType arrayLength mapKeyPackage
      mapKeyType mapValueType (encFields structFields) bindingTags validationTags doc).map (fun m => foldKey m.key)).Nodup := fieldKeys_nodup
    -- the struct fields
    have hn2 : ((encFields structFields).map (·.1)).Nodup := by
      rw [encFields_eq, List.map_map]; exact hn
    obtain ⟨fs1, h1, h2⟩ := readAll_each (f := readEntry some (decField f64)) (e := fun e : Str × Field => (e.1, encField e.2))
      (R := fun e e' : Str × Field => e'.1 = e.1 ∧ Restored f64 e.2 e'.2) structFields (fun e he => by
        obtain ⟨f', hf, hr⟩ := ih e he
        exact ⟨(e.1, f'), by simp [readEntry, hf], rfl, hr⟩)
    rw [← encFields_eq] at h1
    obtain ⟨fs2, h3, h4⟩ := readAll_perm (sortedMembers_perm hn2).symm h1
    -- the tags
    obtain ⟨bt, h5, h6⟩ := readMap_sorted bTagOf_toStr (dec := decBindingTag) bindingTags (fun e _ => decBindingTag_enc e.2) hb
    obtain ⟨vt, h7, h8⟩ := readMap_sorted vTagOf_toStr (dec := decValidationTag) validationTags (fun e _ => decValidationTag_enc e.2) hv
    rw [read_member (readMap some (decField f64)) (o := true) (v := .obj (sortedMembers (encFields structFields))) hk (by simp [fieldMembers])
      (readMap_zero _ _ _)]
    have h3' : readMap some (decField f64) (.obj (sortedMembers (encFields structFields))) = some fs2 := h3
    simp only [h3', decFieldWith]
    rw [read_member readStr (o := true) (k := c!"package") (v := .str package) hk (by simp [fieldMembers]) (readStr_zero _),
      read_member readStr (o := true) (k := c!"type") (v := .str type) hk (by simp [fieldMembers]) (readStr_zero _),
      read_member readStr (o := true) (k := c!"name") (v := .str name) hk (by simp [fieldMembers]) (readStr_zero _),
      read_member (readArr (decEnum f64)) (o := true) (k := c!"enumValues") (v := .arr (enumValues.map encEnum)) hk (by simp [fieldMembers]) (readArr_zero _ _),
      read_member readBool (o := true) (k := c!"isRequired") (v := .bool isRequired) hk (by simp [fieldMembers]) (readBool_zero _),
      read_member readBool (o := true) (k := c!"isEmbedded") (v := .bool isEmbedded) hk (by simp [fieldMembers]) (readBool_zero _),
      read_member readStr (o := true) (k := c!"sliceType") (v := .str sliceType) hk (by simp [fieldMembers]) (readStr_zero _),
      read_member readStr (o := true) (k := c!"arrayType") (v := .str arrayType) hk (by simp [fieldMembers]) (readStr_zero _),
      read_member readInt (o := true) (k := c!"arrayLength") (v := .num (itoa arrayLength)) hk (by simp [fieldMembers]) (readInt_zero _),
      read_member readStr (o := true) (k := c!"mapKeyPackage") (v := .str mapKeyPackage) hk (by simp [fieldMembers]) (readStr_zero _),
      read_member readStr (o := true) (k := c!"mapKeyType") (v := .str mapKeyType) hk (by simp [fieldMembers]) (readStr_zero _),
      read_member readStr (o := true) (k := c!"mapValueType") (v := .str mapValueType) hk (by simp [fieldMembers]) (readStr_zero _),
      read_member (readMap bTagOf decBindingTag) (o := true) (k := c!"structFieldBindingTags")
        (v := .obj (sortedMembers (bindingTags.map (fun e => (e.1.toStr, encBindingTag e.2))))) hk (by simp [fieldMembers]) (readMap_zero _ _ _),
      read_member (readMap vTagOf decValidationTag) (o := true) (k := c!"structFieldValidationTags")
        (v := .obj (sortedMembers (validationTags.map (fun e => (e.1.toStr, encValidationTag e.2))))) hk (by simp [fieldMembers]) (readMap_zero _ _ _),
      read_member readStr (o := true) (k := c!"doc") (v := .str doc) hk (by simp [fieldMembers]) (readStr_zero _),
      h5, h7]
    have he : readArr (decEnum f64) (.arr (enumValues.map encEnum)) = some (enumValues.map (asFloat f64)) :=
      readAll_map _ (fun v _ => decEnum_enc f64 v)
    rw [he]
    simp only [readStr, readBool, readInt, atoi_itoa, Option.bind_eq_bind, Option.bind_some, Option.pure_def]
    refine ⟨_, rfl, ?_⟩
    -- the relation
    have e1 := SameField.each (mapEnums (asFloat f64) ⟨package, type, name, enumValues, isRequired, isEmbedded, sliceType, arrayType,
      arrayLength, mapKeyPackage, mapKeyType, mapValueType, structFields, bindingTags, validationTags, doc⟩) []
      (l := mapEnumsList (asFloat f64) structFields) (l' := fs1) (by
        rw [mapEnumsList_eq]
        exact each_map_left h2) (by simp [mapEnums])
    refine SameField.trans e1 ?_
    simp only [mapEnums, List.nil_append]
    refine SameField.trans (SameField.fields _ h4) ?_
    refine SameField.trans (SameField.tags _ h6) ?_
    exact SameField.validations _ h8

theorem each_append {α β : Type} {R : α → β → Prop} {l : List α} {l' : List β} (h : Each R l l') : l.length = l'.length := by
  induction h with
  | nil => rfl
  | cons _ _ ih => simp [ih]

/-! ### Parameters, return types and routes -/

theorem encField_not_zero_null (f64 : Str → Str) (f : Field) (h : isZeroJson (encField f) = true) :
    decField f64 (encField f) = decField f64 .null := by
  cases f
  simp only [encField] at h ⊢
  generalize members _ = ms at h
  cases ms with
  | nil => simp [decField, decStructFields]
  | cons e ms => simp [isZeroJson] at h

theorem decParam_enc (f64 : Str → Str) (p : Param) (hm : GoMaps p.field) :
    ∃ p', decParam f64 (encParam p) = some p' ∧ RestoredParam f64 p p' := by
  obtain ⟨f', hf, hr⟩ := decField_enc f64 p.field hm
  refine ⟨{ p with field := f' }, ?_, hr, rfl⟩
  simp only [decParam, encParam, readObj]
  rw [read_member readStr (o := true) (k := c!"name") (v := .str p.name) (by simp only [List.map_cons, List.map_nil]; decide) (by simp) (readStr_zero _),
    read_member (decField f64) (o := false) (k := c!"type") (v := encField p.field) (by simp only [List.map_cons, List.map_nil]; decide) (by simp) (encField_not_zero_null _ _),
    read_member readBool (o := true) (k := c!"isRequired") (v := .bool p.isRequired) (by simp only [List.map_cons, List.map_nil]; decide) (by simp) (readBool_zero _),
    read_member readBool (o := true) (k := c!"isArray") (v := .bool p.isArray) (by simp only [List.map_cons, List.map_nil]; decide) (by simp) (readBool_zero _),
    read_member readBool (o := true) (k := c!"isMap") (v := .bool p.isMap) (by simp only [List.map_cons, List.map_nil]; decide) (by simp) (readBool_zero _),
    read_member readBool (o := true) (k := c!"isBound") (v := .bool p.isBound) (by simp only [List.map_cons, List.map_nil]; decide) (by simp) (readBool_zero _),
    hf]
  rfl

theorem decBodyParam_enc (f64 : Str → Str) (p : BodyParam) (hm : GoMaps p.field) :
    ∃ p', decBodyParam f64 (encBodyParam p) = some p' ∧ RestoredBody f64 p p' := by
  obtain ⟨f', hf, hr⟩ := decField_enc f64 p.field hm
  refine ⟨{ p with field := f' }, ?_, hr, rfl⟩
  simp only [decBodyParam, encBodyParam, readObj]
  rw [read_member readStr (o := true) (k := c!"name") (v := .str p.name) (by simp only [List.map_cons, List.map_nil]; decide) (by simp) (readStr_zero _),
    read_member (decField f64) (o := false) (k := c!"type") (v := encField p.field) (by simp only [List.map_cons, List.map_nil]; decide) (by simp) (encField_not_zero_null _ _),
    read_member readStr (o := true) (k := c!"contentType") (v := .str p.contentType) (by simp only [List.map_cons, List.map_nil]; decide) (by simp) (readStr_zero _),
    read_member readBool (o := true) (k := c!"isRequired") (v := .bool p.isRequired) (by simp only [List.map_cons, List.map_nil]; decide) (by simp) (readBool_zero _),
    read_member readBool (o := true) (k := c!"isArray") (v := .bool p.isArray) (by simp only [List.map_cons, List.map_nil]; decide) (by simp) (readBool_zero _),
    read_member readBool (o := true) (k := c!"isMap") (v := .bool p.isMap) (by simp only [List.map_cons, List.map_nil]; decide) (by simp) (readBool_zero _),
    read_member readBool (o := true) (k := c!"isBound") (v := .bool p.isBound) (by simp only [List.map_cons, List.map_nil]; decide) (by simp) (readBool_zero _),
    hf]
  rfl

theorem decReturnType_enc (f64 : Str → Str) (t : ReturnType) (hm : GoMaps t.field) :
    ∃ t', decReturnType f64 (encReturnType t) = some t' ∧ RestoredReturn f64 t t' := by
  obtain ⟨f', hf, hr⟩ := decField_enc f64 t.field hm
  refine ⟨{ t with field := f' }, ?_, hr, rfl⟩
  simp only [decReturnType, encReturnType, readObj]
  rw [read_member readInt (o := true) (k := c!"statusCode") (v := .num (itoa t.statusCode)) (by simp only [List.map_cons, List.map_nil]; decide) (by simp) (readInt_zero _),
    read_member readStr (o := true) (k := c!"contentType") (v := .str t.contentType) (by simp only [List.map_cons, List.map_nil]; decide) (by simp) (readStr_zero _),
    read_member (decField f64) (o := false) (k := c!"field") (v := encField t.field) (by simp only [List.map_cons, List.map_nil]; decide) (by simp) (encField_not_zero_null _ _),
    hf]
  simp only [readInt, readStr, atoi_itoa, Option.bind_eq_bind, Option.bind_some, Option.pure_def]

theorem decRoute_enc (f64 : Str → Str) (r : Route) (hm : ∀ f ∈ routeFields r, GoMaps f) :
    ∃ r', decRoute f64 (encRoute r) = some r' ∧ RestoredRoute f64 r r' := by
  have hm' : ∀ f, (f ∈ r.pathParams.map (·.field) ∨ f ∈ r.queryParams.map (·.field) ∨ f ∈ r.body.map (·.field) ∨
      f ∈ r.returnTypes.map (·.field) ∨ f ∈ r.requestHeaders.map (·.field) ∨ f ∈ r.responseHeaders.map (·.field)) → GoMaps f := by
    intro f h
    apply hm
    simp only [routeFields, List.mem_append]
    rcases h with h | h | h | h | h | h <;> simp [h]
  obtain ⟨p1, a1, b1⟩ := readAll_each (e := encParam) r.pathParams (fun p hp => decParam_enc f64 p (hm' _ (by
    simp only [List.mem_map]; exact Or.inl ⟨p, hp, rfl⟩)))
  obtain ⟨p2, a2, b2⟩ := readAll_each (e := encParam) r.queryParams (fun p hp => decParam_enc f64 p (hm' _ (by
    simp only [List.mem_map]; exact Or.inr (Or.inl ⟨p, hp, rfl⟩))))
  obtain ⟨p3, a3, b3⟩ := readAll_each (e := encBodyParam) r.body (fun p hp => decBodyParam_enc f64 p (hm' _ (by
    simp only [List.mem_map]; exact Or.inr (Or.inr (Or.inl ⟨p, hp, rfl⟩)))))
  obtain ⟨p4, a4, b4⟩ := readAll_each (e := encReturnType) r.returnTypes (fun p hp => decReturnType_enc f64 p (hm' _ (by
    simp only [List.mem_map]; exact Or.inr (Or.inr (Or.inr (Or.inl ⟨p, hp, rfl⟩))))))
  obtain ⟨p5, a5, b5⟩ := readAll_each (e := encParam) r.requestHeaders (fun p hp => decParam_enc f64 p (hm' _ (by
    simp only [List.mem_map]; exact Or.inr (Or.inr (Or.inr (Or.inr (Or.inl ⟨p, hp, rfl⟩)))))))
  obtain ⟨p6, a6, b6⟩ := readAll_each (e := encParam) r.responseHeaders (fun p hp => decParam_enc f64 p (hm' _ (by
    simp only [List.mem_map]; exact Or.inr (Or.inr (Or.inr (Or.inr (Or.inr ⟨p, hp, rfl⟩)))))))
  refine ⟨{ r with pathParams := p1, queryParams := p2, body := p3, returnTypes := p4, requestHeaders := p5, responseHeaders := p6 },
    ?_, b1, b2, b3, b4, b5, b6, rfl⟩
  have hk : ([c!"handler", c!"file", c!"lineNo", c!"method", c!"path", c!"params", c!"queryParams", c!"body", c!"returnTypes", c!"doc",
    c!"operationId", c!"requestHeaders", c!"responseHeaders"].map foldKey).Nodup := by decide
  simp only [decRoute, encRoute, readObj]
  rw [read_member readStr (o := false) (k := c!"handler") (v := .str r.handler) (by simpa only [List.map_cons, List.map_nil] using hk) (by simp) (readStr_zero _),
    read_member readStr (o := false) (k := c!"file") (v := .str r.file) (by simpa only [List.map_cons, List.map_nil] using hk) (by simp) (readStr_zero _),
    read_member readInt (o := false) (k := c!"lineNo") (v := .num (itoa r.lineNo)) (by simpa only [List.map_cons, List.map_nil] using hk) (by simp) (readInt_zero _),
    read_member readStr (o := false) (k := c!"method") (v := .str r.method) (by simpa only [List.map_cons, List.map_nil] using hk) (by simp) (readStr_zero _),
    read_member readStr (o := false) (k := c!"path") (v := .str r.path) (by simpa only [List.map_cons, List.map_nil] using hk) (by simp) (readStr_zero _),
    read_member (readArr (decParam f64)) (o := true) (k := c!"params") (v := .arr (r.pathParams.map encParam)) (by simpa only [List.map_cons, List.map_nil] using hk) (by simp) (readArr_zero _ _),
    read_member (readArr (decParam f64)) (o := true) (k := c!"queryParams") (v := .arr (r.queryParams.map encParam)) (by simpa only [List.map_cons, List.map_nil] using hk) (by simp) (readArr_zero _ _),
    read_member (readArr (decBodyParam f64)) (o := true) (k := c!"body") (v := .arr (r.body.map encBodyParam)) (by simpa only [List.map_cons, List.map_nil] using hk) (by simp) (readArr_zero _ _),
    read_member (readArr (decReturnType f64)) (o := true) (k := c!"returnTypes") (v := .arr (r.returnTypes.map encReturnType)) (by simpa only [List.map_cons, List.map_nil] using hk) (by simp) (readArr_zero _ _),
    read_member readStr (o := true) (k := c!"doc") (v := .str r.doc) (by simpa only [List.map_cons, List.map_nil] using hk) (by simp) (readStr_zero _),
    read_member readStr (o := true) (k := c!"operationId") (v := .str r.operationId) (by simpa only [List.map_cons, List.map_nil] using hk) (by simp) (readStr_zero _),
    read_member (readArr (decParam f64)) (o := true) (k := c!"requestHeaders") (v := .arr (r.requestHeaders.map encParam)) (by simpa only [List.map_cons, List.map_nil] using hk) (by simp) (readArr_zero _ _),
    read_member (readArr (decParam f64)) (o := true) (k := c!"responseHeaders") (v := .arr (r.responseHeaders.map encParam)) (by simpa only [List.map_cons, List.map_nil] using hk) (by simp) (readArr_zero _ _)]
  simp only [readArr, a1, a2, a3, a4, a5, a6, readInt, readStr, atoi_itoa, Option.bind_eq_bind, Option.bind_some, Option.pure_def]

/-! ### Config, inputs, outputs, type mapping -/

theorem members_false (l : List (Str × Json)) : members (l.map (fun e => ⟨false, e.1, e.2⟩)) = l := by
  induction l with
  | nil => rfl
  | cons e l ih => simp [members, ih]

theorem decConfig_enc (c : Config) : decConfig (encConfig c) = some c := by
  obtain ⟨title, description, version, ⟨cn, cu, ce⟩, ⟨ln, lu⟩, secure, host, basePath, port⟩ := c
  simp [decConfig, encConfig, readObj, members, member, lastMember, foldKey, foldChar, readStr, readBool, readInt, atoi_itoa, decContact, decLicense]

theorem decConfigPtr_enc (c : Option Config) : decConfigPtr (encConfigPtr c) = some c := by
  cases c with
  | none => rfl
  | some c =>
    have h := decConfig_enc c
    have : decConfigPtr (encConfigPtr (some c)) = (decConfig (encConfig c)).map some := rfl
    rw [this, h]; rfl

theorem decInput_enc (i : Input) : decInput (encInput i) = some { mode := i.mode } := by
  simp [decInput, encInput, readObj, members, member, lastMember, foldKey, foldChar, readStr]

theorem readMap_id (l : List (Str × Json)) : readMap some some (.obj l) = some l := by
  have := readAll_map (f := readEntry some some) (e := id) (d := id) l (fun e _ => rfl)
  simpa [readMap] using this

theorem decOutput_enc (o : Output) (hn : (o.configuration.map (·.1)).Nodup) :
    ∃ o', decOutput (encOutput o) = some o' ∧ SameOutput o o' ∧ o'.generate = .missing := by
  refine ⟨{ mode := o.mode, configuration := sortedMembers o.configuration }, ?_, ⟨rfl, (sortedMembers_perm hn).symm⟩, rfl⟩
  simp [decOutput, encOutput, readObj, members, member, lastMember, foldKey, foldChar, readStr, readMap_id]

theorem decTypeFormat_enc (t : TypeFormat) : decTypeFormat (encTypeFormat t) = some t := by
  simp [decTypeFormat, encTypeFormat, readObj, members, member, lastMember, foldKey, foldChar, readStr]

/-! ### The service -/

/-- What the cache decoder returns for a written service. -/
theorem decService_enc (f64 : Str → Str) (s : Service) (hm : ∀ f ∈ serviceFields s, GoMaps f)
    (hc : ∀ o ∈ s.outputs, (o.configuration.map (·.1)).Nodup) (ht : (s.maps.custom.map (·.1)).Nodup) :
    ∃ d, decService f64 (encService s) = some d ∧ d.inputs = s.inputs.map (fun i => { mode := i.mode }) ∧
      Each (fun o o' => SameOutput o o' ∧ o'.generate = .missing) s.outputs d.outputs ∧ d.config = s.config ∧
      Each (RestoredRoute f64) s.routes d.routes ∧ Each (Restored f64) s.components d.components ∧
      s.maps.custom.Perm d.typeMapping := by
  have a1 : readAll decInput (s.inputs.map encInput) = some (s.inputs.map (fun i => { mode := i.mode })) :=
    readAll_map _ (fun i _ => decInput_enc i)
  obtain ⟨os, a2, b2⟩ := readAll_each (e := encOutput) s.outputs (fun o ho => decOutput_enc o (hc o ho))
  obtain ⟨rs, a3, b3⟩ := readAll_each (e := encRoute) s.routes (fun r hr => decRoute_enc f64 r (fun f hf =>
    hm f (List.mem_append_left _ (List.mem_flatMap.mpr ⟨r, hr, hf⟩))))
  obtain ⟨cs, a4, b4⟩ := readAll_each (e := encField) s.components (fun c hc => decField_enc f64 c (hm c (List.mem_append_right _ hc)))
  obtain ⟨tm, a5, b5⟩ := readMap_sorted (toStr := id) (key := some) (enc := encTypeFormat) (dec := decTypeFormat) (fun _ => rfl) s.maps.custom
    (fun e _ => decTypeFormat_enc e.2) ht
  refine ⟨⟨_, os, s.config, rs, cs, tm⟩, ?_, rfl, b2, rfl, b3, b4, b5⟩
  have a5' : readMap some decTypeFormat (.obj (sortedMembers (s.maps.custom.map (fun e => (e.1, encTypeFormat e.2))))) = some tm := a5
  have hk : ([c!"inputs", c!"outputs", c!"config", c!"routes", c!"components", c!"custom_type_mapping"].map foldKey).Nodup := by decide
  simp only [decService, encService, serviceMembers, readObj]
  rw [read_member (readArr decInput) (o := false) (k := c!"inputs") (v := .arr (s.inputs.map encInput)) (by simpa only [List.map_cons, List.map_nil] using hk) (by simp) (readArr_zero _ _),
    read_member (readArr decOutput) (o := false) (k := c!"outputs") (v := .arr (s.outputs.map encOutput)) (by simpa only [List.map_cons, List.map_nil] using hk) (by simp) (readArr_zero _ _),
    read_member decConfigPtr (o := false) (k := c!"config") (v := encConfigPtr s.config) (by simpa only [List.map_cons, List.map_nil] using hk) (by simp) (by
      cases s.config with
      | none => intro _; rfl
      | some c => intro h; simp [encConfigPtr, encConfig, isZeroJson, members] at h),
    read_member (readArr (decRoute f64)) (o := false) (k := c!"routes") (v := .arr (s.routes.map encRoute)) (by simpa only [List.map_cons, List.map_nil] using hk) (by simp) (readArr_zero _ _),
    read_member (readArr (decField f64)) (o := false) (k := c!"components") (v := .arr (s.components.map encField)) (by simpa only [List.map_cons, List.map_nil] using hk) (by simp) (readArr_zero _ _),
    read_member (readMap some decTypeFormat) (o := false) (k := c!"custom_type_mapping")
      (v := .obj (sortedMembers (s.maps.custom.map (fun e => (e.1, encTypeFormat e.2))))) (by simpa only [List.map_cons, List.map_nil] using hk) (by simp) (readMap_zero _ _ _), a5', decConfigPtr_enc]
  simp only [readArr, a1, a2, a3, a4, Option.bind_eq_bind, Option.bind_some, Option.pure_def]

/-! ### Enum values -/

theorem mapEnums_stable {f64 : Str → Str} {f : Field} (h : StableEnums f64 f) : mapEnums (asFloat f64) f = f := by
  induction h with
  | @mk f h1 _ ih =>
    obtain ⟨package, type, name, enumValues, isRequired, isEmbedded, sliceType, arrayType, arrayLength, mapKeyPackage, mapKeyType,
      mapValueType, structFields, bindingTags, validationTags, doc⟩ := f
    simp only at h1 ih
    have e1 : enumValues.map (asFloat f64) = enumValues := by
      have : enumValues.map (asFloat f64) = enumValues.map id := List.map_congr_left h1
      simpa using this
    have e2 : mapEnumsList (asFloat f64) structFields = structFields := by
      rw [mapEnumsList_eq]
      have : structFields.map (fun e => (e.1, mapEnums (asFloat f64) e.2)) = structFields.map id :=
        List.map_congr_left (fun e he => by simp [ih e he])
      simpa using this
    simp [mapEnums, e1, e2]

/-! ### What is written is JSON -/

theorem goodElems_iff (xs : List Json) : GoodElems xs ↔ ∀ x ∈ xs, GoodJson x := by
  induction xs with
  | nil => simp [GoodElems]
  | cons x xs ih => simp [GoodElems, ih]

theorem goodMembers_iff (ms : List (Str × Json)) : GoodMembers ms ↔ ∀ e ∈ ms, GoodJson e.2 := by
  induction ms with
  | nil => simp [GoodMembers]
  | cons e ms ih => obtain ⟨k, v⟩ := e; simp [GoodMembers, ih]

theorem mem_members {ms : List Member} {e : Str × Json} (h : e ∈ members ms) : ∃ m ∈ ms, e = (m.key, m.value) := by
  induction ms with
  | nil => simp [members] at h
  | cons m ms ih =>
    simp only [members] at h
    split at h
    · obtain ⟨m', h1, h2⟩ := ih h; exact ⟨m', by simp [h1], h2⟩
    · rcases List.mem_cons.mp h with rfl | h
      · exact ⟨m, by simp, rfl⟩
      · obtain ⟨m', h1, h2⟩ := ih h; exact ⟨m', by simp [h1], h2⟩

theorem good_members {ms : List Member} (h : ∀ m ∈ ms, GoodJson m.value) : GoodJson (.obj (members ms)) := by
  simp only [GoodJson, goodMembers_iff]
  intro e he
  obtain ⟨m, hm, rfl⟩ := mem_members he
  exact h m hm

theorem mem_sortedMembers {ms : List (Str × Json)} {e : Str × Json} (h : e ∈ sortedMembers ms) : e ∈ ms := by
  have key : ∀ (l acc : List (Str × Json)), e ∈ l.foldl (fun acc e => mset acc e.1 e.2) acc → e ∈ acc ∨ e ∈ l := by
    intro l
    induction l with
    | nil => intro acc h; exact Or.inl h
    | cons a l ih =>
      intro acc h
      rcases ih _ h with h | h
      · rcases mem_mset h with h | h
        · exact Or.inr (by simp [h])
        · exact Or.inl h
      · exact Or.inr (by simp [h])
  simpa using key ms [] h

theorem good_sortedMembers {ms : List (Str × Json)} (h : ∀ e ∈ ms, GoodJson e.2) : GoodJson (.obj (sortedMembers ms)) := by
  simp only [GoodJson, goodMembers_iff]
  exact fun e he => h e (mem_sortedMembers he)

theorem good_arr {α : Type} {e : α → Json} {xs : List α} (h : ∀ x ∈ xs, GoodJson (e x)) : GoodJson (.arr (xs.map e)) := by
  simp only [GoodJson, goodElems_iff, List.mem_map]
  rintro _ ⟨x, hx, rfl⟩
  exact h x hx

theorem isDigit_of {c : Char} (h : 48 ≤ c.toNat ∧ c.toNat ≤ 57) : c.isDigit = true := by
  have h1 : (48 : UInt32) ≤ c.val := h.1
  have h2 : c.val ≤ (57 : UInt32) := h.2
  simp [Char.isDigit, h1, h2]

theorem digit_ne_zero {n : Nat} (h0 : 0 < n) (h : n < 10) : digit n ≠ '0' := by
  have : ∀ m : Fin 10, 0 < m.val → digit m.val ≠ '0' := by decide
  exact this ⟨n, h⟩ h0

theorem natDigits_head (fuel n : Nat) (h0 : 0 < n) (hf : n < fuel) : ∃ c cs, natDigits fuel n = c :: cs ∧ c ≠ '0' := by
  induction fuel generalizing n with
  | zero => omega
  | succ fuel ih =>
    simp only [natDigits]
    split
    · rename_i h; exact ⟨_, _, rfl, digit_ne_zero h0 h⟩
    · rename_i h
      obtain ⟨c, cs, h1, h2⟩ := ih (n / 10) (by omega) (by omega)
      exact ⟨c, cs ++ [digit n], by rw [h1]; rfl, h2⟩

theorem takeWhile_all {p : Char → Bool} {s : Str} (h : ∀ c ∈ s, p c = true) : s.takeWhile p = s ∧ s.dropWhile p = [] := by
  induction s with
  | nil => exact ⟨rfl, rfl⟩
  | cons c s ih =>
    have h1 := h c (by simp)
    have h2 := ih (fun d hd => h d (by simp [hd]))
    simp [h1, h2]

theorem natToStr_number (n : Nat) : isUnsignedNumber (natToStr n) = true := by
  have hd : ∀ c ∈ natToStr n, c.isDigit = true := fun c hc => isDigit_of (natDigits_digits _ _ c hc)
  have ht := takeWhile_all hd
  simp only [isUnsignedNumber, ht.1, ht.2, Bool.and_true]
  rcases Nat.eq_zero_or_pos n with rfl | h0
  · decide
  · obtain ⟨c, cs, h1, h2⟩ := natDigits_head (n + 1) n h0 (by omega)
    have h1' : natToStr n = c :: cs := h1
    rw [h1'] at hd ⊢
    rw [intPart]
    · simp only [someDigits, List.isEmpty_cons, Bool.not_false, Bool.true_and, List.all_eq_true]; exact hd
    · intro e; exact h2 (List.cons.inj e).1
    · intro t e; exact h2 (List.cons.inj e).1

theorem goodNum_itoa (i : Int) : GoodNum (itoa i) := by
  have hd : ∀ n, ∀ c ∈ natToStr n, c.isDigit = true := fun n c hc => isDigit_of (natDigits_digits _ _ c hc)
  cases i with
  | ofNat n =>
    refine (number_iff _).1 ?_
    simp only [itoa]
    rw [isNumber]
    · exact natToStr_number n
    · intro s e
      have := hd n '-' (by rw [e]; simp)
      exact absurd this (by decide)
  | negSucc n =>
    exact (number_iff _).1 (natToStr_number _)

theorem good_field {f : Field} (h : FiniteEnums f) : GoodJson (encField f) := by
  induction h with
  | @mk f h1 _ ih =>
    obtain ⟨package, type, name, enumValues, isRequired, isEmbedded, sliceType, arrayType, arrayLength, mapKeyPackage, mapKeyType,
      mapValueType, structFields, bindingTags, validationTags, doc⟩ := f
    simp only at h1 ih
    simp only [encField]
    have g1 : GoodJson (.arr (enumValues.map encEnum)) := good_arr (fun v hv => by
      cases v with
      | str s => simp [encEnum, GoodJson]
      | bool b => simp [encEnum, GoodJson]
      | int i => simpa only [encEnum, GoodJson] using goodNum_itoa i
      | float t => simpa only [encEnum, GoodJson] using h1 t hv)
    have g2 : GoodJson (.obj (sortedMembers (encFields structFields))) := good_sortedMembers (fun e he => by
      rw [encFields_eq] at he
      obtain ⟨x, hx, rfl⟩ := List.mem_map.mp he
      exact ih x hx)
    have g3 : GoodJson (.obj (sortedMembers (bindingTags.map (fun e => (e.1.toStr, encBindingTag e.2))))) := good_sortedMembers (fun e he => by
      obtain ⟨x, _, rfl⟩ := List.mem_map.mp he
      exact good_members (by simp [GoodJson]))
    have g4 : GoodJson (.obj (sortedMembers (validationTags.map (fun e => (e.1.toStr, encValidationTag e.2))))) := good_sortedMembers (fun e he => by
      obtain ⟨x, _, rfl⟩ := List.mem_map.mp he
      exact good_members (by simp [GoodJson]))
    have g5 : GoodJson (.num (itoa arrayLength)) := by simpa only [GoodJson] using goodNum_itoa arrayLength
    have gs : ∀ s, GoodJson (.str s) := fun s => by simp [GoodJson]
    have gb : ∀ b, GoodJson (.bool b) := fun b => by simp [GoodJson]
    apply good_members
    simp only [fieldMembers, List.mem_cons, List.not_mem_nil, or_false]
    rintro m (rfl | rfl | rfl | rfl | rfl | rfl | rfl | rfl | rfl | rfl | rfl | rfl | rfl | rfl | rfl | rfl) <;>
      first | exact gs _ | exact gb _ | assumption

theorem good_param {p : Param} (h : FiniteEnums p.field) : GoodJson (encParam p) := by
  have := good_field h
  apply good_members
  simp only [List.mem_cons, List.not_mem_nil, or_false]
  rintro m (rfl | rfl | rfl | rfl | rfl | rfl) <;> first | assumption | simp [GoodJson]

theorem good_bodyParam {p : BodyParam} (h : FiniteEnums p.field) : GoodJson (encBodyParam p) := by
  have := good_field h
  apply good_members
  simp only [List.mem_cons, List.not_mem_nil, or_false]
  rintro m (rfl | rfl | rfl | rfl | rfl | rfl | rfl) <;> first | assumption | simp [GoodJson]

theorem good_int (i : Int) : GoodJson (.num (itoa i)) := by simpa only [GoodJson] using goodNum_itoa i

theorem good_returnType {t : ReturnType} (h : FiniteEnums t.field) : GoodJson (encReturnType t) := by
  have := good_field h
  apply good_members
  simp only [List.mem_cons, List.not_mem_nil, or_false]
  rintro m (rfl | rfl | rfl) <;> first | assumption | exact good_int _ | simp [GoodJson]

theorem good_route {r : Route} (h : ∀ f ∈ routeFields r, FiniteEnums f) : GoodJson (encRoute r) := by
  have hm' : ∀ f, (f ∈ r.pathParams.map (·.field) ∨ f ∈ r.queryParams.map (·.field) ∨ f ∈ r.body.map (·.field) ∨
      f ∈ r.returnTypes.map (·.field) ∨ f ∈ r.requestHeaders.map (·.field) ∨ f ∈ r.responseHeaders.map (·.field)) → FiniteEnums f := by
    intro f hf
    apply h
    simp only [routeFields, List.mem_append]
    rcases hf with h | h | h | h | h | h <;> simp [h]
  have g1 : GoodJson (.arr (r.pathParams.map encParam)) := good_arr (fun p hp => good_param (hm' _ (Or.inl (List.mem_map.mpr ⟨p, hp, rfl⟩))))
  have g2 : GoodJson (.arr (r.queryParams.map encParam)) := good_arr (fun p hp => good_param (hm' _ (Or.inr (Or.inl (List.mem_map.mpr ⟨p, hp, rfl⟩)))))
  have g3 : GoodJson (.arr (r.body.map encBodyParam)) := good_arr (fun p hp => good_bodyParam (hm' _ (Or.inr (Or.inr (Or.inl (List.mem_map.mpr ⟨p, hp, rfl⟩))))))
  have g4 : GoodJson (.arr (r.returnTypes.map encReturnType)) := good_arr (fun p hp => good_returnType (hm' _ (Or.inr (Or.inr (Or.inr (Or.inl (List.mem_map.mpr ⟨p, hp, rfl⟩)))))))
  have g5 : GoodJson (.arr (r.requestHeaders.map encParam)) := good_arr (fun p hp => good_param (hm' _ (Or.inr (Or.inr (Or.inr (Or.inr (Or.inl (List.mem_map.mpr ⟨p, hp, rfl⟩))))))))
  have g6 : GoodJson (.arr (r.responseHeaders.map encParam)) := good_arr (fun p hp => good_param (hm' _ (Or.inr (Or.inr (Or.inr (Or.inr (Or.inr (List.mem_map.mpr ⟨p, hp, rfl⟩))))))))
  apply good_members
  simp only [List.mem_cons, List.not_mem_nil, or_false]
  rintro m (rfl | rfl | rfl | rfl | rfl | rfl | rfl | rfl | rfl | rfl | rfl | rfl | rfl) <;>
    first | assumption | exact good_int _ | simp [GoodJson]

theorem good_config (c : Option Config) : GoodJson (encConfigPtr c) := by
  cases c with
  | none => simp [encConfigPtr, GoodJson]
  | some c =>
    apply good_members
    simp only [List.mem_cons, List.not_mem_nil, or_false]
    rintro m (rfl | rfl | rfl | rfl | rfl | rfl | rfl | rfl | rfl) <;>
      first | exact good_int _ | (exact good_members (by simp [GoodJson])) | simp [GoodJson]

/-- A service whose enum values have JSON texts is written as JSON. -/
theorem good_service {s : Service} (h : ∀ f ∈ serviceFields s, FiniteEnums f) (hc : ∀ o ∈ s.outputs, ∀ e ∈ o.configuration, GoodJson e.2) :
    GoodJson (encService s) := by
  have g1 : GoodJson (.arr (s.inputs.map encInput)) := good_arr (fun i _ => good_members (by simp [GoodJson]))
  have g2 : GoodJson (.arr (s.outputs.map encOutput)) := good_arr (fun o ho => by
    have := good_sortedMembers (hc o ho)
    apply good_members
    simp only [List.mem_cons, List.not_mem_nil, or_false]
    rintro m (rfl | rfl)
    · simp [GoodJson]
    · exact this)
  have g3 := good_config s.config
  have g4 : GoodJson (.arr (s.routes.map encRoute)) := good_arr (fun r hr => good_route (fun f hf =>
    h f (List.mem_append_left _ (List.mem_flatMap.mpr ⟨r, hr, hf⟩))))
  have g5 : GoodJson (.arr (s.components.map encField)) := good_arr (fun c hc => good_field (h c (List.mem_append_right _ hc)))
  have g6 : GoodJson (.obj (sortedMembers (s.maps.custom.map (fun e => (e.1, encTypeFormat e.2))))) := good_sortedMembers (fun e he => by
    obtain ⟨x, _, rfl⟩ := List.mem_map.mp he
    exact good_members (by simp [GoodJson]))
  apply good_members
  simp only [List.mem_cons, List.not_mem_nil, or_false]
  rintro m (rfl | rfl | rfl | rfl | rfl | rfl) <;> assumption

theorem good_jsonOutput {rs : List Route} {cs : List Field} (h : ∀ f ∈ rs.flatMap routeFields ++ cs, FiniteEnums f) :
    GoodJson (encJsonOutput rs cs) := by
  have g4 : GoodJson (.arr (rs.map encRoute)) := good_arr (fun r hr => good_route (fun f hf =>
    h f (List.mem_append_left _ (List.mem_flatMap.mpr ⟨r, hr, hf⟩))))
  have g5 : GoodJson (.arr (cs.map encField)) := good_arr (fun c hc => good_field (h c (List.mem_append_right _ hc)))
  apply good_members
  simp only [List.mem_cons, List.not_mem_nil, or_false]
  rintro m (rfl | rfl) <;> assumption

end Astra
