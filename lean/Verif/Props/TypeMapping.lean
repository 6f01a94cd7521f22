/-
C32: custom type mappings.
-/
import Verif.Lemmas.Basic
import Verif.Model.TypeMapping

namespace Astra.Props

/-- The definition a list of (name, format) writes leaves for a name: the last one. -/
def lastDefinition (entries : List (Str × TypeFormat)) (key : Str) : Option TypeFormat :=
  (entries.reverse.find? (fun e => e.1 = key)).map (·.2)

theorem mget_foldl_mset {V : Type} (entries : List (Str × V)) (m : List (Str × V)) (key : Str) :
    mget (entries.foldl (fun acc e => mset acc e.1 e.2) m) key
      = ((entries.reverse.find? (fun e => e.1 = key)).map (·.2)).or (mget m key) := by
  induction entries generalizing m with
  | nil => simp
  | cons e r ih =>
    rw [List.foldl_cons, ih, mget_mset, List.reverse_cons, List.find?_append]
    cases h : r.reverse.find? (fun e => decide (e.1 = key)) with
    | some x => simp
    | none =>
      by_cases hk : e.1 = key
      · simp [hk]
      · simp [hk]

/-- A look-up performed after some earlier look-ups. -/
def lookupAfter (m : TypeMaps) (earlier : List (Str × Str)) (key pkg : Str) : Option TypeFormat :=
  ((earlier.foldl (fun m q => (m.get q.1 q.2).1) m).get key pkg).2

theorem MSorted_foldl {V : Type} (entries : List (Str × V)) (m : List (Str × V)) (h : MSorted m) :
    MSorted (entries.foldl (fun acc e => mset acc e.1 e.2) m) := by
  induction entries generalizing m with
  | nil => exact h
  | cons e r ih => exact ih _ (MSorted_mset h e.1 e.2)

theorem lookup_fresh (custom : List (Str × TypeFormat)) (earlier : List (Str × Str)) (key pkg : Str) :
    lookupAfter { custom := custom, full := none } earlier key pkg
      = mget (mapsCopy (mapsCopy [] predefinedTypeMap) custom) (typeMappingKey key pkg) := by
  have h : ∀ (earlier : List (Str × Str)) (m : TypeMaps),
      (m.full = none ∧ m.custom = custom ∨ m.full = some (mapsCopy (mapsCopy [] predefinedTypeMap) custom)) →
      lookupAfter m earlier key pkg = mget (mapsCopy (mapsCopy [] predefinedTypeMap) custom) (typeMappingKey key pkg) := by
    intro earlier
    induction earlier with
    | nil =>
      rintro ⟨cu, fu⟩ (⟨h1, h2⟩ | h1)
      · simp only at h1 h2; subst h1 h2; rfl
      · simp only at h1; subst h1; rfl
    | cons q r ih =>
      rintro ⟨cu, fu⟩ (⟨h1, h2⟩ | h1)
      · simp only at h1 h2; subst h1 h2
        exact ih _ (Or.inr rfl)
      · simp only at h1; subst h1
        exact ih _ (Or.inr rfl)
  exact h earlier _ (Or.inl ⟨rfl, rfl⟩)

/-- The name a type is mapped under: a builtin by its own name, any other by `package.name`. -/
def mappingName (key pkg : Str) : Str := if key ∈ acceptedTypes then key else pkg ++ '.' :: key

/-- C32: for any options given before the first look-up (any number of calls, each with any map) and any number of
earlier look-ups: a look-up returns the last custom definition for the name, and the predefined one only if there is no
custom one. -/
theorem custom_mapping_wins (options : List (List (Str × TypeFormat))) (earlier : List (Str × Str)) (key pkg : Str) :
    lookupAfter (options.foldl TypeMaps.addCustom {}) earlier key pkg
      = (lastDefinition options.flatten (mappingName key pkg)).or
          ((predefinedTypeMap.find? (fun e => e.1 = mappingName key pkg)).map (·.2)) := by
  have hfold : ∀ (options : List (List (Str × TypeFormat))) (m : TypeMaps), options.foldl TypeMaps.addCustom m
      = { m with custom := options.flatten.foldl (fun acc e => mset acc e.1 e.2) m.custom } := by
    intro options
    induction options with
    | nil => intro m; rfl
    | cons o r ih =>
      intro m
      rw [List.foldl_cons, ih]
      simp [TypeMaps.addCustom, List.foldl_append]
  have hname : typeMappingKey key pkg = mappingName key pkg := by
    unfold typeMappingKey mappingName isAcceptedType
    by_cases h : key ∈ acceptedTypes
    · rw [if_pos h, if_pos (elemB_iff.mpr h)]
    · rw [if_neg h, if_neg (fun e => h (elemB_iff.mp e))]
  rw [hfold]
  rw [lookup_fresh, hname]
  generalize mappingName key pkg = k
  unfold mapsCopy
  rw [mget_foldl_mset, mget_foldl_mset]
  have hs : MSorted (options.flatten.foldl (fun acc e => mset acc e.1 e.2) ([] : List (Str × TypeFormat))) :=
    MSorted_foldl _ _ MSorted_nil
  have hcustom : ∀ (l : List (Str × TypeFormat)), MSorted l →
      (l.reverse.find? (fun e => decide (e.1 = k))).map (·.2) = mget l k := by
    intro l hl
    rw [find_reverse_of_nodup hl.nodup, ← aget_eq_find, mget_eq_aget]
  rw [show (({} : TypeMaps).custom) = [] from rfl, hcustom _ hs, mget_foldl_mset]
  have hpre : (predefinedTypeMap.reverse.find? (fun e => decide (e.1 = k))).map (·.2)
      = (predefinedTypeMap.find? (fun e => decide (e.1 = k))).map (·.2) :=
    find_reverse_of_nodup (by decide) k
  rw [hpre]
  simp [lastDefinition, mget]

theorem qualified_split {x pkg key : Str} (hd : '.' ∉ key) (h : x = pkg ++ '.' :: key) :
    key = (x.reverse.takeWhile (· ≠ '.')).reverse ∧ pkg = ((x.reverse.dropWhile (· ≠ '.')).drop 1).reverse := by
  have hr : x.reverse = key.reverse ++ '.' :: pkg.reverse := by rw [h]; simp
  have hk : ∀ c ∈ key.reverse, decide (c ≠ '.') = true := by
    intro c hc
    simp only [List.mem_reverse] at hc
    simpa using fun e : c = '.' => hd (e ▸ hc)
  rw [hr]
  have h1 : (key.reverse ++ '.' :: pkg.reverse).takeWhile (fun c => decide (c ≠ '.')) = key.reverse := by
    rw [List.takeWhile_append_of_pos hk]; simp
  have h2 : (key.reverse ++ '.' :: pkg.reverse).dropWhile (fun c => decide (c ≠ '.')) = '.' :: pkg.reverse := by
    rw [List.dropWhile_append_of_pos hk]; simp
  rw [h1, h2]
  simp

/-- C32: a type of a package that no option mentions is documented as a date-time if it is `time.Time`, as a uuid if it is the `UUID` of
google/uuid, and has no mapping otherwise. -/
theorem default_mapping (options : List (List (Str × TypeFormat))) (earlier : List (Str × Str)) (key pkg : Str) (hk : key ∉ acceptedTypes)
    (hd : '.' ∉ key) (hno : ∀ e ∈ options.flatten, e.1 ≠ pkg ++ '.' :: key) :
    lookupAfter (options.foldl TypeMaps.addCustom {}) earlier key pkg =
      if pkg = c!"time" ∧ key = c!"Time" then some ⟨c!"string", c!"date-time"⟩
      else if pkg = c!"github.com/google/uuid" ∧ key = c!"UUID" then some ⟨c!"string", c!"uuid"⟩
      else none := by
  rw [custom_mapping_wins, show mappingName key pkg = pkg ++ '.' :: key from if_neg hk]
  have hl : lastDefinition options.flatten (pkg ++ '.' :: key) = none := by
    unfold lastDefinition
    rw [Option.map_eq_none_iff, List.find?_eq_none]
    intro e he
    simpa using hno e (List.mem_reverse.mp he)
  rw [hl, Option.none_or]
  by_cases h1 : pkg = c!"time" ∧ key = c!"Time"
  · rw [h1.1, h1.2]; decide
  · by_cases h2 : pkg = c!"github.com/google/uuid" ∧ key = c!"UUID"
    · rw [h2.1, h2.2]; decide
    · rw [if_neg h1, if_neg h2, Option.map_eq_none_iff, List.find?_eq_none]
      intro e he
      simp only [decide_eq_true_eq]
      intro hx
      have hall : ∀ e ∈ predefinedTypeMap, '.' ∈ e.1 → e.1 = c!"time.Time" ∨ e.1 = c!"github.com/google/uuid.UUID" := by decide +kernel
      obtain ⟨q1, q2⟩ := qualified_split hd hx
      rcases hall e he (by rw [hx]; simp) with h | h
      · rw [h] at q1 q2; exact h1 ⟨q2, q1⟩
      · rw [h] at q1 q2; exact h2 ⟨q2, q1⟩

/-- C32, limit: a custom mapping added after the first look-up has no effect. -/
theorem custom_mapping_after_first_lookup_ignored (m : TypeMaps) (q : Str × Str) (entries : List (Str × TypeFormat))
    (key pkg : Str) :
    (((m.get q.1 q.2).1.addCustom entries).get key pkg).2 = ((m.get q.1 q.2).1.get key pkg).2 := rfl

/-- C32, limit: a user type that has the name of an accepted type is looked up without its package. -/
theorem builtin_name_ignores_package (m : TypeMaps) (key p p' : Str) (h : key ∈ acceptedTypes) :
    (m.get key p).2 = (m.get key p').2 := by
  unfold TypeMaps.get typeMappingKey isAcceptedType
  rw [elemB_iff.mpr h]
  rfl

example : (((({} : TypeMaps).addCustom [(c!"time.Time", ⟨c!"integer", []⟩)]).addCustom
    [(c!"time.Time", ⟨c!"integer", c!"int64"⟩)]).get c!"Time" c!"time").2 = some ⟨c!"integer", c!"int64"⟩ := by decide
example : c!"Post" ∉ acceptedTypes ∧ '.' ∉ c!"Post" ∧ ∀ e ∈ [[(c!"time.Time", (⟨c!"integer", []⟩ : TypeFormat))]].flatten, e.1 ≠ c!"blog" ++ '.' :: c!"Post" := by
  decide
example : (({} : TypeMaps).get c!"Time" c!"time").2 = some ⟨c!"string", c!"date-time"⟩ := by decide

end Astra.Props
