/-
C33, C34: cleaning the collected types.
-/
import Verif.Lemmas.Basic
import Verif.Model.Clean

namespace Astra.Props

/-- `g` is `f` itself or one of the struct fields nested in it, at any depth. -/
inductive Within (g : Field) : Field → Prop
  | self : Within g g
  | nested (f : Field) (k : Str) (h : Field) : (k, h) ∈ f.structFields → Within g h → Within g f

theorem cleanFields_eq (m : Str) (l : List (Str × Field)) :
    cleanFields m l = l.map (fun e => (e.1, cleanField m e.2)) := by
  induction l with
  | nil => rfl
  | cons e l ih => obtain ⟨k, f⟩ := e; simp only [cleanFields, List.map_cons, ih]

theorem handleSubst_structFields (f : Field) : (handleSubstituteTypes f).structFields = [] ∨
    (handleSubstituteTypes f).structFields = f.structFields := by
  unfold handleSubstituteTypes; split <;> simp

/-- `cleanField` on one node: substitute, rename, then clean the remaining struct fields. -/
theorem cleanField_eq (m : Str) (f : Field) :
    cleanField m f = { renameMain m (handleSubstituteTypes f) with
      structFields := (handleSubstituteTypes f).structFields.map (fun e => (e.1, cleanField m e.2)) } := by
  obtain ⟨a1, a2, a3, a4, a5, a6, a7, a8, a9, a10, a11, a12, a13, a14, a15, a16⟩ := f
  simp only [cleanField]
  rw [cleanFields_eq]
  generalize hg : handleSubstituteTypes ⟨a1, a2, a3, a4, a5, a6, a7, a8, a9, a10, a11, a12, a13, a14, a15, a16⟩ = g
  have hs := handleSubst_structFields ⟨a1, a2, a3, a4, a5, a6, a7, a8, a9, a10, a11, a12, a13, a14, a15, a16⟩
  rw [hg] at hs
  obtain ⟨b1, b2, b3, b4, b5, b6, b7, b8, b9, b10, b11, b12, b13, b14, b15, b16⟩ := g
  simp only at hs
  unfold renameMain
  simp only
  rcases hs with hs | hs
  · subst hs; simp
  · subst hs
    split
    · rename_i h; rw [h]; rfl
    · rfl

/-- Induction over the nesting of a field. -/
theorem field_induction {P : Field → Prop} (step : ∀ f : Field, (∀ e ∈ f.structFields, P e.2) → P f) : ∀ f, P f
  | ⟨a1, a2, a3, a4, a5, a6, a7, a8, a9, a10, a11, a12, sf, a14, a15, a16⟩ =>
    step _ (go sf)
where
  go : ∀ (l : List (Str × Field)), ∀ e ∈ l, P e.2
    | [], _, he => by simp at he
    | (k, f) :: r, e, he => by
      simp only [List.mem_cons] at he
      rcases he with rfl | he
      · exact field_induction step f
      · exact go r e he

/-- C33: after cleaning, the temporary main package occurs nowhere in the type, at any depth. -/
theorem clean_removes_temp_package (m : Str) (hm : m ≠ c!"main") (f g : Field) (hg : Within g (cleanField m f)) :
    g.package ≠ m ∧ g.mapKeyPackage ≠ m := by
  have key : ∀ f : Field, (cleanField m f).package ≠ m ∧ (cleanField m f).mapKeyPackage ≠ m := by
    intro f
    rw [cleanField_eq]
    simp only [renameMain]
    constructor
    · split
      · exact fun e => hm e.symm
      · assumption
    · split
      · exact fun e => hm e.symm
      · assumption
  induction f using field_induction with
  | step f ih =>
    generalize hc : cleanField m f = c at hg
    cases hg with
    | self => rw [← hc]; exact key f
    | nested _ k h hk hw =>
      rw [← hc, cleanField_eq] at hk
      simp only [List.mem_map] at hk
      obtain ⟨e, he, hek⟩ := hk
      have he' : e ∈ f.structFields := by
        rcases handleSubst_structFields f with h0 | h0
        · rw [h0] at he; simp at he
        · rw [h0] at he; exact he
      have : h = cleanField m e.2 := (congrArg Prod.snd hek).symm
      subst this
      exact ih e he' hw

/-- `f` is a type that is documented as another type. -/
def Substituted (f : Field) : Prop := qualifiedName f = c!"time.Duration" ∨ qualifiedName f = c!"error"

theorem subst_table (f : Field) : aget substituteTypes (qualifiedName f)
    = if qualifiedName f = c!"time.Duration" then some c!"int" else if qualifiedName f = c!"error" then some c!"string" else none := by
  simp only [substituteTypes, aget]
  by_cases h1 : qualifiedName f = c!"time.Duration"
  · simp [h1]
  · by_cases h2 : qualifiedName f = c!"error"
    · simp [h2]
    · rw [if_neg (fun e => h1 e.symm), if_neg (fun e => h2 e.symm), if_neg h1, if_neg h2]

/-- C33/C34: cleaning a type that is not substituted renames the main package and changes nothing else of the node; its
struct fields are cleaned one by one under the same keys. -/
theorem clean_only_renames (m : Str) (f : Field) (h : ¬ Substituted f) :
    cleanField m f = { f with
      package := if f.package = m then c!"main" else f.package
      mapKeyPackage := if f.mapKeyPackage = m then c!"main" else f.mapKeyPackage
      structFields := f.structFields.map (fun e => (e.1, cleanField m e.2)) } := by
  unfold Substituted at h
  rw [not_or] at h
  rw [cleanField_eq]
  have : handleSubstituteTypes f = f := by
    unfold handleSubstituteTypes; rw [subst_table, if_neg h.1, if_neg h.2]
  rw [this]
  rfl

/-- C34: a duration becomes an int and an `error` a string, without any structure left. -/
theorem clean_substitutes_partial (m : Str) (f : Field) (h : Substituted f) :
    cleanField m f = { f with
      type := if qualifiedName f = c!"time.Duration" then c!"int" else c!"string"
      structFields := []
      sliceType := []
      mapValueType := []
      package := if f.package = m then c!"main" else f.package
      mapKeyPackage := if f.mapKeyPackage = m then c!"main" else f.mapKeyPackage } := by
  rw [cleanField_eq]
  have hs : handleSubstituteTypes f = { f with
      type := if qualifiedName f = c!"time.Duration" then c!"int" else c!"string"
      structFields := [], sliceType := [], mapValueType := [] } := by
    unfold handleSubstituteTypes
    rw [subst_table]
    by_cases h1 : qualifiedName f = c!"time.Duration"
    · simp [h1]
    · rcases h with h | h
      · exact absurd h h1
      · simp [h]
  rw [hs]
  rfl

/-- C34: which types are substituted: `time.Duration`, and a type called `error` without a package. -/
theorem substituted_iff (f : Field) (hdot : '.' ∉ f.name) :
    Substituted f ↔ (f.package = c!"time" ∧ f.name = c!"Duration") ∨ (f.package = [] ∧ f.name = c!"error") := by
  unfold Substituted qualifiedName
  by_cases hp : f.package = []
  · simp only [hp, ne_eq, not_true_eq_false, if_false]
    constructor
    · rintro (h | h)
      · rw [h] at hdot; exact absurd hdot (by decide)
      · exact Or.inr ⟨trivial, h⟩
    · rintro (⟨h, _⟩ | ⟨_, h⟩)
      · cases h
      · exact Or.inr h
  · simp only [ne_eq, hp, not_false_eq_true, if_true, false_and, or_false]
    constructor
    · rintro (h | h)
      · -- the last dot of "time.Duration" separates package and name
        have h' : split '.' (f.package ++ '.' :: f.name) = [c!"time", c!"Duration"] := by rw [h]; decide
        have hlast := congrArg List.getLast? h'
        have happ : ∀ (a b : Str), '.' ∉ b → (split '.' (a ++ '.' :: b)) = split '.' a ++ [b] := by
          intro a b hb
          induction a with
          | nil => rw [List.nil_append, split_cons_sep, split_eq_singleton hb]; rfl
          | cons c a ih =>
            rw [List.cons_append]
            simp only [split]
            by_cases hc : c = '.'
            · rw [if_pos hc, if_pos hc, ih]; rfl
            · rw [if_neg hc, if_neg hc, ih]
              cases hs : split '.' a with
              | nil => exact absurd hs (split_ne_nil _ _)
              | cons x t => rfl
        rw [happ _ _ hdot] at h'
        have hinj := List.append_inj_left' (s₁ := split '.' f.package) (t₁ := [f.name]) (s₂ := [c!"time"])
          (t₂ := [c!"Duration"]) h' rfl
        have hinj2 := List.append_inj_right' (s₁ := split '.' f.package) (t₁ := [f.name]) (s₂ := [c!"time"])
          (t₂ := [c!"Duration"]) h' rfl
        refine ⟨?_, by simpa using hinj2⟩
        have := congrArg (join ['.']) hinj
        rw [join_split] at this
        simpa [join] using this
      · have : '.' ∈ c!"error" := by rw [← h]; simp
        exact absurd this (by decide)
    · rintro ⟨h1, h2⟩
      left; rw [h1, h2]; rfl

/-- C33: cleaning twice is the same as cleaning once. (The Go code writes cleaned struct fields back into maps; a map that
is reached twice is cleaned twice.) -/
theorem clean_idempotent (m : Str) (f : Field) : cleanField m (cleanField m f) = cleanField m f := by
  induction f using field_induction with
  | step f ih =>
    have hname : ∀ g : Field, g.name = f.name → g.package = (if f.package = m then c!"main" else f.package) →
        ¬ Substituted f → ¬ Substituted g := by
      intro g hn hp hf hg
      by_cases hm : f.package = m
      · rw [if_pos hm] at hp
        unfold Substituted qualifiedName at hg
        rw [hp] at hg
        rw [if_pos (by decide)] at hg
        rcases hg with hg | hg
        · exact absurd (congrArg (List.take 1) hg) (by simp)
        · exact absurd (congrArg (List.take 1) hg) (by simp)
      · rw [if_neg hm] at hp
        apply hf
        unfold Substituted qualifiedName at hg ⊢
        rw [hn, hp] at hg
        exact hg
    by_cases hs : Substituted f
    · have h1 := clean_substitutes_partial m f hs
      generalize hc : cleanField m f = c at h1
      by_cases hs' : Substituted c
      · rw [clean_substitutes_partial m c hs', h1]
        simp only
        by_cases hm : f.package = m
        · -- after renaming the package is "main", which is not substituted
          exfalso
          unfold Substituted qualifiedName at hs'
          rw [h1] at hs'
          simp only [if_pos hm] at hs'
          rw [if_pos (by decide)] at hs'
          rcases hs' with hg | hg
          · exact absurd (congrArg (List.take 1) hg) (by simp)
          · exact absurd (congrArg (List.take 1) hg) (by simp)
        · simp only [if_neg hm, qualifiedName]
          by_cases hk : f.mapKeyPackage = m <;> by_cases hmm : c!"main" = m <;> simp [hk, hmm]
      · rw [clean_only_renames m c hs', h1]
        simp only [List.map_nil]
        by_cases hm : f.package = m <;> by_cases hk : f.mapKeyPackage = m <;> by_cases hmm : c!"main" = m <;>
          simp [hm, hk, hmm]
    · have h1 := clean_only_renames m f hs
      generalize hc : cleanField m f = c at h1
      have hs' : ¬ Substituted c := hname c (by rw [h1]) (by rw [h1]) hs
      rw [clean_only_renames m c hs', h1]
      have hmap : (f.structFields.map (fun e => (e.1, cleanField m e.2))).map (fun e => (e.1, cleanField m e.2))
          = f.structFields.map (fun e => (e.1, cleanField m e.2)) := by
        rw [List.map_map]
        apply List.map_congr_left
        intro e he
        simp only [Function.comp, ih e he]
      simp only [hmap]
      by_cases hm : f.package = m <;> by_cases hk : f.mapKeyPackage = m <;> by_cases hmm : c!"main" = m <;>
        simp [hm, hk, hmm]

/-- C33, partial: every response, path parameter, query parameter and body type of a route is free of the temporary main
package, everything else in the route is unchanged. Missing: request and response headers (below). -/
theorem cleanRoute_partial (m : Str) (hm : m ≠ c!"main") (r : Route) :
    (∀ t ∈ (cleanRoute m r).returnTypes, ∀ g, Within g t.field → g.package ≠ m ∧ g.mapKeyPackage ≠ m) ∧
    (∀ t ∈ (cleanRoute m r).pathParams, ∀ g, Within g t.field → g.package ≠ m ∧ g.mapKeyPackage ≠ m) ∧
    (∀ t ∈ (cleanRoute m r).queryParams, ∀ g, Within g t.field → g.package ≠ m ∧ g.mapKeyPackage ≠ m) ∧
    (∀ t ∈ (cleanRoute m r).body, ∀ g, Within g t.field → g.package ≠ m ∧ g.mapKeyPackage ≠ m) ∧
    (cleanRoute m r).returnTypes.map (fun t => (t.statusCode, t.contentType)) =
      r.returnTypes.map (fun t => (t.statusCode, t.contentType)) ∧
    (cleanRoute m r).pathParams.map (fun p => (p.name, p.isRequired, p.isArray, p.isMap, p.isBound)) =
      r.pathParams.map (fun p => (p.name, p.isRequired, p.isArray, p.isMap, p.isBound)) ∧
    (cleanRoute m r).queryParams.map (fun p => (p.name, p.isRequired, p.isArray, p.isMap, p.isBound)) =
      r.queryParams.map (fun p => (p.name, p.isRequired, p.isArray, p.isMap, p.isBound)) ∧
    (cleanRoute m r).body.map (fun p => (p.name, p.contentType, p.isRequired, p.isArray, p.isMap, p.isBound)) =
      r.body.map (fun p => (p.name, p.contentType, p.isRequired, p.isArray, p.isMap, p.isBound)) ∧
    { (cleanRoute m r) with returnTypes := r.returnTypes, pathParams := r.pathParams, queryParams := r.queryParams, body := r.body } = r := by
  refine ⟨?_, ?_, ?_, ?_, ?_, ?_, ?_, ?_, rfl⟩
  · intro t ht g hg
    obtain ⟨t', _, rfl⟩ := List.mem_map.mp ht
    exact clean_removes_temp_package m hm _ g hg
  · intro t ht g hg
    obtain ⟨t', _, rfl⟩ := List.mem_map.mp ht
    exact clean_removes_temp_package m hm _ g hg
  · intro t ht g hg
    obtain ⟨t', _, rfl⟩ := List.mem_map.mp ht
    exact clean_removes_temp_package m hm _ g hg
  · intro t ht g hg
    obtain ⟨t', _, rfl⟩ := List.mem_map.mp ht
    exact clean_removes_temp_package m hm _ g hg
  · simp [cleanRoute, Function.comp_def]
  · simp [cleanRoute, Function.comp_def]
  · simp [cleanRoute, Function.comp_def]
  · simp [cleanRoute, Function.comp_def]

/-- C33 fails for headers: the type of a bound request header keeps the temporary main package. -/
theorem clean_misses_headers :
    ∃ (m : Str) (r : Route) (p : Param), m ≠ c!"main" ∧ p ∈ (cleanRoute m r).requestHeaders ∧ p.field.package = m :=
  ⟨c!"mod/.astra/astramain", { requestHeaders := [{ field := { package := c!"mod/.astra/astramain", name := c!"H" } }] }, _,
    by decide, List.mem_singleton.mpr rfl, rfl⟩

example : cleanField c!"tmp" {
      package := c!"tmp", name := c!"T", type := c!"struct",
      structFields := [(c!"D", { package := c!"time", name := c!"Duration", type := c!"int64" }),
        (c!"X", { package := c!"tmp", type := c!"Inner" })] } = {
      package := c!"main", name := c!"T", type := c!"struct",
      structFields := [(c!"D", { package := c!"time", name := c!"Duration", type := c!"int" }),
        (c!"X", { package := c!"main", type := c!"Inner" })] } := by decide

/-- C34 deviation: a struct field of type `error` has an empty `Name` (only components have one), so it is not substituted. -/
theorem error_field_not_substituted :
    (cleanField c!"tmp" {
      name := c!"T", type := c!"struct", package := c!"p",
      structFields := [(c!"Err", { type := c!"error" })] }).structFields = [(c!"Err", { type := c!"error" })] := by decide

end Astra.Props
