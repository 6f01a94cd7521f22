/-
C22: converting traversal results to fields.
-/
import Verif.Lemmas.Basic
import Verif.Model.Result

namespace Astra.Props

/-- The result found by following struct field names. -/
def resultAt (r : Result) : List Str → Option Result
  | [] => some r
  | k :: path => match aget r.structFields k with
    | some s => resultAt s path
    | none => none

/-- The field found by following struct field names. -/
def fieldAt (f : Field) : List Str → Option Field
  | [] => some f
  | k :: path => match aget f.structFields k with
    | some s => fieldAt s path
    | none => none

/-- The converted field agrees with the result attribute by attribute. -/
structure Agrees (r : Result) (f : Field) : Prop where
  type : f.type = r.type
  name : f.name = r.name
  enumValues : f.enumValues = r.enumValues
  isEmbedded : f.isEmbedded = r.isEmbedded
  sliceType : f.sliceType = r.sliceType
  arrayType : f.arrayType = r.arrayType
  arrayLength : f.arrayLength = r.arrayLength
  mapKeyType : f.mapKeyType = r.mapKeyType
  mapValueType : f.mapValueType = r.mapValueType
  bindingTags : f.bindingTags = r.bindingTags
  validationTags : f.validationTags = r.validationTags
  doc : f.doc = trimSpace r.doc
  /-- the same struct field names -/
  keys : f.structFields.map (·.1) = r.structFields.map (·.1)
  /-- types that need qualification carry the path of their package: named types and those whose type or element type is
  not builtin -/
  package_named : r.name ≠ [] → f.package = (r.package.getD [])
  package_type : r.type ∉ acceptedTypes → f.package = (r.package.getD [])
  package_slice : r.sliceType ≠ [] → r.sliceType ∉ acceptedTypes → f.package = (r.package.getD [])
  package_array : r.arrayType ≠ [] → r.arrayType ∉ acceptedTypes → f.package = (r.package.getD [])
  package_map : r.mapValueType ≠ [] → r.mapValueType ∉ acceptedTypes → f.package = (r.package.getD [])
  /-- and no others -/
  package_none : r.name = [] → r.type ∈ acceptedTypes → (r.sliceType = [] ∨ r.sliceType ∈ acceptedTypes) →
    (r.arrayType = [] ∨ r.arrayType ∈ acceptedTypes) → (r.mapValueType = [] ∨ r.mapValueType ∈ acceptedTypes) → f.package = []
  mapKeyPackage : r.mapKeyType ≠ [] → r.mapKeyType ∉ acceptedTypes → f.mapKeyPackage = (r.mapKeyPackage.getD [])
  mapKeyPackage_none : (r.mapKeyType = [] ∨ r.mapKeyType ∈ acceptedTypes) → f.mapKeyPackage = []

theorem parseResultsToFields_eq (l : List (Str × Result)) :
    parseResultsToFields l = l.map (fun e => (e.1, parseResultToField e.2)) := by
  induction l with
  | nil => rfl
  | cons e l ih => obtain ⟨k, r⟩ := e; simp only [parseResultsToFields, List.map_cons, ih]

theorem isAccepted_iff (t : Str) : isAcceptedType t = true ↔ t ∈ acceptedTypes := elemB_iff

theorem isAccepted_false (t : Str) : isAcceptedType t = false ↔ t ∉ acceptedTypes := by
  rw [← isAccepted_iff]; simp

theorem agrees_node (r : Result) : Agrees r (parseResultToField r) := by
  obtain ⟨t, p, n, e, ev, mkp, mk, mv, s, a, al, sf, bt, vt, d⟩ := r
  have hacc : ∀ x, x ∉ acceptedTypes → isAcceptedType x = false := fun x h => (isAccepted_false x).mpr h
  have hacc' : ∀ x, x ∈ acceptedTypes → isAcceptedType x = true := fun x h => (isAccepted_iff x).mpr h
  constructor <;> simp only [parseResultToField, nodePath]
  case doc => split
              · rfl
              · rename_i h; simp at h; subst h; rfl
  case keys => rw [parseResultsToFields_eq, List.map_map]; rfl
  case package_named => intro h; simp [needsPackage, h]
  case package_type => intro h; simp [needsPackage, hacc _ h]
  case package_slice => intro h1 h; simp [needsPackage, h1, hacc _ h]
  case package_array => intro h1 h; simp [needsPackage, h1, hacc _ h]
  case package_map => intro h1 h; simp [needsPackage, h1, hacc _ h]
  case package_none =>
    intro h1 h2 h3 h4 h5
    rw [if_neg]
    simp only [needsPackage, h1, hacc' _ h2, Bool.not_true, Bool.or_eq_true, Bool.and_eq_true, decide_eq_true_eq, ne_eq, not_true_eq_false,
      decide_false, Bool.false_or, Bool.not_eq_true']
    rintro ((⟨a1, a2⟩ | ⟨a1, a2⟩) | ⟨a1, a2⟩)
    · rcases h3 with h | h
      · exact a1 h
      · rw [hacc' _ h] at a2; cases a2
    · rcases h4 with h | h
      · exact a1 h
      · rw [hacc' _ h] at a2; cases a2
    · rcases h5 with h | h
      · exact a1 h
      · rw [hacc' _ h] at a2; cases a2
  case mapKeyPackage => intro h1 h; simp [h1, hacc _ h]
  case mapKeyPackage_none =>
    rintro (h | h)
    · simp [h]
    · simp [hacc' _ h]

/-- C22: at every nesting depth, the converted field has a struct field exactly where the result has one, and agrees with
it attribute by attribute. -/
theorem parseResultToField_faithful (r : Result) (path : List Str) :
    match resultAt r path, fieldAt (parseResultToField r) path with
    | some s, some f => Agrees s f
    | none, none => True
    | _, _ => False := by
  induction path generalizing r with
  | nil => exact agrees_node r
  | cons k path ih =>
    have hsf : (parseResultToField r).structFields = r.structFields.map (fun e => (e.1, parseResultToField e.2)) := by
      obtain ⟨t, p, n, e, ev, mkp, mk, mv, s, a, al, sf, bt, vt, d⟩ := r
      simp only [parseResultToField, parseResultsToFields_eq]
    have hget : ∀ l : List (Str × Result), aget (l.map (fun e => (e.1, parseResultToField e.2))) k
        = (aget l k).map parseResultToField := by
      intro l
      induction l with
      | nil => rfl
      | cons e l ihl =>
        obtain ⟨k', x⟩ := e
        simp only [List.map_cons, aget, ihl]
        split <;> rfl
    simp only [resultAt, fieldAt, hsf, hget]
    cases aget r.structFields k with
    | none => trivial
    | some s => exact ih s

example : parseResultToField {
      type := c!"struct", name := c!"T", package := some c!"p", doc := c!" hello ",
      structFields := [(c!"A", { type := c!"slice", sliceType := c!"U", package := some c!"q" }),
        (c!"B", { type := c!"string", package := some c!"q" })] } = {
      type := c!"struct", name := c!"T", package := c!"p", doc := c!"hello",
      structFields := [(c!"A", { type := c!"slice", sliceType := c!"U", package := c!"q" }), (c!"B", { type := c!"string" })] } := by
  decide

end Astra.Props
