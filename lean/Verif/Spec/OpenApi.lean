/-
Specification vocabulary for the OpenAPI output: package paths, operations, references.
-/
import Verif.Types

namespace Astra.Spec

/-- The segments of a package path. -/
def segments (pkg : Str) : List Str := split '/' pkg

/-- The package name: the last segment of its path. -/
def lastSegment (pkg : Str) : Str := (segments pkg).getLastD []

/-- Two package paths agree on exactly their last `k` segments and both have a further, different, segment. -/
def DifferAt (k : Nat) (p q : Str) : Prop :=
  (segments p).reverse.take k = (segments q).reverse.take k ∧
  ∃ a b, (segments p).reverse[k]? = some a ∧ (segments q).reverse[k]? = some b ∧ a ≠ b

instance (k : Nat) (p q : Str) : Decidable (DifferAt k p q) :=
  match hp : (segments p).reverse[k]?, hq : (segments q).reverse[k]? with
  | some a, some b =>
    if h : (segments p).reverse.take k = (segments q).reverse.take k ∧ a ≠ b then
      isTrue ⟨h.1, a, b, hp, hq, h.2⟩
    else isFalse (fun ⟨h1, a', b', ha, hb, hne⟩ => h ⟨h1, by rw [hp] at ha; rw [hq] at hb; simp_all⟩)
  | none, _ => isFalse (fun ⟨_, a', b', ha, _, _⟩ => by rw [hp] at ha; simp at ha)
  | _, none => isFalse (fun ⟨_, a', b', _, hb, _⟩ => by rw [hq] at hb; simp at hb)

/-- For every package name there is one depth at which all the packages with that name differ pairwise. True when package
names are unique, and when a name is shared by two packages neither of which is a path suffix of the other. -/
def Separable (pkgs : List Str) : Prop :=
  ∀ g, ∃ k, ∀ p ∈ pkgs, ∀ q ∈ pkgs, lastSegment p = g → lastSegment q = g → p ≠ q → DifferAt k p q

/-- The names of the six binding kinds. -/
def kindNames : List Str := [c!"header", c!"form", c!"uri", c!"json", c!"xml", c!"yaml"]

/-- A package name that cannot be mistaken for anything else in a schema name. -/
def PlainPackage (pkg : Str) : Prop :=
  '.' ∉ lastSegment pkg ∧ lastSegment pkg ∉ kindNames ∧ lastSegment pkg ≠ []

instance (pkg : Str) : Decidable (PlainPackage pkg) := by unfold PlainPackage; infer_instance

/-- The value a list of (key, value) entries gives for a key when later entries replace earlier ones. -/
def lastFor {V : Type} (entries : List (Str × V)) (key : Str) : Option V :=
  (entries.reverse.find? (fun e => e.1 = key)).map (·.2)

/-- The seven methods the output supports. -/
def documentedMethods : List Str :=
  [c!"GET", c!"POST", c!"PUT", c!"PATCH", c!"DELETE", c!"HEAD", c!"OPTIONS"]

end Astra.Spec
