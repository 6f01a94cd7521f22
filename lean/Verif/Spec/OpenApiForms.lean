/-
Specification vocabulary for C86: when the JSON and the YAML form of a document can be the same.
-/
import Verif.Spec.OpenApiFile
import Verif.Spec.Schema

namespace Astra.Spec

/-- No parameter, header, request body or response of the document has the empty schema, and there is a component. -/
def NothingEmpty (d : Document) : Prop :=
  (∀ path i op s, (path, i) ∈ d.paths → OfItem i op → InOperation op s → s ≠ {}) ∧ d.schemas ≠ []

end Astra.Spec
