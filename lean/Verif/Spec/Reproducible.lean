/-
Specification vocabulary for the reproducibility of the OpenAPI document.
-/
import Verif.Spec.Schema
import Verif.Spec.Paths
import Verif.Spec.EndToEnd

namespace Astra.Spec

/-- The same service data, with the maps of the components listed in other orders. -/
structure SameDocInput (s s' : OpenApiInput) : Prop where
  config : s'.config = s.config
  routes : s'.routes = s.routes
  types : s'.types = s.types
  components : Each SameField s.components s'.components

/-- No operation of the document has two parameters of one name. -/
def UniqueParameters (d : Document) : Prop :=
  ∀ path i op, (path, i) ∈ d.paths → OfItem i op → (op.parameters.map (·.name)).Nodup

end Astra.Spec
