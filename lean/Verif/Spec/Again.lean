/-
Specification vocabulary for C87: a service that is parsed again.
-/
import Verif.Spec.EndToEnd

namespace Astra.Spec

/-- The routes of a service include all these entries of routers. -/
def Knows (s : Service) (infos : List RouteInfo) : Prop := ∀ i ∈ infos, ∃ r ∈ s.routes, r.path = i.path ∧ r.method = i.method

/-- The operation of an endpoint of which nothing is known: no description, no operation id, no parameters, no body, no responses. -/
def Operation.blank : Operation := {}

end Astra.Spec
