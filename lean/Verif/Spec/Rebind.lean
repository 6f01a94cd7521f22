/-
Specification vocabulary for the rebinding of a loaded service.
-/
import Verif.Spec.Options
import Verif.Spec.Cache

namespace Astra.Spec

/-- The path that a cached output configures: the value of `filePath` for file outputs, of `directoryPath` for Azure Functions. -/
def configuredPath (o : Output) : Option Str :=
  match aget o.configuration (if o.mode = c!"azureFunctions" then c!"directoryPath" else c!"filePath") with
  | some (.str v) => if v = [] then none else some v
  | _ => none

/-- An output that the documentation allows: a known mode and a path. -/
def KnownOutput (o : Output) : Prop :=
  (o.mode = c!"azureFunctions" ∨ o.mode = c!"json" ∨ o.mode = c!"openapi") ∧ configuredPath o ≠ none

/-- A rebound input: the original mode and gin's functions. -/
def ReboundInput (i i' : Input) : Prop := i'.mode = i.mode ∧ i'.createRoutes = .ginCreate none ∧ i'.parseRoutes = .ginParse

/-- A rebound output: the original mode, the generator of this mode and the original path, in the configuration and in the generator. -/
def ReboundOutput (cells : List Str) (o o' : Output) : Prop :=
  o'.mode = o.mode ∧ configuredPath o' = configuredPath o ∧ generatorPath cells o'.generate = configuredPath o ∧
  (o.mode = c!"azureFunctions" → ∃ d, o'.generate = .azure d) ∧ (o.mode = c!"json" → ∃ l, o'.generate = .json l) ∧
  (o.mode = c!"openapi" → ∃ l, o'.generate = .openapi l)

/-- The service is rebound completely, and nothing else in it changes. -/
def Rebound (s s' : Service) : Prop :=
  Each ReboundInput s.inputs s'.inputs ∧ Each (ReboundOutput s'.cells) s.outputs s'.outputs ∧
  s' = { s with inputs := s'.inputs, outputs := s'.outputs, cells := s'.cells }

end Astra.Spec
