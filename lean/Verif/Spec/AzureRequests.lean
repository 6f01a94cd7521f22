/-
Specification vocabulary for C113: which requests Azure Functions gives to a function, by the route in its function.json.
-/
import Verif.Spec.PathParams
import Verif.Spec.Headers
import Verif.Spec.AzureOutput

namespace Astra.Spec

/-- What the route constraint `alpha` admits: one or more letters of the English alphabet. -/
def Letters (v : Str) : Prop := v ≠ [] ∧ ∀ c ∈ v, ('a' ≤ c ∧ c ≤ 'z') ∨ ('A' ≤ c ∧ c ≤ 'Z')

/-- Two texts that are the same but for the case of letters. -/
def SameText (a b : Str) : Prop := a.map Char.toLower = b.map Char.toLower

/-- Azure Functions (ASP.NET Core routing): a request belongs to a function if its segments are those of the route of the function. The first list
are the segments of the route, the second those of the request, the third the parameters that the function gets. Text is compared without regard
to case, a parameter takes what its constraint admits, an optional parameter at the end may be absent, and a slash at the end does not matter.
Simplifications: only the constraint `alpha`, one route by itself, and the prefix that the host puts before all routes is left out on both sides. -/
inductive AzureTakes : List Str → List Str → List (Str × Str) → Prop
  | done : AzureTakes [] [] []
  | slash : AzureTakes [] [[]] []
  | text {seg given : Str} {route request : List Str} {params : List (Str × Str)} : '{' ∉ seg → SameText seg given →
      AzureTakes route request params → AzureTakes (seg :: route) (given :: request) params
  | param {before given name v : Str} {route request : List Str} {params : List (Str × Str)} : '{' ∉ before → ':' ∉ name → SameText before given →
      Letters v → AzureTakes route request params →
      AzureTakes ((before ++ '{' :: name ++ c!":alpha}") :: route) ((given ++ v) :: request) ((name, v) :: params)
  | optional {name v : Str} : ':' ∉ name → Letters v → AzureTakes ['{' :: name ++ c!":alpha?}"] [v] [(name, v)]
  | absent {name : Str} : ':' ∉ name → AzureTakes ['{' :: name ++ c!":alpha?}"] [] []
  | absentSlash {name : Str} : ':' ∉ name → AzureTakes ['{' :: name ++ c!":alpha?}"] [[]] []

/-- The values that the function of a route can be called with: letters only; for a catch-all, whose value begins with a slash, also nothing but the
slash. -/
def AzureValue (v : Str) : Prop := Letters v ∨ v = ['/'] ∨ ∃ x, v = '/' :: x ∧ Letters x

/-- The JSON of a function: it is triggered by requests with these methods that belong to this route. -/
def TriggeredBy (j : Json) (methods : List Str) (route : Str) : Prop :=
  ∃ trigger out, j = .obj [(c!"bindings", .arr [.obj trigger, out])] ∧ (c!"type", .str c!"httpTrigger") ∈ trigger ∧ (c!"direction", .str c!"in") ∈ trigger ∧
    (c!"methods", .arr (methods.map .str)) ∈ trigger ∧ (c!"route", .str route) ∈ trigger ∧ (trigger.map (·.1)).Nodup

/-- The segments of a request: none has a slash in it. -/
def Segments (request : List Str) : Prop := ∀ s ∈ request, '/' ∉ s

end Astra.Spec
