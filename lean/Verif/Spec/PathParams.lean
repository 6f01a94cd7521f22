/-
Specification vocabulary for C109: how a client fills in the path of an operation, and how gin reads the parameters of a path.
-/
import Verif.Spec.Address
import Verif.Spec.Query

namespace Astra.Spec

/-- The values that can stand for a parameter in a path: not empty and without a slash. Other characters are encoded by the client and decoded by
the server. -/
def PathValue (v : Str) : Prop := v ≠ [] ∧ '/' ∉ v

/-- gin (v1.10.0, tree.go: getValue): the segments of a request are those of the pattern, with a value for each parameter; the first list are the
segments of the pattern, the second those of the request, the third the parameters that the handler gets. A catch-all takes the rest of the
request, with the slash before it. Simplification: one pattern by itself; where a request fits several patterns of a router, gin prefers the one
that has text in the first place where they differ. -/
inductive GinMatch : List Str → List Str → List (Str × Str) → Prop
  | done : GinMatch [] [] []
  | text {seg : Str} {pattern request : List Str} {params : List (Str × Str)} : (∀ before marker name, ¬ WildcardOf seg before marker name) →
      GinMatch pattern request params → GinMatch (seg :: pattern) (seg :: request) params
  | param {seg before name v : Str} {pattern request : List Str} {params : List (Str × Str)} : WildcardOf seg before ':' name → v ≠ [] →
      GinMatch pattern request params → GinMatch (seg :: pattern) ((before ++ v) :: request) ((name, v) :: params)
  | catchAll {seg name : Str} {request : List Str} : WildcardOf seg [] '*' name → request ≠ [] →
      GinMatch [seg] request [(name, '/' :: join ['/'] request)]

/-- `Param`: the first value of the name, or the empty text. -/
def paramRead (params : List (Str × Str)) (name : Str) : Str := ((params.find? (fun e => e.1 = name)).map (·.2)).getD []

/-- A client who has the operation, at the path `template`, can say the values `v`: each variable of the template is a parameter of the path, which is
required and whose schema admits the value. -/
def PathTold (schemas : List (Str × Schema)) (op : Operation) (template : Str) (v : Str → Str) : Prop :=
  ∀ x ∈ placeholders template, ∃ o ∈ op.parameters, o.name = x ∧ o.loc = c!"path" ∧ o.required = true ∧ Admits schemas o.schema (.str (v x))

/-- The client can say the values, and the handler behind `pattern` reads them: the path of the request fits the pattern, and whichever way it does,
each parameter has its value. -/
def PathUnderstood (schemas : List (Str × Schema)) (op : Operation) (template pattern : Str) (v : Str → Str) : Prop :=
  PathTold schemas op template v ∧ (∃ params, GinMatch (split '/' pattern) (split '/' (expand v template)) params) ∧
    ∀ params, GinMatch (split '/' pattern) (split '/' (expand v template)) params → ∀ w ∈ wildcards pattern, paramRead params w.2 = v w.2

end Astra.Spec
