/-
Specification vocabulary for C106: all functions that stand at the line of a route.
-/
import Verif.Spec.HandlerDoc

namespace Astra.Spec

/-- What a function contributes when it is taken for a handler: what its context calls do, or nothing if no parameter is the context. -/
inductive Contributes (P : Prog) (file : FileId) (f : FuncId) : List Entry → Prop
  | handler {ctx : Str} {es : List Entry} : ContextParam P f file ctx → Analysed P file ctx (P.funcs f).body es → Contributes P file f es
  | noContext : NoContextParam P f file → Contributes P file f []

/-- The last comment of these functions that says something; `before` if there is none. -/
def lastComment (P : Prog) (fs : List (FuncId × Bool)) (before : Str) : Str := fs.foldl (fun c f => docOf P f.1 c) before

/-- What the analysis sees at the line of a handler. The functions at this line, in the declarations with the name that comes first in the name of the handler, are
`fs`: the handler and any others. `es` is what they contribute, one after the other; `comment` is the last comment among them; `id` is a name only if a
declared function is among them. -/
def LineView (E : RouteEnv) (handler file : Str) (line : Int) (comment id : Str) (es : List Entry) : Prop :=
  ∃ (pkg : Str) (fileId : FileId) (name : Str) (fs : List (FuncId × Bool)) (contribution : FuncId → List Entry),
    GoFunctionName handler pkg name ∧ E.fileOf pkg file = some fileId ∧ functionsAt name line (E.decls fileId) = fs ∧
    (∀ f ∈ fs, Contributes E.prog fileId f.1 (contribution f.1)) ∧ es = fs.flatMap (fun f => contribution f.1) ∧ comment = lastComment E.prog fs [] ∧
    id = (if fs.any (·.2) then E.lowerCamel name else [])

end Astra.Spec
