/-
Specification vocabulary for C89, C90 and C91: the types of a program, the JSON its handlers send, and the JSON they read.
-/
import Verif.Spec.JsonDoc
import Verif.Spec.HandlerDoc
import Verif.Model.Pipeline

namespace Astra.Spec

/-- The code sends JSON with this status code, made of a value whose static type is `t`: it calls `JSON` or `AbortWithStatusJSON`, here or
in a function it passes the context to. -/
def SendsJson (P : Prog) (file : FileId) (ctx : Str) (nodes : List Node) (code : Int) (t : GoType) : Prop :=
  ∃ pkg m args a, Calls P file ctx nodes pkg m args ∧ m ∈ [c!"JSON", c!"AbortWithStatusJSON"] ∧ IsStatus args 0 code ∧
    args[1]? = some a ∧ a.type = .ok t

/-- The code reads a JSON body into a value of type `t`, or into one that a pointer of type `t` points to. -/
def BindsJson (P : Prog) (file : FileId) (ctx : Str) (nodes : List Node) (t : GoType) : Prop :=
  ∃ pkg m args a, Calls P file ctx nodes pkg m args ∧ m ∈ [c!"BindJSON", c!"ShouldBindJSON", c!"Bind", c!"ShouldBind"] ∧
    args[0]? = some a ∧ a.type = .ok t

/-- The handler of an entry of the router sends JSON of a type with a status code. -/
def HandlerSends (E : RouteEnv) (handler file : Str) (line : Int) (code : Int) (t : GoType) : Prop :=
  ∃ fileId name f named ctx, HandlerIs E handler file line fileId name f named ∧ ContextParam E.prog f fileId ctx ∧
    SendsJson E.prog fileId ctx (E.prog.funcs f).body code t

/-- The handler of an entry of the router reads a JSON body into a type. -/
def HandlerBinds (E : RouteEnv) (handler file : Str) (line : Int) (t : GoType) : Prop :=
  ∃ fileId name f named ctx, HandlerIs E handler file line fileId name f named ∧ ContextParam E.prog f fileId ctx ∧
    BindsJson E.prog fileId ctx (E.prog.funcs f).body t

/-- All analyses see the same types `Γ`, there are no custom functions, and every type that occurs in the type of an argument of a
context method is in `D`. -/
structure TypedProgram (E : ParseCtx → RouteEnv) (Γ : TypeEnv) (D : TName → Prop) : Prop where
  types : ∀ ctx, (E ctx).prog.types = Γ
  plain : ∀ ctx, (E ctx).prog.customs = []
  args : ∀ ctx file id name a t x, ((E ctx).prog.view file id).func = .ok (true, name) → a ∈ ((E ctx).prog.view file id).args →
    a.type = .ok t → Occurs t x → D x

end Astra.Spec
