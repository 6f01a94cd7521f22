/-
Two programs whose calls look alike to the analysis are analysed alike. Used for C20 (unexported struct fields) and C21 (pointers): removing them from a
program changes neither the routes nor the components that the analysis of the whole route table records.
-/
import Verif.Props.Unexported
import Verif.Props.RouteAnalysis
import Verif.Spec.Cache

namespace Astra.Spec

/-- Two arguments that look alike: the same text, and types with the same translation in the two programs, in every package. -/
structure ArgAlike (Γ Γ' : TypeEnv) (a a' : ArgView) : Prop where
  ident : a'.ident = a.ident
  value : a'.value = a.value
  type : (∀ t, a.type ≠ .ok t) ∧ a'.type = a.type ∨ ∃ t t', a.type = .ok t ∧ a'.type = .ok t' ∧
    ∀ fuel st pkg, typeResult Γ true fuel st pkg [] t = typeResult Γ' true fuel st pkg [] t'

/-- Two calls that look alike: the same function and arguments that look alike. -/
structure CallAlike (Γ Γ' : TypeEnv) (v v' : CallView) : Prop where
  args : Each (ArgAlike Γ Γ') v.args v'.args
  func : v'.func = v.func
  target : v'.target = v.target
  targetFile : v'.targetFile = v.targetFile

/-- Two programs of the same functions, whose calls look alike, also to the custom functions. -/
structure ProgAlike (P P' : Prog) : Prop where
  filePkg : P'.filePkg = P.filePkg
  funcs : P'.funcs = P.funcs
  view : ∀ file id, CallAlike P.types P'.types (P.view file id) (P'.view file id)
  customs : P'.customs = P.customs
  seen : ∀ f ∈ P.customs, ∀ ctx file id r ops comps, f ctx (P'.view file id) r ops comps = f ctx (P.view file id) r ops comps

end Astra.Spec

namespace Astra.Props

open Spec

theorem each_getElem? {α β : Type} {R : α → β → Prop} {l : List α} {m : List β} (h : Each R l m) (i : Nat) :
    (l[i]? = none ∧ m[i]? = none) ∨ ∃ a b, l[i]? = some a ∧ m[i]? = some b ∧ R a b := by
  induction h generalizing i with
  | nil => left; simp
  | cons hab _ ih =>
    cases i with
    | zero => right; exact ⟨_, _, rfl, rfl, hab⟩
    | succ i => simpa using ih i

theorem runOp_alike {Γ Γ' : TypeEnv} {args args' : List ArgView} (h : Each (ArgAlike Γ Γ') args args') (fuel : Nat) (pkg : Str) (i : Nat)
    (op : Op) (st : List Field) : runOp Γ' fuel pkg args' i op st = runOp Γ fuel pkg args i op st := by
  rcases each_getElem? h i with ⟨h1, h2⟩ | ⟨a, b, h1, h2, hab⟩
  · cases op <;> simp [runOp, h1, h2]
  · cases op with
    | ignored => rfl
    | statusCode => simp only [runOp, h1, h2, extractStatusCode, hab.value]
    | value => simp only [runOp, h1, h2, hab.value]
    | expressionResult =>
      simp only [runOp, h1, h2]
      rcases hab.type with ⟨_, e⟩ | ⟨t, t', e, e', ht⟩
      · rename_i hno
        simp only [e]
        cases hx : a.type with
        | ok t => exact absurd hx (hno t)
        | err _ => rfl
        | panic _ => rfl
      · simp only [e, e', ht]

theorem runOps_alike {Γ Γ' : TypeEnv} {args args' : List ArgView} (h : Each (ArgAlike Γ Γ') args args') (fuel : Nat) (pkg : Str)
    (ops : Builder) (st : List Field) : runOps Γ' fuel pkg args' ops st = runOps Γ fuel pkg args ops st := by
  induction ops generalizing st with
  | nil => rfl
  | cons o ops ih =>
    obtain ⟨i, op⟩ := o
    simp only [runOps, runOp_alike h, ih]

theorem build_alike {Γ Γ' : TypeEnv} {args args' : List ArgView} (h : Each (ArgAlike Γ Γ') args args') (fuel : Nat) (pkg : Str)
    (ops : Builder) (mapper : Mapper) (route : Option Route) (st : List Field) :
    build Γ' fuel pkg args' ops mapper route st = build Γ fuel pkg args ops mapper route st := by
  simp only [build, runOps_alike h]

theorem runCustoms_alike {P P' : Prog} (h : ProgAlike P P') (ctx : Str) (file : FileId) (id : Nat) (nilRoute : Bool) (fs : List CustomFunc)
    (hfs : ∀ f ∈ fs, f ∈ P.customs) (ops : Builder) (st : HState) :
    runCustoms ctx (P'.view file id) nilRoute fs ops st = runCustoms ctx (P.view file id) nilRoute fs ops st := by
  induction fs generalizing ops st with
  | nil => rfl
  | cons f fs ih =>
    simp only [runCustoms, h.seen f (hfs f (by simp))]
    have ih := ih (fun g hg => hfs g (by simp [hg]))
    simp only [ih]

theorem any_alike {Γ Γ' : TypeEnv} {args args' : List ArgView} (h : Each (ArgAlike Γ Γ') args args') (ctx : Str) :
    args'.any (fun a => decide (a.ident = some ctx)) = args.any (fun a => decide (a.ident = some ctx)) := by
  induction h with
  | nil => rfl
  | cons hab _ ih => simp only [List.any_cons, hab.ident, ih]

theorem callStep_alike {P P' : Prog} (h : ProgAlike P P') (fuel : Nat) (rec : HRec) (ctx : Str) (file : FileId) (id : Nat) (st : HState)
    (loc : Local) : callStep P' fuel rec ctx file id st loc = callStep P fuel rec ctx file id st loc := by
  have hv := h.view st.active id
  simp only [callStep, h.customs, runCustoms_alike h ctx st.active id loc.nilRoute P.customs (fun f hf => hf), hv.func, hv.target, hv.targetFile,
    any_alike hv.args, h.filePkg, contextCall, build_alike hv.args]

mutual
theorem inspectNode_alike {P P' : Prog} (h : ProgAlike P P') (fuel : Nat) (rec : HRec) (ctx : Str) (file : FileId) :
    (n : Node) → ∀ (st : HState) (loc : Local), inspectNode P' fuel rec ctx file n st loc = inspectNode P fuel rec ctx file n st loc
  | .other children, st, loc => by
    simp only [inspectNode]
    exact inspectNodes_alike h fuel rec ctx file children st _
  | .call id children, st, loc => by
    simp only [inspectNode, callStep_alike h]
    split
    · rfl
    · rfl
    · rfl
    · exact inspectNodes_alike h fuel rec ctx file children _ _
    · rfl
theorem inspectNodes_alike {P P' : Prog} (h : ProgAlike P P') (fuel : Nat) (rec : HRec) (ctx : Str) (file : FileId) :
    (ns : List Node) → ∀ (st : HState) (loc : Local), inspectNodes P' fuel rec ctx file ns st loc = inspectNodes P fuel rec ctx file ns st loc
  | [], st, loc => rfl
  | n :: ns, st, loc => by
    simp only [inspectNodes, inspectNode_alike h fuel rec ctx file n]
    split
    · rfl
    · rfl
    · rfl
    · exact inspectNodes_alike h fuel rec ctx file ns _ _
end

theorem parseFunctionWith_alike {P P' : Prog} (h : ProgAlike P P') (fuel : Nat) (rec : HRec) (top : Bool) (st : HState) (n : Bool)
    (f : FuncId) (file : FileId) : parseFunctionWith P' fuel rec top st n f file = parseFunctionWith P fuel rec top st n f file := by
  have hd : funcDoc P' f = funcDoc P f := by simp only [funcDoc, h.funcs]
  unfold parseFunctionWith
  rw [hd, h.funcs]
  simp only [inspectNode_alike h]

theorem parseHelper_alike {P P' : Prog} (h : ProgAlike P P') (fuel : Nat) : parseHelper P' fuel = parseHelper P fuel := by
  induction fuel with
  | zero => rfl
  | succ k ih =>
    funext st n f file
    simp only [parseHelper, ih]
    exact parseFunctionWith_alike h k _ false st n f file

theorem parseFunction_alike {P P' : Prog} (h : ProgAlike P P') (fuel : Nat) (comps : List Field) (route : Route) (f : FuncId) (file : FileId) :
    parseFunction P' fuel comps route f file = parseFunction P fuel comps route f file := by
  simp only [parseFunction, parseHelper_alike h, parseFunctionWith_alike h]

mutual
theorem analyseLit_alike {E : RouteEnv} {P' : Prog} (h : ProgAlike E.prog P') (fuel : Nat) (file : FileId) :
    (l : Lit) → ∀ comps route, analyseLit { E with prog := P' } fuel file l comps route = analyseLit E fuel file l comps route
  | .mk line f inner, comps, route => by
    simp only [analyseLit, analyse, parseFunction_alike h]
    split
    · rfl
    · exact analyseLits_alike h fuel file inner comps route
theorem analyseLits_alike {E : RouteEnv} {P' : Prog} (h : ProgAlike E.prog P') (fuel : Nat) (file : FileId) :
    (l : List Lit) → ∀ comps route, analyseLits { E with prog := P' } fuel file l comps route = analyseLits E fuel file l comps route
  | [], comps, route => rfl
  | l :: ls, comps, route => by
    simp only [analyseLits, analyseLit_alike h fuel file l]
    split
    · rfl
    · rfl
    · rfl
    · exact analyseLits_alike h fuel file ls _ _
end

theorem analyseDecls_alike {E : RouteEnv} {P' : Prog} (h : ProgAlike E.prog P') (fuel : Nat) (file : FileId) (funcName : Str) (ds : List FuncDecl)
    (comps : List Field) (route : Route) :
    analyseDecls { E with prog := P' } fuel file funcName ds comps route = analyseDecls E fuel file funcName ds comps route := by
  induction ds generalizing comps route with
  | nil => rfl
  | cons d ds ih =>
    simp only [analyseDecls, analyseDecl, analyse, parseFunction_alike h, analyseLits_alike h, ih]

/-- The analysis of the route table is the same for programs that look alike. -/
theorem parseRoutes_alike {E : RouteEnv} {P' : Prog} (h : ProgAlike E.prog P') (fuel : Nat) (comps : List Field) (routes : List Route) :
    parseRoutes { E with prog := P' } fuel comps routes = parseRoutes E fuel comps routes := by
  have key : ∀ n i comps routes, parseRoutesFrom { E with prog := P' } fuel n i comps routes = parseRoutesFrom E fuel n i comps routes := by
    intro n
    induction n with
    | zero => intros; rfl
    | succ n ih =>
      intro i comps routes
      simp only [parseRoutesFrom, parseRoute, analyseDecls_alike h, ih]
  exact key _ _ _ _

/-- Change the value of a successful outcome. -/
def mapRes {α β : Type} (f : α → β) : Res α → Res β
  | .ok a => .ok (f a)
  | .err e => .err e
  | .panic m => .panic m

/-- A call seen in another program: the types of the arguments are changed. -/
def retypeCall (tr : GoType → GoType) (v : CallView) : CallView :=
  { v with args := v.args.map (fun a => { a with type := mapRes tr a.type }) }

theorem retyped_alike {Γ Γ' : TypeEnv} (tr : GoType → GoType) (htr : ∀ t fuel st pkg, typeResult Γ true fuel st pkg [] t = typeResult Γ' true fuel st pkg [] (tr t))
    (v : CallView) : CallAlike Γ Γ' v (retypeCall tr v) := by
  refine ⟨?_, rfl, rfl, rfl⟩
  simp only [retypeCall]
  induction v.args with
  | nil => exact .nil
  | cons a as ih =>
    refine .cons ⟨rfl, rfl, ?_⟩ ih
    cases ht : a.type with
    | ok t => right; exact ⟨t, tr t, rfl, by simp only [ht, mapRes], htr t⟩
    | err e => left; exact ⟨by simp, by simp only [ht, mapRes]⟩
    | panic m => left; exact ⟨by simp, by simp only [ht, mapRes]⟩

/-- The analysed program without unexported struct fields, in its type definitions and in the types of the arguments of calls. -/
def exportedProg (P : Prog) : Prog :=
  { P with types := exportedProgram P.types, view := fun file id => retypeCall exportedOnly (P.view file id) }

/-- C20: the routes and components that the analysis of the route table records are those it records for the program without unexported struct fields. (Custom
functions get the call to look at; they are left out here.) -/
theorem unexported_fields_not_documented (E : RouteEnv) (hc : E.prog.customs = []) (fuel : Nat) (comps : List Field) (routes : List Route) :
    parseRoutes { E with prog := exportedProg E.prog } fuel comps routes = parseRoutes E fuel comps routes :=
  parseRoutes_alike (P' := exportedProg E.prog)
    { filePkg := rfl, funcs := rfl, customs := rfl
      view := fun file id => retyped_alike exportedOnly (fun t fuel st pkg => unexported_fields_without_effect E.prog.types true fuel st pkg [] t) (E.prog.view file id)
      seen := fun f hf => by rw [hc] at hf; cases hf } fuel comps routes

/-- The analysed program without pointers, in its type definitions and in the types of the arguments of calls. -/
def pointerFreeProg (P : Prog) : Prog :=
  { P with types := erasePtrEnv P.types, view := fun file id => retypeCall erasePtr (P.view file id) }

/-- C21, partial: the routes and components that the analysis of the route table records are those it records for the program without pointers. Missing:
named types that are defined as pointers. -/
theorem pointers_not_documented_partial (E : RouteEnv) (hc : E.prog.customs = []) (hΓ : ∀ p n a, NotPointer (E.prog.types.underlying p n a)) (fuel : Nat)
    (comps : List Field) (routes : List Route) :
    parseRoutes { E with prog := pointerFreeProg E.prog } fuel comps routes = parseRoutes E fuel comps routes :=
  parseRoutes_alike (P' := pointerFreeProg E.prog)
    { filePkg := rfl, funcs := rfl, customs := rfl
      view := fun file id => retyped_alike erasePtr (fun t fuel st pkg => pointers_transparent_partial E.prog.types hΓ true fuel st pkg t) (E.prog.view file id)
      seen := fun f hf => by rw [hc] at hf; cases hf } fuel comps routes

/-- The demo program has an unexported field and pointers, and both programs are different from it. -/
example : demoRoutes.prog.customs = [] ∧ (∀ p n a, NotPointer (demoRoutes.prog.types.underlying p n a)) ∧
    (exportedProg demoRoutes.prog).types.underlying c!"shop" c!"Order" [] ≠ demoRoutes.prog.types.underlying c!"shop" c!"Order" [] ∧
    (pointerFreeProg demoRoutes.prog).types.underlying c!"shop" c!"Order" [] ≠ demoRoutes.prog.types.underlying c!"shop" c!"Order" [] := by
  refine ⟨rfl, ?_, ?_, ?_⟩
  · intro p n a
    show NotPointer (shopEnv.underlying p n a)
    simp only [shopEnv]
    split
    · trivial
    · split
      · trivial
      · split <;> trivial
  · simp [demoRoutes, demo, exportedProg, exportedProgram, shopEnv, exportedOnly, keptFields]
  · simp [demoRoutes, demo, pointerFreeProg, erasePtrEnv, shopEnv, erasePtr, erasePtrs]

end Astra.Props
