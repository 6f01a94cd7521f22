/-
C17, the negative half: functions that pass the context on to each other in a circle. The analysis of a handler among them never completes: it
does not end, or it stops with a panic before it comes round. No such handler is ever documented from its body.
-/
import Verif.Props.RouteAnalysis

namespace Astra.Props

open Spec

/-- The outcome, if any, is a panic. -/
def OnlyPanic {α β : Type} (o : Option (α × Res β)) : Prop := ∀ s r, o = some (s, r) → ∃ m, r = .panic m

/-- A call that passes the context on to a function whose analysis never completes. -/
theorem callStep_cycle {P : Prog} {fuel : Nat} {rec : HRec} {C : FuncId → Prop} (hcust : P.customs = [])
    (hrec : ∀ st n g file, C g → OnlyPanic (rec st n g file)) {ctx : Str} {file : FileId} {id : Nat}
    (hcall : ∀ file', PassesContext (P.view file' id) ctx ∧ ∃ g, C g ∧ (P.view file' id).target = .ok g)
    (st : HState) (loc : Local) : OnlyPanic (callStep P fuel rec ctx file id st loc) := by
  obtain ⟨hp, g, hg, ht⟩ := hcall st.active
  have hany : (P.view st.active id).args.any (fun a => decide (a.ident = some ctx)) = true := by
    obtain ⟨a, ha, hi⟩ := hp
    exact List.any_eq_true.mpr ⟨a, ha, by simpa using hi⟩
  intro s r h
  simp only [callStep, hcust, runCustoms, hany, if_true, ht] at h
  have hq := hrec { st with active := (P.view st.active id).targetFile } loc.nilRoute g (P.view st.active id).targetFile hg
  revert h
  cases hx : rec { st with active := (P.view st.active id).targetFile } loc.nilRoute g (P.view st.active id).targetFile with
  | none => intro h; cases h
  | some o =>
    obtain ⟨s', r'⟩ := o
    obtain ⟨m, rfl⟩ := hq s' r' hx
    intro h
    cases h
    exact ⟨m, rfl⟩

mutual
/-- A node with such a call. -/
theorem inspectNode_cycle {P : Prog} {fuel : Nat} {rec : HRec} {C : FuncId → Prop} (hcust : P.customs = [])
    (hrec : ∀ st n g file, C g → OnlyPanic (rec st n g file)) {ctx : Str} {file : FileId} {id : Nat}
    (hcall : ∀ file', PassesContext (P.view file' id) ctx ∧ ∃ g, C g ∧ (P.view file' id).target = .ok g) :
    (n : Node) → Node.outerCall id n → ∀ (st : HState) (loc : Local), OnlyPanic (inspectNode P fuel rec ctx file n st loc)
  | .other children, hn, st, loc => by
    simp only [Node.outerCall] at hn
    simp only [inspectNode]
    exact inspectNodes_cycle hcust hrec hcall children hn st _
  | .call i children, hn, st, loc => by
    simp only [Node.outerCall] at hn
    subst hn
    intro s r h
    simp only [inspectNode] at h
    have hq := callStep_cycle (fuel := fuel) (file := file) hcust hrec hcall st loc
    revert h
    cases hx : callStep P fuel rec ctx file i st loc with
    | none => intro h; cases h
    | some o =>
      obtain ⟨s', r'⟩ := o
      obtain ⟨m, rfl⟩ := hq s' r' hx
      intro h
      cases h
      exact ⟨m, rfl⟩
/-- A list of nodes with such a call. -/
theorem inspectNodes_cycle {P : Prog} {fuel : Nat} {rec : HRec} {C : FuncId → Prop} (hcust : P.customs = [])
    (hrec : ∀ st n g file, C g → OnlyPanic (rec st n g file)) {ctx : Str} {file : FileId} {id : Nat}
    (hcall : ∀ file', PassesContext (P.view file' id) ctx ∧ ∃ g, C g ∧ (P.view file' id).target = .ok g) :
    (ns : List Node) → Node.outerCallIn id ns → ∀ (st : HState) (loc : Local), OnlyPanic (inspectNodes P fuel rec ctx file ns st loc)
  | [], hn, _, _ => by simp [Node.outerCallIn] at hn
  | n :: ns, hn, st, loc => by
    simp only [Node.outerCallIn] at hn
    intro s r h
    simp only [inspectNodes] at h
    revert h
    cases hx : inspectNode P fuel rec ctx file n st loc with
    | none => intro h; cases h
    | some o =>
      obtain ⟨s', r'⟩ := o
      rcases hn with hn | hn
      · obtain ⟨m, rfl⟩ := inspectNode_cycle hcust hrec hcall n hn st loc s' r' hx
        intro h
        cases h
        exact ⟨m, rfl⟩
      · cases r' with
        | err e =>
          exact absurd hx (inspectNode_not_err P fuel rec ctx file n st s' loc e)
        | panic m => intro h; cases h; exact ⟨m, rfl⟩
        | ok loc' =>
          intro h
          exact inspectNodes_cycle hcust hrec hcall ns hn s' loc' s r h
end

/-- The analysis of one of the functions, if that of the others never completes. -/
theorem parseFunctionWith_cycle {P : Prog} {fuel : Nat} {rec : HRec} {C : FuncId → Prop} (hcust : P.customs = []) (hC : CallEachOther P C)
    (hrec : ∀ st n g file, C g → OnlyPanic (rec st n g file)) (top : Bool) (st : HState) (n : Bool) (f : FuncId) (hf : C f) (file : FileId) :
    OnlyPanic (parseFunctionWith P fuel rec top st n f file) := by
  obtain ⟨ctx, id, hctx, hbody, hcall⟩ := hC f hf file
  have hfind := (context_parameter_found P f file ctx hctx.1).mpr hctx
  have hne : ctx ≠ [] := hctx.1
  intro s r h
  obtain ⟨c, cs, rfl⟩ : ∃ c cs, ctx = c :: cs := by
    cases ctx with
    | nil => exact absurd rfl hne
    | cons c cs => exact ⟨c, cs, rfl⟩
  simp only [parseFunctionWith, hfind] at h
  revert h
  generalize hst : ({ st with active := file, route := _ } : HState) = st'
  cases hx : inspectNode P fuel rec (c :: cs) file (.other (P.funcs f).body) st' { nilRoute := n, err := none } with
  | none => intro h; cases h
  | some o =>
    obtain ⟨s', r'⟩ := o
    obtain ⟨m, rfl⟩ := inspectNode_cycle hcust hrec hcall (.other (P.funcs f).body) (by simpa only [Node.outerCall] using hbody) st' _ s' r' hx
    intro h
    cases h
    exact ⟨m, rfl⟩

/-- C17 is false, in general: if functions pass the context on to each other in a circle (a function that calls itself is the smallest one), the
analysis of a handler among them never completes, whatever it has recorded so far. If it ends at all, it ends in a panic. -/
theorem helper_cycle_never_completes (P : Prog) (hcust : P.customs = []) (C : FuncId → Prop) (hC : CallEachOther P C)
    (comps : List Field) (route : Route) (f : FuncId) (hf : C f) (file : FileId) (o : HState × Res Unit) (h : Ends P comps route f file o) :
    ∃ m, o.2 = .panic m := by
  have key : ∀ k st n g file, C g → OnlyPanic (parseHelper P k st n g file) := by
    intro k
    induction k with
    | zero => intro st n g file _ s r h; cases h
    | succ k ih =>
      intro st n g file hg
      exact parseFunctionWith_cycle hcust hC ih false st n g hg file
  obtain ⟨k, h⟩ := h
  exact parseFunctionWith_cycle hcust hC (key k) true _ false f hf file o.1 o.2 h

/-- Two functions that call each other with the context, with a condition in between: an instance. -/
def pingPong : Prog where
  types := shopEnv
  filePkg := fun _ => c!"app"
  funcs := fun f => { params := fun _ => [(.named (some ginPackage) ginContextType, [c!"c"])], body := [.other [.call f []]] }
  view := fun _ id => { args := [{ ident := some c!"c" }], target := .ok (1 - id) }

theorem pingPong_cycle : CallEachOther pingPong (fun f => f = 0 ∨ f = 1) := by
  intro f hf file
  refine ⟨c!"c", f, (context_parameter_found pingPong f file c!"c" (by decide)).mp rfl, ?_, fun file' => ⟨⟨_, List.mem_singleton.mpr rfl, rfl⟩, 1 - f, ?_, rfl⟩⟩
  · simp [pingPong, Node.outerCallIn, Node.outerCall]
  · rcases hf with rfl | rfl <;> simp

example (comps : List Field) (route : Route) (file : FileId) (o : HState × Res Unit) (h : Ends pingPong comps route 0 file o) : ∃ m, o.2 = .panic m :=
  helper_cycle_never_completes pingPong rfl _ pingPong_cycle comps route 0 (Or.inl rfl) file o h

end Astra.Props
