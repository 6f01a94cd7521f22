/-
C16: what happens to the other routes when the analysis of a handler fails.
-/
import Verif.Props.Handler
import Verif.Props.Routes

namespace Astra.Props
open Astra.Spec

/-- What can be observed of an outcome apart from the components. -/
def obs {α : Type} (o : HOut α) : Option (Route × FileId × Res α) := o.map (fun x => (x.1.route, x.1.active, x.2))

theorem obs_cases {α : Type} {o1 o2 : HOut α} (h : obs o1 = obs o2) :
    (o1 = none ∧ o2 = none) ∨ ∃ r a c1 c2 x, o1 = some (⟨r, c1, a⟩, x) ∧ o2 = some (⟨r, c2, a⟩, x) := by
  cases o1 with
  | none => cases o2 with
    | none => exact Or.inl ⟨rfl, rfl⟩
    | some y => cases h
  | some x => cases o2 with
    | none => cases h
    | some y =>
      obtain ⟨⟨r, c1, a⟩, v⟩ := x
      obtain ⟨⟨r', c2, a'⟩, v'⟩ := y
      simp only [obs, Option.map_some, Option.some.injEq, Prod.mk.injEq] at h
      obtain ⟨rfl, rfl, rfl⟩ := h
      exact Or.inr ⟨r, a, c1, c2, v, rfl, rfl⟩

theorem outcome_cases {α β : Type} {o1 o2 : Option (α × β)} (h : outcome o1 = outcome o2) :
    (o1 = none ∧ o2 = none) ∨ ∃ a1 a2 x, o1 = some (a1, x) ∧ o2 = some (a2, x) := by
  cases o1 with
  | none => cases o2 with
    | none => exact Or.inl ⟨rfl, rfl⟩
    | some y => cases h
  | some x => cases o2 with
    | none => cases h
    | some y =>
      obtain ⟨a, v⟩ := x
      obtain ⟨a', v'⟩ := y
      simp only [outcome, Option.map_some, Option.some.injEq] at h
      subst h
      exact Or.inr ⟨a, a', v, rfl, rfl⟩

theorem runOp_indep (Γ : TypeEnv) (k : Nat) (pkg : Str) (args : List ArgView) (i : Nat) (op : Op) (c1 c2 : List Field) :
    outcome (runOp Γ k pkg args i op c1) = outcome (runOp Γ k pkg args i op c2) := by
  cases op with
  | ignored => rfl
  | statusCode =>
    simp only [runOp]
    cases args[i]? with
    | none => rfl
    | some a => simp only; cases extractStatusCode a <;> rfl
  | value =>
    simp only [runOp]
    cases args[i]? with
    | none => rfl
    | some a => simp only; cases a.value <;> rfl
  | expressionResult =>
    simp only [runOp]
    cases args[i]? with
    | none => rfl
    | some a =>
      simp only
      cases a.type with
      | err e => rfl
      | panic e => rfl
      | ok t =>
        simp only
        rcases outcome_cases (typeResult_indep Γ true k c1 c2 (some pkg) [] t) with ⟨h1, h2⟩ | ⟨d1, d2, x, h1, h2⟩
        · rw [h1, h2]
        · rw [h1, h2]; cases x <;> rfl

theorem runOps_indep (Γ : TypeEnv) (k : Nat) (pkg : Str) (args : List ArgView) (b : Builder) : ∀ (c1 c2 : List Field),
    outcome (runOps Γ k pkg args b c1) = outcome (runOps Γ k pkg args b c2) := by
  induction b with
  | nil => intro c1 c2; rfl
  | cons x b ih =>
    obtain ⟨i, op⟩ := x
    intro c1 c2
    simp only [runOps]
    rcases outcome_cases (runOp_indep Γ k pkg args i op c1 c2) with ⟨h1, h2⟩ | ⟨d1, d2, x, h1, h2⟩
    · rw [h1, h2]
    · rw [h1, h2]
      cases x with
      | err e => rfl
      | panic e => rfl
      | ok v =>
        simp only
        rcases outcome_cases (ih d1 d2) with ⟨h1, h2⟩ | ⟨d1, d2, x, h1, h2⟩
        · rw [h1, h2]
        · rw [h1, h2]; cases x <;> rfl

theorem build_indep (Γ : TypeEnv) (k : Nat) (pkg : Str) (args : List ArgView) (b : Builder) (mapper : Mapper) (route : Option Route) (c1 c2 : List Field) :
    outcome (build Γ k pkg args b mapper route c1) = outcome (build Γ k pkg args b mapper route c2) := by
  simp only [build]
  rcases outcome_cases (runOps_indep Γ k pkg args b c1 c2) with ⟨h1, h2⟩ | ⟨d1, d2, x, h1, h2⟩
  · rw [h1, h2]
  · rw [h1, h2]
    cases x with
    | err e => rfl
    | panic e => rfl
    | ok vs =>
      simp only
      cases mapper vs with
      | none => rfl
      | some f => cases route <;> rfl

/-- Two states that differ in the components only. -/
def Alike (s1 s2 : HState) : Prop := s1.route = s2.route ∧ s1.active = s2.active

theorem contextCall_indep (P : Prog) (k : Nat) (pkg : Str) (view : CallView) (ops : Builder) (m : Str) (s1 s2 : HState) (h : Alike s1 s2)
    (loc : Local) : obs (contextCall P k pkg view ops m s1 loc) = obs (contextCall P k pkg view ops m s2 loc) := by
  obtain ⟨r, c1, a⟩ := s1
  obtain ⟨r', c2, a'⟩ := s2
  obtain ⟨h1, h2⟩ := h
  simp only at h1 h2
  subst h1; subst h2
  simp only [contextCall]
  cases ctxCase m with
  | none => rfl
  | some c =>
    simp only
    rcases outcome_cases (build_indep P.types k pkg view.args (ops.chain c.ops) c.mapper (if loc.nilRoute = true then none else some r) c1 c2) with
      ⟨h1, h2⟩ | ⟨d1, d2, x, h1, h2⟩
    · rw [h1, h2]
    · rw [h1, h2]; cases x <;> rfl

theorem runCustoms_indep {fs : List CustomFunc} (hP : ∀ f ∈ fs, StaysOnRoute f) (ctx : Str) (view : CallView) (n : Bool) :
    ∀ (ops : Builder) (s1 s2 : HState), Alike s1 s2 → ∃ t1 t2 ops' r, runCustoms ctx view n fs ops s1 = (t1, ops', r) ∧
      runCustoms ctx view n fs ops s2 = (t2, ops', r) ∧ Alike t1 t2 := by
  induction fs with
  | nil => intro ops s1 s2 h; exact ⟨s1, s2, ops, _, rfl, rfl, h⟩
  | cons f fs ih =>
    intro ops s1 s2 h
    have ih := ih (fun g hg => hP g (List.mem_cons_of_mem _ hg))
    obtain ⟨h1, h2, h3⟩ := (hP f (by simp)).ignores ctx view (if n then none else some s1.route) ops s1.components s2.components
    simp only [runCustoms, ← h.1]
    generalize f ctx view (if n then none else some s1.route) ops s1.components = o1 at *
    generalize f ctx view (if n then none else some s1.route) ops s2.components = o2 at *
    obtain ⟨r1, p1, c1, x1⟩ := o1
    obtain ⟨r2, p2, c2, x2⟩ := o2
    simp only at h1 h2 h3
    subst h1; subst h2; subst h3
    have ha : Alike { s1 with route := if n = true then s1.route else r1, components := c1 } { s2 with route := if n = true then s1.route else r1, components := c2 } :=
      ⟨rfl, h.2⟩
    match x1 with
    | .err e => exact ⟨_, _, _, _, rfl, rfl, ha⟩
    | .panic e => exact ⟨_, _, _, _, rfl, rfl, ha⟩
    | .ok .nil => exact ih _ _ _ ha
    | .ok .given =>
      cases n with
      | true => exact ih _ _ _ ha
      | false => exact ⟨_, _, _, _, rfl, rfl, ha⟩
    | .ok (.fresh r) => exact ⟨_, _, _, _, rfl, rfl, ha⟩

theorem callStep_indep (P : Prog) (hP : ∀ f ∈ P.customs, StaysOnRoute f) (k : Nat) (rec : HRec)
    (hrec : ∀ s1 s2, Alike s1 s2 → ∀ n f file, obs (rec s1 n f file) = obs (rec s2 n f file))
    (ctx : Str) (file : FileId) (id : Nat) (s1 s2 : HState) (h : Alike s1 s2) (loc : Local) :
    obs (callStep P k rec ctx file id s1 loc) = obs (callStep P k rec ctx file id s2 loc) := by
  obtain ⟨t1, t2, ops, x, e1, e2, ht⟩ := runCustoms_indep hP ctx (P.view s1.active id) loc.nilRoute [] s1 s2 h
  simp only [callStep, ← h.2]
  rw [e1, e2]
  generalize hv : s1.active = a
  clear e1 e2 hv h
  obtain ⟨r, c1, b⟩ := t1
  obtain ⟨r', c2, b'⟩ := t2
  have h' := ht
  obtain ⟨h1, h2⟩ := ht
  simp only at h1 h2
  subst h1; subst h2
  match x with
  | .err e => rfl
  | .panic e => rfl
  | .ok .given => rfl
  | .ok (.fresh r) => rfl
  | .ok .nil =>
  simp only
  split
  · cases (P.view a id).target with
    | err e => rfl
    | panic m => rfl
    | ok f =>
      simp only
      rcases obs_cases (hrec ⟨r, c1, (P.view a id).targetFile⟩ ⟨r, c2, (P.view a id).targetFile⟩ ⟨rfl, rfl⟩ loc.nilRoute f (P.view a id).targetFile) with
        ⟨h1, h2⟩ | ⟨_, _, d1, d2, x, h1, h2⟩
      · rw [h1, h2]
      · rw [h1, h2]; cases x <;> rfl
  · cases (P.view a id).func with
    | err e => rfl
    | panic m => rfl
    | ok x =>
      obtain ⟨b, m⟩ := x
      cases b with
      | false => rfl
      | true => exact contextCall_indep P k _ _ _ _ _ _ h' loc

mutual
theorem inspectNode_indep (P : Prog) (hP : ∀ f ∈ P.customs, StaysOnRoute f) (k : Nat) (rec : HRec)
    (hrec : ∀ s1 s2, Alike s1 s2 → ∀ n f file, obs (rec s1 n f file) = obs (rec s2 n f file)) (ctx : Str) (file : FileId) :
    ∀ (n : Node) (s1 s2 : HState), Alike s1 s2 → ∀ loc, obs (inspectNode P k rec ctx file n s1 loc) = obs (inspectNode P k rec ctx file n s2 loc)
  | .other children, s1, s2, h, loc => by
    simp only [inspectNode]
    exact inspectNodes_indep P hP k rec hrec ctx file children s1 s2 h _
  | .call id children, s1, s2, h, loc => by
    simp only [inspectNode]
    rcases obs_cases (callStep_indep P hP k rec hrec ctx file id s1 s2 h loc) with ⟨h1, h2⟩ | ⟨_, _, d1, d2, x, h1, h2⟩
    · rw [h1, h2]
    · rw [h1, h2]
      match x with
      | .err e => rfl
      | .panic e => rfl
      | .ok (l, false) => rfl
      | .ok (l, true) => exact inspectNodes_indep P hP k rec hrec ctx file children ⟨_, d1, _⟩ ⟨_, d2, _⟩ ⟨rfl, rfl⟩ _
theorem inspectNodes_indep (P : Prog) (hP : ∀ f ∈ P.customs, StaysOnRoute f) (k : Nat) (rec : HRec)
    (hrec : ∀ s1 s2, Alike s1 s2 → ∀ n f file, obs (rec s1 n f file) = obs (rec s2 n f file)) (ctx : Str) (file : FileId) :
    ∀ (ns : List Node) (s1 s2 : HState), Alike s1 s2 → ∀ loc, obs (inspectNodes P k rec ctx file ns s1 loc) = obs (inspectNodes P k rec ctx file ns s2 loc)
  | [], s1, s2, h, loc => by simp only [inspectNodes, obs, Option.map_some, h.1, h.2]
  | n :: ns, s1, s2, h, loc => by
    simp only [inspectNodes]
    rcases obs_cases (inspectNode_indep P hP k rec hrec ctx file n s1 s2 h loc) with ⟨h1, h2⟩ | ⟨_, _, d1, d2, x, h1, h2⟩
    · rw [h1, h2]
    · rw [h1, h2]
      match x with
      | .err e => rfl
      | .panic e => rfl
      | .ok l => exact inspectNodes_indep P hP k rec hrec ctx file ns ⟨_, d1, _⟩ ⟨_, d2, _⟩ ⟨rfl, rfl⟩ _
end

theorem parseFunctionWith_indep (P : Prog) (hP : ∀ f ∈ P.customs, StaysOnRoute f) (k : Nat) (rec : HRec)
    (hrec : ∀ s1 s2, Alike s1 s2 → ∀ n f file, obs (rec s1 n f file) = obs (rec s2 n f file)) (top : Bool)
    (s1 s2 : HState) (h : Alike s1 s2) (n : Bool) (f : FuncId) (file : FileId) :
    obs (parseFunctionWith P k rec top s1 n f file) = obs (parseFunctionWith P k rec top s2 n f file) := by
  obtain ⟨r, c1, a⟩ := s1
  obtain ⟨r', c2, a'⟩ := s2
  obtain ⟨h1, h2⟩ := h
  simp only at h1 h2
  subst h1; subst h2
  simp only [parseFunctionWith]
  split
  · rfl
  · rfl
  · rfl
  · rename_i ctx _ _
    rcases obs_cases (inspectNode_indep P hP k rec hrec ctx file (.other (P.funcs f).body)
        ⟨if top = true ∧ funcDoc P f ≠ [] then { r with doc := trimSpace (funcDoc P f) } else r, c1, file⟩
        ⟨if top = true ∧ funcDoc P f ≠ [] then { r with doc := trimSpace (funcDoc P f) } else r, c2, file⟩ ⟨rfl, rfl⟩
        { nilRoute := n, err := none }) with ⟨h1, h2⟩ | ⟨_, _, d1, d2, x, h1, h2⟩
    · rw [h1, h2]
    · rw [h1, h2]
      match x with
      | .err e => rfl
      | .panic e => rfl
      | .ok l =>
        simp only
        cases l.err with
        | some e => rfl
        | none =>
          simp only
          split
          · rfl
          · split <;> rfl

theorem parseHelper_indep (P : Prog) (hP : ∀ f ∈ P.customs, StaysOnRoute f) (k : Nat) :
    ∀ s1 s2, Alike s1 s2 → ∀ n f file, obs (parseHelper P k s1 n f file) = obs (parseHelper P k s2 n f file) := by
  induction k with
  | zero => intros; rfl
  | succ k ih => intro s1 s2 h n f file; exact parseFunctionWith_indep P hP k _ ih false s1 s2 h n f file

theorem parseFunction_indep (P : Prog) (hP : ∀ f ∈ P.customs, StaysOnRoute f) (k : Nat) (c1 c2 : List Field) (route : Route) (f : FuncId) (file : FileId) :
    obs (parseFunction P k c1 route f file) = obs (parseFunction P k c2 route f file) :=
  parseFunctionWith_indep P hP k _ (parseHelper_indep P hP k) true ⟨_, c1, _⟩ ⟨_, c2, _⟩ ⟨rfl, rfl⟩ _ _ _

theorem analyse_indep (E : RouteEnv) (hP : ∀ f ∈ E.prog.customs, StaysOnRoute f) (k : Nat) (file : FileId) (f : FuncId) (c1 c2 : List Field) (route : Route) :
    outcome (analyse E k file f c1 route) = outcome (analyse E k file f c2 route) := by
  simp only [analyse]
  rcases obs_cases (parseFunction_indep E.prog hP k c1 c2 route f file) with ⟨h1, h2⟩ | ⟨_, _, d1, d2, x, h1, h2⟩
  · rw [h1, h2]
  · rw [h1, h2]; cases x <;> rfl

mutual
theorem analyseLit_indep (E : RouteEnv) (hP : ∀ f ∈ E.prog.customs, StaysOnRoute f) (k : Nat) (file : FileId) : ∀ (l : Lit) (c1 c2 : List Field) (route : Route),
    outcome (analyseLit E k file l c1 route) = outcome (analyseLit E k file l c2 route)
  | .mk line f inner, c1, c2, route => by
    simp only [analyseLit]
    split
    · exact analyse_indep E hP k file f c1 c2 route
    · exact analyseLits_indep E hP k file inner c1 c2 route
theorem analyseLits_indep (E : RouteEnv) (hP : ∀ f ∈ E.prog.customs, StaysOnRoute f) (k : Nat) (file : FileId) : ∀ (ls : List Lit) (c1 c2 : List Field) (route : Route),
    outcome (analyseLits E k file ls c1 route) = outcome (analyseLits E k file ls c2 route)
  | [], c1, c2, route => by simp only [analyseLits]; rfl
  | l :: ls, c1, c2, route => by
    simp only [analyseLits]
    rcases outcome_cases (analyseLit_indep E hP k file l c1 c2 route) with ⟨h1, h2⟩ | ⟨d1, d2, x, h1, h2⟩
    · rw [h1, h2]
    · rw [h1, h2]
      match x with
      | .err e => rfl
      | .panic e => rfl
      | .ok r => exact analyseLits_indep E hP k file ls d1 d2 r
end

theorem analyseDecls_indep (E : RouteEnv) (hP : ∀ f ∈ E.prog.customs, StaysOnRoute f) (k : Nat) (file : FileId) (funcName : Str) :
    ∀ (ds : List FuncDecl) (c1 c2 : List Field) (route : Route),
      outcome (analyseDecls E k file funcName ds c1 route) = outcome (analyseDecls E k file funcName ds c2 route) := by
  intro ds
  induction ds with
  | nil => intros; rfl
  | cons d ds ih =>
    intro c1 c2 route
    simp only [analyseDecls]
    have hd : outcome (analyseDecl E k file funcName d c1 route) = outcome (analyseDecl E k file funcName d c2 route) := by
      simp only [analyseDecl]
      split
      · split
        · exact analyseLits_indep E hP k file d.lits c1 c2 route
        · exact analyse_indep E hP k file d.func c1 c2 _
      · rfl
    rcases outcome_cases hd with ⟨h1, h2⟩ | ⟨d1, d2, x, h1, h2⟩
    · rw [h1, h2]
    · rw [h1, h2]
      match x with
      | .err e => rfl
      | .panic e => rfl
      | .ok r => exact ih d1 d2 r

/-- C16: the outcome of the analysis of a route does not depend on what other routes left in the components. -/
theorem parseRoute_indep (E : RouteEnv) (hP : ∀ f ∈ E.prog.customs, StaysOnRoute f) (k : Nat) (c1 c2 : List Field) (route : Route) :
    (parseRoute E k c1 route).map (·.2) = (parseRoute E k c2 route).map (·.2) := by
  simp only [parseRoute]
  cases (splitHandlerPath route.handler).packageName with
  | panic m => rfl
  | err e => rfl
  | ok p =>
    simp only
    split
    · rfl
    · cases (splitHandlerPath route.handler).funcName with
      | panic m => rfl
      | err e => rfl
      | ok fn =>
        simp only
        split
        · rfl
        · cases E.fileOf (splitHandlerPath route.handler).packagePath route.file with
          | none => rfl
          | some file => exact analyseDecls_indep E hP k file fn _ c1 c2 _

/-! ### errors of the analysis are not returned -/

theorem analyse_no_error (E : RouteEnv) (k : Nat) (file : FileId) (f : FuncId) (c c' : List Field) (route : Route) (e : Str) :
    analyse E k file f c route ≠ some (c', .err e) := by
  simp only [analyse]
  split <;> simp

mutual
theorem analyseLit_no_error (E : RouteEnv) (k : Nat) (file : FileId) : ∀ (l : Lit) (c c' : List Field) (route : Route) (e : Str),
    analyseLit E k file l c route ≠ some (c', .err e)
  | .mk line f inner, c, c', route, e => by
    simp only [analyseLit]
    split
    · exact analyse_no_error E k file f c c' route e
    · exact analyseLits_no_error E k file inner c c' route e
theorem analyseLits_no_error (E : RouteEnv) (k : Nat) (file : FileId) : ∀ (ls : List Lit) (c c' : List Field) (route : Route) (e : Str),
    analyseLits E k file ls c route ≠ some (c', .err e)
  | [], c, c', route, e => by simp [analyseLits]
  | l :: ls, c, c', route, e => by
    simp only [analyseLits]
    cases h : analyseLit E k file l c route with
    | none => simp
    | some x =>
      obtain ⟨c1, r⟩ := x
      match r, h with
      | .err e, h => exact absurd h (analyseLit_no_error E k file l c c1 route e)
      | .panic m, _ => simp
      | .ok r, _ => exact analyseLits_no_error E k file ls c1 c' r e
end

theorem analyseDecls_no_error (E : RouteEnv) (k : Nat) (file : FileId) (funcName : Str) : ∀ (ds : List FuncDecl) (c c' : List Field) (route : Route) (e : Str),
    analyseDecls E k file funcName ds c route ≠ some (c', .err e) := by
  intro ds
  induction ds with
  | nil => intro c c' route e; simp [analyseDecls]
  | cons d ds ih =>
    intro c c' route e
    simp only [analyseDecls]
    have hd : ∀ c1 e, analyseDecl E k file funcName d c route ≠ some (c1, .err e) := by
      intro c1 e
      simp only [analyseDecl]
      split
      · split
        · exact analyseLits_no_error E k file _ _ _ _ _
        · exact analyse_no_error E k file _ _ _ _ _
      · simp
    cases h : analyseDecl E k file funcName d c route with
    | none => simp
    | some x =>
      obtain ⟨c1, r⟩ := x
      match r, h with
      | .err e, h => exact absurd h (hd c1 e)
      | .panic m, _ => simp
      | .ok r, _ => exact ih c1 c' r e

/-- The handler of the route can be located: its name has the expected form, its package loads and has its file. -/
def Locatable (E : RouteEnv) (route : Route) : Prop :=
  (∃ p, (splitHandlerPath route.handler).packageName = .ok p) ∧ 1 ≤ (splitHandlerPath route.handler).handlerParts.length ∧
  (∃ fn, (splitHandlerPath route.handler).funcName = .ok fn) ∧ E.loadable (splitHandlerPath route.handler).packagePath = true ∧
  ∃ file, E.fileOf (splitHandlerPath route.handler).packagePath route.file = some file

/-- C16: whatever goes wrong in the analysis of a handler that can be located, no error is returned. -/
theorem handler_error_not_returned (E : RouteEnv) (k : Nat) (c c' : List Field) (route : Route) (e : Str) (h : Locatable E route) :
    parseRoute E k c route ≠ some (c', .err e) := by
  obtain ⟨⟨p, hp⟩, hl, ⟨fn, hf⟩, hload, file, hfile⟩ := h
  simp only [parseRoute, hp, hf, hload, hfile]
  rw [if_neg (by omega), if_neg (by simp)]
  exact analyseDecls_no_error E k file fn _ _ _ _ _

/-! ### the run -/

theorem _root_.Astra.Spec.SameIdentity.refl (a : Route) : SameIdentity a a := ⟨rfl, rfl, rfl, rfl, rfl⟩
theorem _root_.Astra.Spec.SameIdentity.trans {a b c : Route} (h : SameIdentity a b) (h' : SameIdentity b c) : SameIdentity a c :=
  ⟨h.1.trans h'.1, h.2.1.trans h'.2.1, h.2.2.1.trans h'.2.2.1, h.2.2.2.1.trans h'.2.2.2.1, h.2.2.2.2.trans h'.2.2.2.2⟩

/-- The mapper changes no part of a route that says which route it is. -/
def KeepsPlace (m : Mapper) : Prop := ∀ vs g, m vs = some g → ∀ r, SameIdentity (g r) r

theorem mapper_identity {name : Str} {c : CtxCase} (hc : ctxCase name = some c) {vs : List ParamVal} {g : Route → Route} (hm : c.mapper vs = some g)
    (r : Route) : SameIdentity (g r) r := by
  have k1 : ∀ ct, KeepsPlace (returnMapper ct) := by
    intro ct vs g h r; unfold returnMapper at h; split at h <;> cases h; exact ⟨rfl, rfl, rfl, rfl, rfl⟩
  have k2 : ∀ ct t, KeepsPlace (statusMapper ct t) := by
    intro ct t vs g h r; unfold statusMapper at h; split at h <;> cases h; exact ⟨rfl, rfl, rfl, rfl, rfl⟩
  have k3 : ∀ a b, KeepsPlace (queryMapper a b) := by
    intro a b vs g h r; unfold queryMapper at h; split at h <;> cases h; exact ⟨rfl, rfl, rfl, rfl, rfl⟩
  have k4 : KeepsPlace bindQueryMapper := by
    intro vs g h r; unfold bindQueryMapper at h; split at h <;> cases h; exact ⟨rfl, rfl, rfl, rfl, rfl⟩
  have k5 : KeepsPlace bindMapper := by
    intro vs g h r; unfold bindMapper at h; split at h <;> cases h; exact ⟨rfl, rfl, rfl, rfl, rfl⟩
  have k6 : ∀ ct, KeepsPlace (bindBodyMapper ct) := by
    intro ct vs g h r; unfold bindBodyMapper at h; split at h <;> cases h; exact ⟨rfl, rfl, rfl, rfl, rfl⟩
  have k7 : ∀ ct t a b, KeepsPlace (formMapper ct t a b) := by
    intro ct t a b vs g h r; unfold formMapper at h; split at h <;> cases h; exact ⟨rfl, rfl, rfl, rfl, rfl⟩
  have k8 : KeepsPlace requestHeaderMapper := by
    intro vs g h r; unfold requestHeaderMapper at h; split at h <;> cases h; exact ⟨rfl, rfl, rfl, rfl, rfl⟩
  have k9 : KeepsPlace bindHeaderMapper := by
    intro vs g h r; unfold bindHeaderMapper at h; split at h <;> cases h; exact ⟨rfl, rfl, rfl, rfl, rfl⟩
  have k10 : KeepsPlace responseHeaderMapper := by
    intro vs g h r; unfold responseHeaderMapper at h; split at h <;> cases h; exact ⟨rfl, rfl, rfl, rfl, rfl⟩
  have key : KeepsPlace c.mapper := by
    unfold ctxCase at hc
    have pass : ∀ {q : Prop} [Decidable q] {d : CtxCase} {rest : Option CtxCase}, KeepsPlace d.mapper → (rest = some c → KeepsPlace c.mapper) →
        (if q then some d else rest) = some c → KeepsPlace c.mapper := by
      intro q _ d rest hd hr h
      by_cases hq : q
      · rw [if_pos hq] at h; cases h; exact hd
      · rw [if_neg hq] at h; exact hr h
    revert hc
    repeat (refine pass (by first | exact k1 _ | exact k2 _ _ | exact k3 _ _ | exact k4 | exact k5 | exact k6 _ | exact k7 _ _ _ _ | exact k8 | exact k9 | exact k10) ?_)
    intro h; cases h
  exact key vs g hm r

theorem contextCall_identity (P : Prog) (k : Nat) (pkg : Str) (view : CallView) (ops : Builder) (m : Str) (st st' : HState) (loc loc' : Local) (b : Bool)
    (h : contextCall P k pkg view ops m st loc = some (st', .ok (loc', b))) : SameIdentity st'.route st.route ∧ loc'.saved = loc.saved := by
  simp only [contextCall] at h
  cases hc : ctxCase m with
  | none => rw [hc] at h; cases h; exact ⟨.refl _, rfl⟩
  | some c =>
    rw [hc] at h
    simp only at h
    generalize hb : build P.types k pkg view.args (ops.chain c.ops) c.mapper (if loc.nilRoute = true then none else some st.route) st.components = o at h
    match o, h with
    | some (comps, .err e), h => cases h; exact ⟨.refl _, rfl⟩
    | some (comps, .ok r), h =>
      cases h
      refine ⟨?_, rfl⟩
      simp only [build] at hb
      cases ho : runOps P.types k pkg view.args (ops.chain c.ops) st.components with
      | none => rw [ho] at hb; cases hb
      | some x =>
        obtain ⟨d, y⟩ := x
        rw [ho] at hb
        cases y with
        | err e => cases hb
        | panic e => cases hb
        | ok vs =>
          simp only at hb
          cases hm : c.mapper vs with
          | none => rw [hm] at hb; cases hb
          | some g =>
            rw [hm] at hb
            cases hn : loc.nilRoute with
            | true => rw [hn] at hb; cases hb
            | false =>
              rw [hn] at hb
              cases hb
              exact mapper_identity hc hm st.route

theorem Local_given_identity {loc : Local} {a b : Route} (h : SameIdentity a b) : SameIdentity (loc.given a) (loc.given b) := by
  unfold Local.given
  cases loc.saved with
  | none => exact h
  | some r => exact .refl r

theorem runCustoms_identity {fs : List CustomFunc} (hP : ∀ f ∈ fs, StaysOnRoute f) (ctx : Str) (view : CallView) (n : Bool) :
    ∀ (ops : Builder) (st : HState), SameIdentity (runCustoms ctx view n fs ops st).1.route st.route := by
  induction fs with
  | nil => intro ops st; exact .refl _
  | cons f fs ih =>
    intro ops st
    have ih := ih (fun g hg => hP g (List.mem_cons_of_mem _ hg))
    have hk : SameIdentity (if n = true then st.route else (f ctx view (if n then none else some st.route) ops st.components).route) st.route := by
      cases n with
      | true => exact .refl _
      | false => exact (hP f (by simp)).keeps ctx view st.route ops st.components
    simp only [runCustoms]
    generalize f ctx view (if n then none else some st.route) ops st.components = o at *
    obtain ⟨r1, p1, c1, x1⟩ := o
    match x1 with
    | .err e => exact hk
    | .panic e => exact hk
    | .ok .nil => exact (ih _ _).trans hk
    | .ok .given =>
      cases n with
      | true => exact (ih _ _).trans hk
      | false => exact hk
    | .ok (.fresh r) => exact hk

theorem callStep_identity (P : Prog) (hP : ∀ f ∈ P.customs, StaysOnRoute f) (k : Nat) (rec : HRec)
    (hrec : ∀ st n f file st' r, rec st n f file = some (st', r) → (∀ m, r ≠ .panic m) → SameIdentity st'.route st.route)
    (ctx : Str) (file : FileId) (id : Nat) (st st' : HState) (loc loc' : Local) (b : Bool)
    (h : callStep P k rec ctx file id st loc = some (st', .ok (loc', b))) : SameIdentity (loc'.given st'.route) (loc.given st.route) := by
  have hc := runCustoms_identity hP ctx (P.view st.active id) loc.nilRoute [] st
  simp only [callStep] at h
  generalize runCustoms ctx (P.view st.active id) loc.nilRoute P.customs [] st = o at *
  obtain ⟨s1, ops, x⟩ := o
  have hc : SameIdentity s1.route st.route := hc
  match x, h with
  | .err e, h => cases h; exact Local_given_identity hc
  | .panic e, h => cases h
  | .ok .given, h => cases h; exact Local_given_identity hc
  | .ok (.fresh r), h => cases h; exact Local_given_identity hc
  | .ok .nil, h =>
    simp only at h
    split at h
    · cases ht : (P.view st.active id).target with
      | err e => rw [ht] at h; cases h; exact Local_given_identity hc
      | panic m => rw [ht] at h; cases h
      | ok f =>
        rw [ht] at h
        simp only at h
        cases hr : rec { s1 with active := (P.view st.active id).targetFile } loc.nilRoute f (P.view st.active id).targetFile with
        | none => rw [hr] at h; cases h
        | some z =>
          obtain ⟨s2, r1⟩ := z
          have := hrec _ _ _ _ _ _ hr
          rw [hr] at h
          cases r1 with
          | panic m => cases h
          | ok u => cases h; exact Local_given_identity ((this (by simp)).trans hc)
          | err e => cases h; exact Local_given_identity ((this (by simp)).trans hc)
    · cases ht : (P.view st.active id).func with
      | err e => rw [ht] at h; cases h; exact Local_given_identity hc
      | panic m => rw [ht] at h; cases h
      | ok x =>
        obtain ⟨b, m⟩ := x
        rw [ht] at h
        cases b with
        | false => cases h; exact Local_given_identity hc
        | true =>
          obtain ⟨h1, h2⟩ := contextCall_identity P k _ _ _ _ _ _ _ _ _ h
          have : loc'.given st'.route = loc.given st'.route := by unfold Local.given; rw [h2]
          rw [this]
          exact Local_given_identity (h1.trans hc)

mutual
theorem inspectNode_identity (P : Prog) (hP : ∀ f ∈ P.customs, StaysOnRoute f) (k : Nat) (rec : HRec)
    (hrec : ∀ st n f file st' r, rec st n f file = some (st', r) → (∀ m, r ≠ .panic m) → SameIdentity st'.route st.route) (ctx : Str) (file : FileId) :
    ∀ (n : Node) (st st' : HState) (loc loc' : Local), inspectNode P k rec ctx file n st loc = some (st', .ok loc') →
      SameIdentity (loc'.given st'.route) (loc.given st.route)
  | .other children, st, st', loc, loc', h => by
    simp only [inspectNode] at h
    exact inspectNodes_identity P hP k rec hrec ctx file children st st' { loc with err := none } loc' h
  | .call id children, st, st', loc, loc', h => by
    simp only [inspectNode] at h
    cases hc : callStep P k rec ctx file id st loc with
    | none => rw [hc] at h; cases h
    | some x =>
      obtain ⟨s1, r1⟩ := x
      rw [hc] at h
      match r1, hc, h with
      | .ok (l, false), hc, h => cases h; exact callStep_identity P hP k rec hrec ctx file id st _ loc _ _ hc
      | .ok (l, true), hc, h =>
        exact (inspectNodes_identity P hP k rec hrec ctx file children s1 st' l loc' h).trans
          (callStep_identity P hP k rec hrec ctx file id st s1 loc l true hc)
theorem inspectNodes_identity (P : Prog) (hP : ∀ f ∈ P.customs, StaysOnRoute f) (k : Nat) (rec : HRec)
    (hrec : ∀ st n f file st' r, rec st n f file = some (st', r) → (∀ m, r ≠ .panic m) → SameIdentity st'.route st.route) (ctx : Str) (file : FileId) :
    ∀ (ns : List Node) (st st' : HState) (loc loc' : Local), inspectNodes P k rec ctx file ns st loc = some (st', .ok loc') →
      SameIdentity (loc'.given st'.route) (loc.given st.route)
  | [], st, st', loc, loc', h => by simp only [inspectNodes] at h; cases h; exact .refl _
  | n :: ns, st, st', loc, loc', h => by
    simp only [inspectNodes] at h
    cases hc : inspectNode P k rec ctx file n st loc with
    | none => rw [hc] at h; cases h
    | some x =>
      obtain ⟨s1, r1⟩ := x
      rw [hc] at h
      match r1, hc, h with
      | .ok l, hc, h =>
        exact (inspectNodes_identity P hP k rec hrec ctx file ns s1 st' l loc' h).trans (inspectNode_identity P hP k rec hrec ctx file n st s1 loc l hc)
end

mutual
theorem inspectNode_not_err (P : Prog) (k : Nat) (rec : HRec) (ctx : Str) (file : FileId) :
    ∀ (n : Node) (st st' : HState) (loc : Local) (e : Str), inspectNode P k rec ctx file n st loc ≠ some (st', .err e)
  | .other children, st, st', loc, e => by
    simp only [inspectNode]
    exact inspectNodes_not_err P k rec ctx file children st st' _ e
  | .call id children, st, st', loc, e => by
    simp only [inspectNode]
    cases hc : callStep P k rec ctx file id st loc with
    | none => simp
    | some x =>
      obtain ⟨s1, r1⟩ := x
      match r1, hc with
      | .ok (l, false), hc => simp
      | .ok (l, true), hc => exact inspectNodes_not_err P k rec ctx file children s1 st' l e
      | .panic m, hc => simp
      | .err e', hc =>
        exfalso
        simp only [callStep] at hc
        split at hc
        · cases hc
        · cases hc
        · cases hc
        · cases hc
        · split at hc
          · split at hc
            · cases hc
            · cases hc
            · split at hc <;> cases hc
          · split at hc
            · cases hc
            · cases hc
            · cases hc
            · simp only [contextCall] at hc
              split at hc
              · cases hc
              · split at hc <;> cases hc
theorem inspectNodes_not_err (P : Prog) (k : Nat) (rec : HRec) (ctx : Str) (file : FileId) :
    ∀ (ns : List Node) (st st' : HState) (loc : Local) (e : Str), inspectNodes P k rec ctx file ns st loc ≠ some (st', .err e)
  | [], st, st', loc, e => by simp [inspectNodes]
  | n :: ns, st, st', loc, e => by
    simp only [inspectNodes]
    cases hc : inspectNode P k rec ctx file n st loc with
    | none => simp
    | some x =>
      obtain ⟨s1, r1⟩ := x
      match r1, hc with
      | .ok l, hc => exact inspectNodes_not_err P k rec ctx file ns s1 st' l e
      | .panic m, hc => simp
      | .err e', hc => exact absurd hc (inspectNode_not_err P k rec ctx file n st s1 loc e')
end

theorem parseFunctionWith_identity (P : Prog) (hP : ∀ f ∈ P.customs, StaysOnRoute f) (k : Nat) (rec : HRec)
    (hrec : ∀ st n f file st' r, rec st n f file = some (st', r) → (∀ m, r ≠ .panic m) → SameIdentity st'.route st.route) (top : Bool)
    (st : HState) (n : Bool) (f : FuncId) (file : FileId) (st' : HState) (r) (h : parseFunctionWith P k rec top st n f file = some (st', r))
    (hr : ∀ m, r ≠ .panic m) : SameIdentity st'.route st.route := by
  have h0 : SameIdentity (if top = true ∧ funcDoc P f ≠ [] then { st.route with doc := trimSpace (funcDoc P f) } else st.route) st.route := by
    split
    · exact ⟨rfl, rfl, rfl, rfl, rfl⟩
    · exact .refl _
  simp only [parseFunctionWith] at h
  split at h
  · cases h; exact absurd rfl (hr _)
  · cases h; exact h0
  · cases h; exact h0
  · split at h
    · cases h
    · rename_i hi; exact absurd hi (inspectNode_not_err P k rec _ _ _ _ _ _ _)
    · cases h; exact absurd rfl (hr _)
    · rename_i hi
      have := inspectNode_identity P hP k rec hrec _ _ _ _ _ _ _ hi
      split at h
      · cases h; exact this.trans h0
      · split at h
        · cases h; exact absurd rfl (hr _)
        · split at h <;> cases h <;> exact this.trans h0

theorem parseHelper_identity (P : Prog) (hP : ∀ f ∈ P.customs, StaysOnRoute f) (k : Nat) :
    ∀ st n f file st' r, parseHelper P k st n f file = some (st', r) → (∀ m, r ≠ .panic m) → SameIdentity st'.route st.route := by
  induction k with
  | zero => intro st n f file st' r h; cases h
  | succ k ih => intro st n f file st' r h; exact parseFunctionWith_identity P hP k _ ih false st n f file st' r h

theorem analyse_identity (E : RouteEnv) (hP : ∀ f ∈ E.prog.customs, StaysOnRoute f) (k : Nat) (file : FileId) (f : FuncId) (c c' : List Field) (route route' : Route)
    (h : analyse E k file f c route = some (c', .ok route')) : SameIdentity route' route := by
  simp only [analyse] at h
  split at h <;> cases h
  · rename_i hi; exact parseFunctionWith_identity E.prog hP k _ (parseHelper_identity E.prog hP k) true _ _ _ _ _ _ hi (by simp)
  · rename_i hi; exact parseFunctionWith_identity E.prog hP k _ (parseHelper_identity E.prog hP k) true _ _ _ _ _ _ hi (by simp)

mutual
theorem analyseLit_identity (E : RouteEnv) (hP : ∀ f ∈ E.prog.customs, StaysOnRoute f) (k : Nat) (file : FileId) : ∀ (l : Lit) (c c' : List Field) (route route' : Route),
    analyseLit E k file l c route = some (c', .ok route') → SameIdentity route' route
  | .mk line f inner, c, c', route, route', h => by
    simp only [analyseLit] at h
    split at h
    · exact analyse_identity E hP k file f c c' route route' h
    · exact analyseLits_identity E hP k file inner c c' route route' h
theorem analyseLits_identity (E : RouteEnv) (hP : ∀ f ∈ E.prog.customs, StaysOnRoute f) (k : Nat) (file : FileId) : ∀ (ls : List Lit) (c c' : List Field) (route route' : Route),
    analyseLits E k file ls c route = some (c', .ok route') → SameIdentity route' route
  | [], c, c', route, route', h => by simp only [analyseLits] at h; cases h; exact .refl _
  | l :: ls, c, c', route, route', h => by
    simp only [analyseLits] at h
    cases hc : analyseLit E k file l c route with
    | none => rw [hc] at h; cases h
    | some x =>
      obtain ⟨c1, r1⟩ := x
      rw [hc] at h
      match r1, hc, h with
      | .ok r, hc, h =>
        exact (analyseLits_identity E hP k file ls c1 c' r route' h).trans (analyseLit_identity E hP k file l c c1 route r hc)
end

theorem analyseDecls_identity (E : RouteEnv) (hP : ∀ f ∈ E.prog.customs, StaysOnRoute f) (k : Nat) (file : FileId) (funcName : Str) :
    ∀ (ds : List FuncDecl) (c c' : List Field) (route route' : Route),
      analyseDecls E k file funcName ds c route = some (c', .ok route') → SameIdentity route' route := by
  intro ds
  induction ds with
  | nil => intro c c' route route' h; simp only [analyseDecls] at h; cases h; exact .refl _
  | cons d ds ih =>
    intro c c' route route' h
    simp only [analyseDecls] at h
    cases hc : analyseDecl E k file funcName d c route with
    | none => rw [hc] at h; cases h
    | some x =>
      obtain ⟨c1, r1⟩ := x
      rw [hc] at h
      match r1, hc, h with
      | .ok r, hc, h =>
        refine (ih c1 c' r route' h).trans ?_
        simp only [analyseDecl] at hc
        split at hc
        · split at hc
          · exact analyseLits_identity E hP k file _ _ _ _ _ hc
          · exact (analyse_identity E hP k file _ _ _ _ _ hc).trans ⟨rfl, rfl, rfl, rfl, rfl⟩
        · cases hc; exact .refl _

theorem parseRoute_identity (E : RouteEnv) (hP : ∀ f ∈ E.prog.customs, StaysOnRoute f) (k : Nat) (c c' : List Field) (route route' : Route)
    (h : parseRoute E k c route = some (c', .ok route')) : SameIdentity route' route := by
  simp only [parseRoute] at h
  cases hp : (splitHandlerPath route.handler).packageName with
  | panic m => rw [hp] at h; cases h
  | err e => rw [hp] at h; cases h
  | ok p =>
    rw [hp] at h
    simp only at h
    split at h
    · cases h
    · cases hf : (splitHandlerPath route.handler).funcName with
      | panic m => rw [hf] at h; cases h
      | err e => rw [hf] at h; cases h
      | ok fn =>
        rw [hf] at h
        simp only at h
        split at h
        · cases h
        · cases hfile : E.fileOf (splitHandlerPath route.handler).packagePath route.file with
          | none => rw [hfile] at h; cases h
          | some file =>
            rw [hfile] at h
            exact (analyseDecls_identity E hP k file fn _ _ _ _ _ h).trans ⟨rfl, rfl, rfl, rfl, rfl⟩

/-- The result of the analysis of one route alone. -/
def OwnAnalysis (E : RouteEnv) (k : Nat) (route route' : Route) : Prop := ∃ c, parseRoute E k [] route = some (c, .ok route')

/-- A route, analysed on its own a number of times, with these names of the main package. -/
inductive OwnAnalyses (E : Str → RouteEnv) : List Str → Route → Route → Prop
  | none (r : Route) : OwnAnalyses E [] r r
  | again {main : Str} {mains : List Str} {k : Nat} {r r1 r2 : Route} : OwnAnalysis (E main) k r r1 → OwnAnalyses E mains r1 r2 →
    OwnAnalyses E (main :: mains) r r2

theorem parseRoutesFrom_each (E : RouteEnv) (hP : ∀ f ∈ E.prog.customs, StaysOnRoute f) (k : Nat) : ∀ (rest rest' done : List Route) (comps : List Field),
    rest'.length = rest.length →
    (∀ (i : Nat) r r', rest[i]? = some r → rest'[i]? = some r' → OwnAnalysis E k r r') →
    ((done ++ rest).map (fun r => (r.path, r.method))).Nodup →
    ∃ comps', parseRoutesFrom E k rest.length done.length comps (done ++ rest) = some ((comps', done ++ rest'), .ok ()) := by
  intro rest
  induction rest with
  | nil =>
    intro rest' done comps hl _ _
    cases rest' with
    | nil => exact ⟨comps, rfl⟩
    | cons _ _ => cases hl
  | cons r rest ih =>
    intro rest' done comps hl hown hnd
    cases rest' with
    | nil => cases hl
    | cons r' rest' =>
      obtain ⟨c, hr⟩ := hown 0 r r' rfl rfl
      have hind := parseRoute_indep E hP k [] comps r
      rw [hr] at hind
      obtain ⟨c1, hr1⟩ := outcome_some (o := parseRoute E k comps r) (b := .ok r') hind.symm
      have hid := parseRoute_identity E hP k comps c1 r r' hr1
      have hk : SameKey r r' := ⟨hid.2.2.2.1.symm, hid.2.2.2.2.symm⟩
      have hpre : ∀ x ∈ done, ¬ SameKey x r' := by
        intro x hx hsame
        rw [List.map_append, List.nodup_append] at hnd
        refine hnd.2.2 (x.path, x.method) (List.mem_map.2 ⟨x, hx, rfl⟩) (r.path, r.method) (by simp) ?_
        have h1 : x.path = r.path := hsame.1.trans hk.1.symm
        have h2 : x.method = r.method := hsame.2.trans hk.2.symm
        rw [h1, h2]
      have hrep : replaceRoute (done ++ r :: rest) r' = (done ++ [r']) ++ rest := by
        rw [replaceRoute_first done rest r r' hk hpre]; simp
      obtain ⟨c2, h2⟩ := ih rest' (done ++ [r']) c1 (by simpa using hl)
        (fun i a b ha hb => hown (i + 1) a b (by simpa using ha) (by simpa using hb))
        (by
          have he : ((done ++ [r']) ++ rest).map (fun r => (r.path, r.method)) = (done ++ r :: rest).map (fun r => (r.path, r.method)) := by
            simp [hk.1, hk.2]
          rw [he]; exact hnd)
      refine ⟨c2, ?_⟩
      have hget : (done ++ r :: rest)[done.length]? = some r := by simp
      simp only [List.length_cons, parseRoutesFrom, hget, hr1, hrep]
      have hlen : done.length + 1 = (done ++ [r']).length := by simp
      rw [hlen, h2]
      simp

/-- C16: if the routes differ in path or method and each one, alone, can be located and does not panic, the run goes through
all of them and every route gets the result of its own analysis, whether or not the analyses of the others met errors.
Missing: a handler that cannot be located, or whose analysis panics, ends the run, see below. Custom functions must
not depend on the components and must stay on the route. -/
theorem routes_analysed_separately_partial (E : RouteEnv) (hP : ∀ f ∈ E.prog.customs, StaysOnRoute f) (k : Nat) (routes out : List Route)
    (hnd : (routes.map (fun r => (r.path, r.method))).Nodup) (hl : out.length = routes.length)
    (h : ∀ (i : Nat) r r', routes[i]? = some r → out[i]? = some r' → OwnAnalysis E k r r') (comps : List Field) :
    ∃ comps', parseRoutes E k comps routes = some ((comps', out), .ok ()) := by
  have := parseRoutesFrom_each E hP k routes out [] comps hl h (by simpa using hnd)
  simpa [parseRoutes] using this

/-- The handlers of the demo program: one that is analysed, one without response (an error), one that panics. -/
def demoRoutes : RouteEnv where
  prog := demo
  loadable p := p = c!"example.com/shop"
  fileOf _ f := if f = c!"shop.go" then some 0 else none
  decls _ := [⟨c!"Get", 10, 0, []⟩, ⟨c!"Empty", 20, 6, []⟩, ⟨c!"Broken", 30, 2, []⟩]
  lowerCamel s := s

def getRoute : Route := { handler := c!"example.com/shop.Get", file := c!"shop.go", lineNo := 10, path := c!"/a", method := c!"GET" }
def emptyRoute : Route := { handler := c!"example.com/shop.Empty", file := c!"shop.go", lineNo := 20, path := c!"/b", method := c!"GET" }
def brokenRoute : Route := { handler := c!"example.com/shop.Broken", file := c!"shop.go", lineNo := 30, path := c!"/c", method := c!"GET" }
def lostRoute : Route := { handler := c!"example.com/lost.Get", file := c!"shop.go", lineNo := 10, path := c!"/d", method := c!"GET" }

/-- A handler whose analysis fails with an error keeps its route and does not disturb the next one. -/
example : (parseRoutes demoRoutes 2 [] [emptyRoute, getRoute]).map (fun x => (x.1.2.map (fun r => (r.queryParams.map (·.name), r.returnTypes.map (·.statusCode))), x.2.isOk)) =
    some ([([], []), ([c!"id"], [200])], true) := by decide +kernel
example : ∃ out : List Route, out.length = [emptyRoute, getRoute].length ∧
    ∀ (i : Nat) r r', [emptyRoute, getRoute][i]? = some r → out[i]? = some r' → OwnAnalysis demoRoutes 2 r r' := by
  cases h1 : parseRoute demoRoutes 2 [] emptyRoute with
  | none => exact absurd (congrArg Option.isSome h1) (by decide +kernel)
  | some x =>
    cases h2 : parseRoute demoRoutes 2 [] getRoute with
    | none => exact absurd (congrArg Option.isSome h2) (by decide +kernel)
    | some y =>
      obtain ⟨c1, r1⟩ := x
      obtain ⟨c2, r2⟩ := y
      have e1 : (parseRoute demoRoutes 2 [] emptyRoute).map (·.2.isOk) = some true := by decide +kernel
      have e2 : (parseRoute demoRoutes 2 [] getRoute).map (·.2.isOk) = some true := by decide +kernel
      rw [h1] at e1
      rw [h2] at e2
      match r1, r2, e1, e2 with
      | .ok a, .ok b, _, _ =>
        refine ⟨[a, b], rfl, ?_⟩
        intro i r r' hr hr'
        match i with
        | 0 => cases hr; cases hr'; exact ⟨c1, h1⟩
        | 1 => cases hr; cases hr'; exact ⟨c2, h2⟩
        | i + 2 => simp at hr

/-- C16 is false for panics: a handler whose analysis panics ends the run and the following routes are not analysed. -/
theorem panicking_handler_ends_run :
    (parseRoutes demoRoutes 2 [] [brokenRoute, getRoute]).map (·.2.isPanic) = some true := by decide +kernel

/-- C16 is false for handlers that cannot be located: the error is returned and the following routes are not analysed. -/
theorem lost_handler_ends_run :
    (parseRoutes demoRoutes 2 [] [lostRoute, getRoute]).map (fun x => (x.1.2.map (fun r => r.returnTypes.map (·.statusCode)), x.2)) =
      some ([[], []], .err c!"failed to get package") := by decide +kernel

example : Locatable demoRoutes emptyRoute := by
  refine ⟨⟨c!"shop", ?_⟩, ?_, ⟨c!"Empty", ?_⟩, ?_, ⟨0, ?_⟩⟩ <;> decide +kernel

/-! A handler whose helper cannot be analysed: `helper(c, c.Query("id"))` (call 6), where the parameter of the helper has another
type, then `c.JSON(200, …)` (call 2). -/

def strayCall (id : Nat) : CallView :=
  if id = 6 then { args := [{ ident := some c!"c" }, {}], target := .ok 6 } else demoCall id

def strayFunc (f : FuncId) : FuncInfo :=
  if f = 7 then { params := fun _ => ctxParams, body := [.call 6 [.other [], .call 0 []], .call 2 []] } else demoFunc f

def stray : RouteEnv := { demoRoutes with
  prog := { demo with funcs := strayFunc, view := fun _ => strayCall }
  decls := fun _ => [⟨c!"Stray", 40, 7, []⟩] }

def strayRoute : Route := { handler := c!"example.com/shop.Stray", file := c!"shop.go", lineNo := 40, path := c!"/e", method := c!"GET" }

/-- C14: the analysis goes on behind a helper call that it cannot follow, but what stands among the
arguments of that call is left out, here the query parameter. -/
theorem failing_helper_hides_arguments :
    (parseRoutes stray 3 [] [strayRoute]).map (fun x => (x.1.2.map (fun r => (r.queryParams.map (·.name), r.returnTypes.map (·.statusCode))), x.2)) =
      some ([([], [200])], .ok ()) := by decide +kernel

end Astra.Props
