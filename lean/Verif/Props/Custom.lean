/-
C88 (custom functions). The theorem about precedence, `custom_functions_take_precedence_partial`, is in Props/Handler.
-/
import Verif.Props.RouteAnalysis
import Verif.Props.Options

namespace Astra.Props
open Astra.Spec

/-- C88: the order in which the custom functions are registered decides: if the first that recognises a call comes before another one,
the other one is not asked. -/
theorem first_custom_function_decides (P : Prog) (ctx : Str) (call : CallView) (e : Route → Route) (h : FirstTakes P ctx call e)
    (later : List CustomFunc) : FirstTakes { P with customs := P.customs ++ later } ctx call e := by
  obtain ⟨before, f, after, h1, h2, h3⟩ := h
  exact ⟨before, f, after ++ later, by simp [h1], h2, h3⟩

/-- The custom function that an option registers. -/
def addsCustom : Opt → Option CustomFunc
  | .customFunc f => some f
  | _ => none

/-- C88: options register custom functions in the order in which they are given. -/
theorem custom_functions_in_option_order (opts : List Opt) : (newService opts).customFuncs = opts.filterMap addsCustom := by
  have := fold_list (·.customFuncs) addsCustom id (fun o s => by
    cases o <;> simp [Opt.apply, addsCustom, withGinInput, withAzureOutput, withOpenApiOutput, withJsonOutput]) rfl opts
  simpa using this

/-! ### The traversal, split at a call -/

theorem inspectNodes_append (P : Prog) (k : Nat) (rec : HRec) (ctx : Str) (file : FileId) (a b : List Node) (st : HState) (loc : Local) :
    inspectNodes P k rec ctx file (a ++ b) st loc =
      match inspectNodes P k rec ctx file a st loc with
      | none => none
      | some (st', .err e) => some (st', .err e)
      | some (st', .panic m) => some (st', .panic m)
      | some (st', .ok loc') => inspectNodes P k rec ctx file b st' loc' := by
  induction a generalizing st loc with
  | nil => rfl
  | cons n a ih =>
    simp only [List.cons_append, inspectNodes]
    cases hn : inspectNode P k rec ctx file n st loc with
    | none => rfl
    | some x =>
      obtain ⟨s, r⟩ := x
      cases r with
      | err e => rfl
      | panic m => rfl
      | ok l => exact ih s l

/-- An error of an earlier node does not matter at a call. -/
theorem callStep_err (P : Prog) (k : Nat) (rec : HRec) (ctx : Str) (file : FileId) (id : Nat) (st : HState) (loc : Local) (x : Option Str) :
    callStep P k rec ctx file id st { loc with err := x } = callStep P k rec ctx file id st loc := by
  obtain ⟨b, e, s⟩ := loc
  simp only [callStep, Local.given, contextCall]

theorem inspectNode_err (P : Prog) (k : Nat) (rec : HRec) (ctx : Str) (file : FileId) (n : Node) (st : HState) (loc : Local) (x : Option Str) :
    inspectNode P k rec ctx file n st { loc with err := x } = inspectNode P k rec ctx file n st loc := by
  cases n with
  | call id children => simp only [inspectNode, callStep_err]
  | other children => simp only [inspectNode]

/-- The first registered custom function that does not leave the call alone returns the error `e`, without having changed the route. -/
def FirstFails (P : Prog) (ctx : Str) (call : CallView) (e : Str) : Prop :=
  ∃ before f after, P.customs = before ++ f :: after ∧ (∀ g ∈ before, Leaves g ctx call) ∧
    ∀ r comps, ∃ ops comps', comps <+: comps' ∧ f ctx call (some r) [] comps = ⟨r, ops, comps', .err e⟩

theorem callStep_fails {P : Prog} {ctx : Str} {file : FileId} {id : Nat} {e : Str} (h : FirstFails P ctx (P.view file id) e)
    (k : Nat) (rec : HRec) (st : HState) (hst : st.active = file) (err : Option Str) :
    ∃ comps, st.components <+: comps ∧
      callStep P k rec ctx file id st { err := err } = some ({ route := st.route, components := comps, active := file }, .ok ({ err := some e }, false)) := by
  obtain ⟨before, f, after, h1, h2, h3⟩ := h
  obtain ⟨ops, comps, hp, h4⟩ := h3 st.route st.components
  refine ⟨comps, hp, ?_⟩
  have hrun : runCustoms ctx (P.view file id) false P.customs [] st = ({ st with components := comps }, ops, .err e) := by
    rw [h1, runCustoms_leave h2]
    simp only [runCustoms, Bool.false_eq_true, if_false, h4]
  subst hst
  simp only [callStep, hrun]

/-- C88, what errors do: if a custom function returns an error at a call that is not the last node of the handler, the error is lost, and
the call and its arguments contribute nothing; everything else is documented as usual. -/
theorem custom_error_lost (P : Prog) (f : FuncId) (file : FileId) (ctx : Str) (pre post : List Node) (n : Node) (id : Nat) (children : List Node)
    (e : Str) (es es' : List (Route → Route)) (b : Bool) (hctx : ContextParam P f file ctx) (hbody : (P.funcs f).body = pre ++ .call id children :: n :: post)
    (hpre : Changes P file ctx pre es) (hfail : FirstFails P ctx (P.view file id) e) (hpost : ChangesTo P file ctx true (n :: post) es' b)
    (comps : List Field) (route : Route) :
    ∃ comps' out res, comps <+: comps' ∧ out = (es ++ es').foldl (fun r e => e r) { route with doc := docOf P f route.doc } ∧
      Reported b out res ∧ Ends P comps route f file ({ route := out, components := comps', active := file }, res) := by
  obtain ⟨b1, hpre⟩ := hpre
  obtain ⟨k1, h1⟩ := changes_inspect P hpre
  obtain ⟨k2, h2⟩ := changes_inspect P hpost
  let k := max k1 k2
  obtain ⟨c1, x1, p1, _, e1⟩ := h1 k (Nat.le_max_left _ _) { route := { route with doc := docOf P f route.doc }, components := comps, active := file } none rfl (by simp)
  obtain ⟨c2, p2, e2⟩ := callStep_fails hfail k (parseHelper P k)
    { route := es.foldl (fun r e => e r) { route with doc := docOf P f route.doc }, components := c1, active := file } rfl x1
  obtain ⟨c3, x3, p3, hb, e3⟩ := h2 k (Nat.le_max_right _ _)
    { route := es.foldl (fun r e => e r) { route with doc := docOf P f route.doc }, components := c2, active := file } none rfl (by simp)
  have hrest : inspectNodes P k (parseHelper P k) ctx file (.call id children :: n :: post)
      { route := es.foldl (fun r e => e r) { route with doc := docOf P f route.doc }, components := c1, active := file } { err := x1 } =
      some ({ route := es'.foldl (fun r e => e r) (es.foldl (fun r e => e r) { route with doc := docOf P f route.doc }), components := c3, active := file }, .ok { err := x3 }) := by
    rw [inspectNodes, inspectNode, e2]
    rw [← e3]
    simp only [inspectNodes]
    rw [show ({ err := some e } : Local) = { ({} : Local) with err := some e } from rfl, inspectNode_err]
  have hne := hctx.1
  have hn := (context_parameter_found P _ _ _ hne).2 hctx
  cases ctx with
  | nil => exact absurd rfl hne
  | cons ch ctx =>
    cases x3 with
    | some m =>
      have hb : b = false := by cases b with | false => rfl | true => cases hb.1 rfl
      subst hb
      refine ⟨c3, _, .err m, p1.trans (p2.trans p3), rfl, ⟨m, rfl⟩, k, ?_⟩
      simp only [parseFunction, parseFunctionWith, hn, true_and, route_with_doc, inspectNode, hbody]
      rw [inspectNodes_append, e1]
      simp only [hrest]
      simp only [Local.given, Option.getD_none, List.foldl_append]
    | none =>
      cases hb.2 rfl
      refine ⟨c3, _, _, p1.trans (p2.trans p3), rfl, rfl, k, ?_⟩
      simp only [parseFunction, parseFunctionWith, hn, true_and, route_with_doc, inspectNode, hbody]
      rw [inspectNodes_append, e1]
      simp only [hrest]
      simp only [Local.given, Option.getD_none, Bool.false_eq_true, if_false, and_true, List.foldl_append]
      split <;> rfl

/-- C88: an error of a custom function at the last node of the handler is the outcome of the analysis. -/
theorem custom_error_reported (P : Prog) (f : FuncId) (file : FileId) (ctx : Str) (pre : List Node) (id : Nat) (children : List Node)
    (e : Str) (es : List (Route → Route)) (hctx : ContextParam P f file ctx) (hbody : (P.funcs f).body = pre ++ [.call id children])
    (hpre : Changes P file ctx pre es) (hfail : FirstFails P ctx (P.view file id) e) (comps : List Field) (route : Route) :
    ∃ comps' out, comps <+: comps' ∧ out = es.foldl (fun r e => e r) { route with doc := docOf P f route.doc } ∧
      Ends P comps route f file ({ route := out, components := comps', active := file }, .err e) := by
  obtain ⟨b1, hpre⟩ := hpre
  obtain ⟨k, h1⟩ := changes_inspect P hpre
  obtain ⟨c1, x1, p1, _, e1⟩ := h1 k (Nat.le_refl _) { route := { route with doc := docOf P f route.doc }, components := comps, active := file } none rfl (by simp)
  obtain ⟨c2, p2, e2⟩ := callStep_fails hfail k (parseHelper P k)
    { route := es.foldl (fun r e => e r) { route with doc := docOf P f route.doc }, components := c1, active := file } rfl x1
  refine ⟨c2, _, p1.trans p2, rfl, k, ?_⟩
  have hne := hctx.1
  have hn := (context_parameter_found P _ _ _ hne).2 hctx
  cases ctx with
  | nil => exact absurd rfl hne
  | cons ch ctx =>
    simp only [parseFunction, parseFunctionWith, hn, true_and, route_with_doc, inspectNode, hbody]
    rw [inspectNodes_append, e1]
    simp only [inspectNodes, inspectNode, e2, Local.given, Option.getD_none]

/-! ### A route of its own -/

theorem callStep_saved (P : Prog) (k : Nat) (rec : HRec) (ctx : Str) (file : FileId) (id : Nat) (st st' : HState) (loc loc' : Local) (b : Bool) (r : Route)
    (hs : loc.saved = some r) (h : callStep P k rec ctx file id st loc = some (st', .ok (loc', b))) : loc'.saved = some r := by
  simp only [callStep] at h
  generalize runCustoms ctx (P.view st.active id) loc.nilRoute P.customs [] st = o at *
  obtain ⟨s1, ops, x⟩ := o
  match x, h with
  | .err e, h => cases h; exact hs
  | .panic e, h => cases h
  | .ok .given, h => cases h; exact hs
  | .ok (.fresh r'), h => cases h; simp [Local.given, hs]
  | .ok .nil, h =>
    simp only at h
    split at h
    · split at h
      · cases h; exact hs
      · cases h
      · split at h
        · cases h
        · cases h; exact hs
        · cases h
        · cases h; exact hs
    · split at h
      · cases h; exact hs
      · cases h
      · cases h; exact hs
      · exact (contextCall_identity P k _ _ _ _ _ _ _ _ _ h).2.trans hs

mutual
theorem inspectNode_saved (P : Prog) (k : Nat) (rec : HRec) (ctx : Str) (file : FileId) (r : Route) :
    ∀ (n : Node) (st st' : HState) (loc loc' : Local), loc.saved = some r → inspectNode P k rec ctx file n st loc = some (st', .ok loc') →
      loc'.saved = some r
  | .other children, st, st', loc, loc', hs, h => by
    simp only [inspectNode] at h
    exact inspectNodes_saved P k rec ctx file r children st st' { loc with err := none } loc' hs h
  | .call id children, st, st', loc, loc', hs, h => by
    simp only [inspectNode] at h
    cases hc : callStep P k rec ctx file id st loc with
    | none => rw [hc] at h; cases h
    | some x =>
      obtain ⟨s1, r1⟩ := x
      rw [hc] at h
      match r1, hc, h with
      | .ok (l, false), hc, h => cases h; exact callStep_saved P k rec ctx file id st _ loc _ _ r hs hc
      | .ok (l, true), hc, h =>
        exact inspectNodes_saved P k rec ctx file r children s1 st' l loc' (callStep_saved P k rec ctx file id st s1 loc l true r hs hc) h
theorem inspectNodes_saved (P : Prog) (k : Nat) (rec : HRec) (ctx : Str) (file : FileId) (r : Route) :
    ∀ (ns : List Node) (st st' : HState) (loc loc' : Local), loc.saved = some r → inspectNodes P k rec ctx file ns st loc = some (st', .ok loc') →
      loc'.saved = some r
  | [], st, st', loc, loc', hs, h => by simp only [inspectNodes] at h; cases h; exact hs
  | n :: ns, st, st', loc, loc', hs, h => by
    simp only [inspectNodes] at h
    cases hc : inspectNode P k rec ctx file n st loc with
    | none => rw [hc] at h; cases h
    | some x =>
      obtain ⟨s1, r1⟩ := x
      rw [hc] at h
      match r1, hc, h with
      | .ok l, hc, h =>
        exact inspectNodes_saved P k rec ctx file r ns s1 st' l loc' (inspectNode_saved P k rec ctx file r n st s1 loc l hs hc) h
end

/-- The first registered custom function that does not leave the call alone returns a route of its own, not the one of the builder. -/
def FirstReturnsOwn (P : Prog) (ctx : Str) (call : CallView) (own : Route → Route) : Prop :=
  ∃ before f after, P.customs = before ++ f :: after ∧ (∀ g ∈ before, Leaves g ctx call) ∧
    ∀ r comps, ∃ ops comps', f ctx call (some r) [] comps = ⟨r, ops, comps', .ok (.fresh (own r))⟩

theorem callStep_own {P : Prog} {ctx : Str} {file : FileId} {id : Nat} {own : Route → Route} (h : FirstReturnsOwn P ctx (P.view file id) own)
    (k : Nat) (rec : HRec) (st : HState) (hst : st.active = file) (err : Option Str) :
    ∃ comps, callStep P k rec ctx file id st { err := err } =
      some ({ route := own st.route, components := comps, active := file }, .ok ({ saved := some st.route }, true)) := by
  obtain ⟨before, f, after, h1, h2, h3⟩ := h
  obtain ⟨ops, comps, h4⟩ := h3 st.route st.components
  refine ⟨comps, ?_⟩
  have hrun : runCustoms ctx (P.view file id) false P.customs [] st = ({ st with components := comps }, ops, .ok (.fresh (own st.route))) := by
    rw [h1, runCustoms_leave h2]
    simp only [runCustoms, Bool.false_eq_true, if_false, h4]
  subst hst
  simp only [callStep, hrun, Local.given, Option.getD_none]

/-- C88, what is lost: once a custom function has returned a route of its own, nothing of what the rest of the handler does reaches the
route that is documented, whatever the rest is: not that route, not later contributions of custom functions, not later calls of the
context. -/
theorem returned_route_lost (P : Prog) (f : FuncId) (file : FileId) (ctx : Str) (pre post : List Node) (id : Nat) (children : List Node)
    (own : Route → Route) (es : List (Route → Route)) (hctx : ContextParam P f file ctx) (hbody : (P.funcs f).body = pre ++ .call id children :: post)
    (hpre : Changes P file ctx pre es) (hown : FirstReturnsOwn P ctx (P.view file id) own)
    (comps : List Field) (route : Route) (st : HState) (res : Res Unit) (h : Ends P comps route f file (st, res)) (hp : ∀ m, res ≠ .panic m) :
    st.route = es.foldl (fun r e => e r) { route with doc := docOf P f route.doc } := by
  obtain ⟨b1, hpre⟩ := hpre
  obtain ⟨k1, h1⟩ := changes_inspect P hpre
  obtain ⟨k0, h0⟩ := h
  have h0 := parseFunction_le P (Nat.le_max_left k0 k1) _ _ _ _ _ h0
  generalize hk : max k0 k1 = k at h0
  have hk1 : k1 ≤ k := hk ▸ Nat.le_max_right _ _
  obtain ⟨c1, x1, _, _, e1⟩ := h1 k hk1 { route := { route with doc := docOf P f route.doc }, components := comps, active := file } none rfl (by simp)
  obtain ⟨c2, e2⟩ := callStep_own hown k (parseHelper P k)
    { route := es.foldl (fun r e => e r) { route with doc := docOf P f route.doc }, components := c1, active := file } rfl x1
  have hne := hctx.1
  have hn := (context_parameter_found P _ _ _ hne).2 hctx
  cases ctx with
  | nil => exact absurd rfl hne
  | cons ch ctx =>
    simp only [parseFunction, parseFunctionWith, hn, true_and, route_with_doc, inspectNode, hbody] at h0
    rw [inspectNodes_append, e1] at h0
    simp only [inspectNodes, inspectNode, e2] at h0
    generalize hr : (es.foldl (fun r e => e r) { route with doc := docOf P f route.doc }) = R at *
    have fin : ∀ (o : HOut Local), (∀ s l, o = some (s, .ok l) → l.saved = some R) → (∀ s m, o ≠ some (s, .err m)) →
        (match o with
          | none => none
          | some (st', .err e) => some (st', .err e)
          | some (st', .panic m) => some (st', .panic m)
          | some (st', .ok loc) =>
            match loc.err with
            | some e => some ({ st' with route := loc.given st'.route }, .err e)
            | none =>
              if loc.nilRoute then some ({ st' with route := loc.given st'.route }, .panic c!"nil pointer dereference")
              else if st'.route.returnTypes = [] ∧ True then some ({ st' with route := loc.given st'.route }, .err c!"return type not found")
              else some ({ st' with route := loc.given st'.route }, .ok ())) = some (st, res) → st.route = R := by
      intro o ho ho' h
      match o, ho, ho', h with
      | some (s, .err m), _, ho', _ => exact absurd rfl (ho' s m)
      | some (s, .panic m), _, _, h => cases h; exact absurd rfl (hp m)
      | some (s, .ok l), ho, _, h =>
        have hs := ho s l rfl
        have hg : l.given s.route = R := by simp [Local.given, hs]
        simp only [hg] at h
        split at h
        · cases h; rfl
        · split at h
          · cases h; rfl
          · split at h <;> (cases h; rfl)
    refine fin _ ?_ ?_ h0
    · intro s l h
      have h := (inspectNodes_append P k _ _ file children post _ _).trans h
      exact inspectNodes_saved P k _ _ file R _ _ _ { saved := some R } l rfl h
    · intro s m h
      have h := (inspectNodes_append P k _ _ file children post _ _).trans h
      exact inspectNodes_not_err P k _ _ file _ _ _ _ m h

/-! ### Custom functions written with the builder -/

/-- A custom function as in examples/with-custom-functions/main.go:29-87: calls of the function `name` are read with the steps of the
builder, others are left alone, and the error of `Traverser.Type` is passed on. -/
def builderFunc (Γ : TypeEnv) (fuel : Nat) (pkg name : Str) (steps : List Op) (mapper : Mapper) : CustomFunc := fun _ call route ops comps =>
  match call.func with
  | .err e => ⟨route.getD {}, ops, comps, .err e⟩
  | .panic m => ⟨route.getD {}, ops, comps, .panic m⟩
  | .ok (_, n) =>
    if n = name then
      match build Γ fuel pkg call.args (ops.chain steps) mapper route comps with
      | none => ⟨route.getD {}, ops.chain steps, comps, .err c!"too deep"⟩
      | some (comps', .ok r) => ⟨r, ops.chain steps, comps', .ok .given⟩
      | some (comps', .err e) => ⟨route.getD {}, ops.chain steps, comps', .err e⟩
      | some (comps', .panic m) => ⟨route.getD {}, ops.chain steps, comps', .panic m⟩
    else ⟨route.getD {}, ops, comps, .ok .nil⟩

/-- C88: such a function recognises the calls of `name` in which every step finds its value, and changes the route as its mapper says. -/
theorem builder_func_takes (Γ : TypeEnv) (pkg name ctx : Str) (steps : List Op) (mapper : Mapper) (call : CallView) (isCtx : Bool)
    (hname : call.func = .ok (isCtx, name)) (vs : List ParamVal) (hl : vs.length = steps.length)
    (hv : ∀ (n : Nat) op v, steps[n]? = some op → vs[n]? = some v → StepValue Γ pkg op call.args[n]? v) (g : Route → Route) (hg : mapper vs = some g) :
    ∃ k0, ∀ k, k0 ≤ k → Takes (builderFunc Γ k pkg name steps mapper) ctx call g := by
  obtain ⟨k0, hk⟩ := build_complete steps vs hl hv
  refine ⟨k0, fun k hkk r comps => ?_⟩
  obtain ⟨st', hp, hb⟩ := hk k hkk mapper r comps
  refine ⟨Builder.chain [] steps, st', hp, ?_⟩
  unfold builderFunc
  simp only [hname, if_true, hb, hg]

/-- C88: such a function leaves the calls of other functions alone. -/
theorem builder_func_leaves (Γ : TypeEnv) (k : Nat) (pkg name ctx : Str) (steps : List Op) (mapper : Mapper) (call : CallView) (isCtx : Bool) (n : Str)
    (hname : call.func = .ok (isCtx, n)) (hn : n ≠ name) : Leaves (builderFunc Γ k pkg name steps mapper) ctx call := by
  intro r comps
  simp [builderFunc, hname, hn]

/-- C88: if its mapper keeps handler, file, line, path and method of the route, such a function stays on the route. -/
theorem builder_func_stays (Γ : TypeEnv) (k : Nat) (pkg name : Str) (steps : List Op) (mapper : Mapper) (hm : KeepsPlace mapper) :
    StaysOnRoute (builderFunc Γ k pkg name steps mapper) := by
  refine ⟨?_, ?_⟩
  · intro ctx call r ops c1 c2
    unfold builderFunc
    cases call.func with
    | err e => exact ⟨rfl, rfl, rfl⟩
    | panic m => exact ⟨rfl, rfl, rfl⟩
    | ok x =>
      simp only
      split
      · rcases outcome_cases (build_indep Γ k pkg call.args (ops.chain steps) mapper r c1 c2) with ⟨h1, h2⟩ | ⟨d1, d2, y, h1, h2⟩
        · rw [h1, h2]; exact ⟨rfl, rfl, rfl⟩
        · rw [h1, h2]; cases y <;> exact ⟨rfl, rfl, rfl⟩
      · exact ⟨rfl, rfl, rfl⟩
  · intro ctx call r ops comps
    unfold builderFunc
    cases call.func with
    | err e => exact .refl _
    | panic m => exact .refl _
    | ok x =>
      simp only
      split
      · cases hb : build Γ k pkg call.args (ops.chain steps) mapper (some r) comps with
        | none => exact .refl _
        | some y =>
          obtain ⟨c, z⟩ := y
          cases z with
          | err e => exact .refl _
          | panic m => exact .refl _
          | ok r' =>
            simp only
            unfold build at hb
            cases ho : runOps Γ k pkg call.args (ops.chain steps) comps with
            | none => rw [ho] at hb; cases hb
            | some w =>
              obtain ⟨c', v⟩ := w
              rw [ho] at hb
              cases v with
              | err e => cases hb
              | panic m => cases hb
              | ok vs =>
                simp only at hb
                cases hg : mapper vs with
                | none => rw [hg] at hb; cases hb
                | some g => rw [hg] at hb; cases hb; exact hm vs g hg r
      · exact .refl _

/-! ### Non-vacuity: examples/with-custom-functions -/

/-- The mapper of `handleError(c, statusCode, err)`, main.go:40-58. -/
def handleErrorMapper : Mapper := fun vs => match vs with
  | [_, .int code, _] => some (Entry.addTo { responses := [{ statusCode := code, contentType := c!"text/plain", field := { type := c!"string" } }] })
  | _ => none

theorem handleError_keeps : KeepsPlace handleErrorMapper := by
  intro vs g h r
  unfold handleErrorMapper at h
  split at h <;> cases h
  exact ⟨rfl, rfl, rfl, rfl, rfl⟩

def handleErrorFunc : CustomFunc := builderFunc shopEnv 1 c!"shop" c!"handleError" [.ignored, .statusCode, .expressionResult] handleErrorMapper

/-- A custom function that adds the response to a copy of the route and returns the copy. -/
def copyingFunc : CustomFunc := fun ctx call route ops comps =>
  match handleErrorFunc ctx call route ops comps, route with
  | ⟨r', ops', comps', .ok .given⟩, some r => ⟨r, ops', comps', .ok (.fresh r')⟩
  | o, _ => o

def customCall (id : Nat) : CallView :=
  match id with
  | 0 => { func := .ok (true, c!"Query"), args := [{ value := .ok c!"id", type := .ok (.basic .string c!"string") }] }
  | 1 => { func := .ok (false, c!"handleError"),
           args := [{ ident := some c!"c" }, { value := .ok c!"404", type := .ok (.basic .int c!"int") }, { type := .ok (.basic .string c!"string") }] }
  | 2 => { func := .ok (true, c!"JSON"), args := jsonArgs }
  | _ => { func := .err c!"no type" }

/-- The handler `func(c) { c.Query("id"); handleError(c, 404, msg); c.JSON(200, "x") }`, whose helper cannot be located; and one with a call
whose type is unknown in the middle, or at the end. -/
def customProg (fs : List CustomFunc) : Prog :=
  { types := shopEnv, filePkg := fun _ => c!"shop", view := fun _ => customCall, customs := fs
    funcs := fun f => { params := fun _ => ctxParams, body := match f with
      | 0 => [.call 0 [], .call 1 [], .call 2 []]
      | 1 => [.call 0 [], .call 3 [.call 0 []], .call 2 []]
      | _ => [.call 0 [], .call 3 [.call 0 []]] } }

theorem handleError_takes (fs : List CustomFunc) : FirstTakes (customProg (handleErrorFunc :: fs)) c!"c" (customCall 1)
    (Entry.addTo { responses := [{ statusCode := 404, contentType := c!"text/plain", field := { type := c!"string" } }] }) :=
  ⟨[], handleErrorFunc, fs, rfl, by simp, fun r comps => ⟨_, comps, List.prefix_refl _, rfl⟩⟩

theorem custom_leaves (id : Nat) (hid : id = 0 ∨ id = 2) : AllLeave (customProg [handleErrorFunc]) c!"c" (customCall id) := by
  intro f hf
  have : f = handleErrorFunc := by simpa [customProg] using hf
  subst this
  rcases hid with rfl | rfl <;> exact fun r comps => rfl

theorem custom_no_context (id : Nat) (hid : id = 0 ∨ id = 2) : ¬ PassesContext (customCall id) c!"c" := by
  rintro ⟨a, ha, hi⟩
  rcases hid with rfl | rfl
  · simp only [customCall, List.mem_singleton] at ha
    subst ha; cases hi
  · simp only [customCall, jsonArgs, List.mem_cons, List.not_mem_nil, or_false] at ha
    rcases ha with rfl | rfl <;> cases hi

theorem custom_query (fs : List CustomFunc) (h : AllLeave (customProg fs) c!"c" (customCall 0)) : ChangesTo (customProg fs) 0 c!"c" true [.call 0 []]
    [Entry.addTo { queryParams := [{ name := c!"id", field := { type := c!"string" } }] }] true :=
  .context (es := []) (es' := []) h (custom_no_context 0 (Or.inl rfl)) rfl (.query (by simp) ⟨_, rfl, rfl⟩) .nil .nil

theorem custom_json (fs : List CustomFunc) (h : AllLeave (customProg fs) c!"c" (customCall 2)) : ChangesTo (customProg fs) 0 c!"c" true [.call 2 []]
    [Entry.addTo { responses := [{ statusCode := 200, contentType := c!"application/json", field := { type := c!"string" } }] }] true :=
  .context (es := []) (es' := []) h (custom_no_context 2 (Or.inr rfl)) rfl demo_json .nil .nil

/-- The hypotheses of `custom_functions_take_precedence_partial` hold: query parameter, response of the custom function, response of `c.JSON`,
although the helper is not in the program. -/
example : ChangesTo (customProg [handleErrorFunc]) 0 c!"c" true ((customProg [handleErrorFunc]).funcs 0).body
    [Entry.addTo { queryParams := [{ name := c!"id", field := { type := c!"string" } }] },
     Entry.addTo { responses := [{ statusCode := 404, contentType := c!"text/plain", field := { type := c!"string" } }] },
     Entry.addTo { responses := [{ statusCode := 200, contentType := c!"application/json", field := { type := c!"string" } }] }] true :=
  .context (es := []) (custom_leaves 0 (Or.inl rfl)) (custom_no_context 0 (Or.inl rfl)) rfl (.query (by simp) ⟨_, rfl, rfl⟩) .nil
    (.custom (es := []) (handleError_takes []) .nil (custom_json _ (custom_leaves 2 (Or.inr rfl))))

theorem customProg_context (fs : List CustomFunc) (f : FuncId) : ContextParam (customProg fs) f 0 c!"c" :=
  (context_parameter_found (customProg fs) f 0 c!"c" (by decide)).1 rfl

example : (∃ k0, ∀ k, k0 ≤ k → Takes (builderFunc shopEnv k c!"shop" c!"handleError" [.ignored, .statusCode, .expressionResult] handleErrorMapper) c!"c" (customCall 1)
      (Entry.addTo { responses := [{ statusCode := 404, contentType := c!"text/plain", field := { type := c!"string" } }] })) ∧
    StaysOnRoute handleErrorFunc := by
  refine ⟨builder_func_takes shopEnv c!"shop" c!"handleError" c!"c" _ _ (customCall 1) false rfl [.nil, .int 404, .result { type := c!"string", package := some c!"shop" }] rfl ?_ _ rfl,
    builder_func_stays _ _ _ _ _ _ handleError_keeps⟩
  intro n op v hop hv
  match n with
  | 0 => cases hop; cases hv; exact .ignored _
  | 1 => cases hop; cases hv; exact .statusCode (a := (customCall 1).args[1]) (s := c!"404") rfl (by decide)
  | 2 => cases hop; cases hv; exact .expressionResult (a := (customCall 1).args[2]) (c := []) rfl ⟨0, rfl⟩
  | n + 3 => simp at hop

/-- Without a custom function the helper that cannot be located ends the analysis of the call; with it, it is not looked for. -/
example : (parseFunction (customProg []) 1 [] {} 0 0).map (fun x => x.1.route.returnTypes.map (·.statusCode)) = some [200] ∧
    (parseFunction (customProg [handleErrorFunc]) 1 [] {} 0 0).map (fun x => x.1.route.returnTypes.map (·.statusCode)) = some [404, 200] := by
  decide +kernel

/-- The hypotheses of `custom_error_lost` and of `custom_error_reported` hold for the example's way of passing on the error of
`Traverser.Type`. -/
theorem custom_error_demo (f : FuncId) : FirstFails (customProg [handleErrorFunc]) c!"c" ((customProg [handleErrorFunc]).view 0 3) c!"no type" ∧
    ChangesTo (customProg [handleErrorFunc]) 0 c!"c" true [.call 0 []] [Entry.addTo { queryParams := [{ name := c!"id", field := { type := c!"string" } }] }] true ∧
    ChangesTo (customProg [handleErrorFunc]) 0 c!"c" true [.call 2 []]
      [Entry.addTo { responses := [{ statusCode := 200, contentType := c!"application/json", field := { type := c!"string" } }] }] true ∧
    ContextParam (customProg [handleErrorFunc]) f 0 c!"c" :=
  ⟨⟨[], handleErrorFunc, [], rfl, by simp, fun r comps => ⟨_, comps, List.prefix_refl _, rfl⟩⟩, custom_query _ (custom_leaves 0 (Or.inl rfl)),
    custom_json _ (custom_leaves 2 (Or.inr rfl)), customProg_context _ f⟩

example : ((customProg [handleErrorFunc]).funcs 1).body = [.call 0 []] ++ .call 3 [.call 0 []] :: .call 2 [] :: [] ∧
    ((customProg [handleErrorFunc]).funcs 2).body = [.call 0 []] ++ [.call 3 [.call 0 []]] := ⟨rfl, rfl⟩

/-- C88, negation: an error of a custom function is not reported. -/
theorem not_custom_error_reported : ¬ ∀ (P : Prog) (f : FuncId) (file : FileId) (ctx : Str) (pre post : List Node) (id : Nat) (children : List Node) (e : Str)
    (comps : List Field) (route : Route) (st : HState) (res : Res Unit), ContextParam P f file ctx → (P.funcs f).body = pre ++ .call id children :: post →
    FirstFails P ctx (P.view file id) e → Ends P comps route f file (st, res) → res ≠ .ok () := by
  intro h
  obtain ⟨h1, h2, h3, h4⟩ := custom_error_demo 1
  obtain ⟨comps', out, res, _, hout, hrep, hends⟩ := custom_error_lost _ 1 0 c!"c" [.call 0 []] [] (.call 2 []) 3 [.call 0 []] _ _ _ true h4 rfl ⟨_, h2⟩ h1 h3 [] {}
  have hne : out.returnTypes ≠ [] := by rw [hout]; decide +kernel
  have hrep : res = .ok () := by
    have : res = if out.returnTypes = [] then .err c!"return type not found" else .ok () := hrep
    rwa [if_neg hne] at this
  subst hrep
  exact h _ 1 0 c!"c" [.call 0 []] [.call 2 []] 3 [.call 0 []] _ _ _ _ _ h4 rfl h1 hends rfl

theorem copying_own : FirstReturnsOwn (customProg [copyingFunc]) c!"c" ((customProg [copyingFunc]).view 0 1)
    (Entry.addTo { responses := [{ statusCode := 404, contentType := c!"text/plain", field := { type := c!"string" } }] }) :=
  ⟨[], copyingFunc, [], rfl, by simp, fun r comps => ⟨_, comps, rfl⟩⟩

/-- The hypotheses of `returned_route_lost` hold for a custom function that returns a changed copy; the analysis succeeds, and neither its
response nor that of `c.JSON` is in the route. -/
theorem copying_demo : ChangesTo (customProg [copyingFunc]) 0 c!"c" true [.call 0 []] [Entry.addTo { queryParams := [{ name := c!"id", field := { type := c!"string" } }] }] true ∧
    ((customProg [copyingFunc]).funcs 0).body = [.call 0 []] ++ .call 1 [] :: [.call 2 []] ∧
    (parseFunction (customProg [copyingFunc]) 1 [] {} 0 0).map (fun x => (x.1.route.queryParams.map (·.name), x.1.route.returnTypes.map (·.statusCode), x.2)) =
      some ([c!"id"], [], .ok ()) := by
  refine ⟨custom_query _ ?_, rfl, by decide +kernel⟩
  intro f hf
  have : f = copyingFunc := by simpa [customProg] using hf
  subst this
  exact fun r comps => rfl

/-- C88, negation: the route that a custom function returns is not the one that is documented (parseFunction.go:68 says "use that route
instead of the current route"). -/
theorem not_returned_route_used : ¬ ∀ (P : Prog) (f : FuncId) (file : FileId) (ctx : Str) (pre post : List Node) (id : Nat) (children : List Node)
    (own : Route → Route) (comps : List Field) (route : Route) (st : HState), ContextParam P f file ctx →
    (P.funcs f).body = pre ++ .call id children :: post → FirstReturnsOwn P ctx (P.view file id) own → Ends P comps route f file (st, .ok ()) →
    ∀ rt ∈ (own {}).returnTypes, rt ∈ st.route.returnTypes := by
  intro h
  obtain ⟨h1, h2, h3⟩ := copying_demo
  cases hp : parseFunction (customProg [copyingFunc]) 1 [] {} 0 0 with
  | none => rw [hp] at h3; cases h3
  | some x =>
    obtain ⟨st, res⟩ := x
    rw [hp] at h3
    simp only [Option.map_some, Option.some.injEq, Prod.mk.injEq] at h3
    obtain ⟨_, h4, h5⟩ := h3
    subst h5
    have := h _ 0 0 c!"c" _ _ 1 [] _ [] {} st (customProg_context _ 0) h2 copying_own ⟨1, hp⟩
      { statusCode := 404, contentType := c!"text/plain", field := { type := c!"string" } } (by decide +kernel)
    rw [List.map_eq_nil_iff] at h4
    rw [h4] at this
    cases this

end Astra.Props
