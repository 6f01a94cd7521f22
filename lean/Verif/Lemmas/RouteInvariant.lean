/-
A property of routes that every step of the analysis of a handler keeps, holds of the analysed route.
-/
import Verif.Props.EndToEnd

namespace Astra
open Astra.Spec

/-- The steps the analysis takes on a route keep `I`. -/
structure KeptByAnalysis (I : Route → Prop) : Prop where
  doc : ∀ r d, I r → I { r with doc := d }
  oid : ∀ r s, I r → I { r with operationId := s }
  params : ∀ r, I r → I { r with pathParams := extractParams r.path }
  mapper : ∀ name c vs g r, ctxCase name = some c → c.mapper vs = some g → I r → I (g r)

/-- A custom function keeps `I` of the route it is given. -/
def CustomKeeps (I : Route → Prop) (f : CustomFunc) : Prop := ∀ ctx view r ops comps, I r → I (f ctx view (some r) ops comps).route

variable {I : Route → Prop}

theorem given_kept {loc : Local} {a b : Route} (hab : I a → I b) : I (loc.given a) → I (loc.given b) := by
  unfold Local.given
  cases loc.saved with
  | none => exact hab
  | some r => exact id

theorem contextCall_kept (K : KeptByAnalysis I) (P : Prog) (k : Nat) (pkg : Str) (view : CallView) (ops : Builder) (m : Str) (st st' : HState) (loc loc' : Local)
    (b : Bool) (h : contextCall P k pkg view ops m st loc = some (st', .ok (loc', b))) : (I st.route → I st'.route) ∧ loc'.saved = loc.saved := by
  simp only [contextCall] at h
  cases hc : ctxCase m with
  | none => rw [hc] at h; cases h; exact ⟨id, rfl⟩
  | some c =>
    rw [hc] at h
    simp only at h
    generalize hb : build P.types k pkg view.args (ops.chain c.ops) c.mapper (if loc.nilRoute = true then none else some st.route) st.components = o at h
    match o, h with
    | some (comps, .err e), h => cases h; exact ⟨id, rfl⟩
    | some (comps, .ok r), h =>
      cases h
      refine ⟨?_, rfl⟩
      simp only [build] at hb
      cases ho : runOps P.types k pkg view.args (ops.chain c.ops) st.components with
      | none => rw [ho] at hb; cases hb
      | some x =>
        obtain ⟨d, y⟩ := x
        rw [ho] at hb
        cases y with
        | err e => cases hb
        | panic e => cases hb
        | ok vs =>
          simp only at hb
          cases hm : c.mapper vs with
          | none => rw [hm] at hb; cases hb
          | some g =>
            rw [hm] at hb
            cases hn : loc.nilRoute with
            | true => rw [hn] at hb; cases hb
            | false =>
              rw [hn] at hb
              cases hb
              exact K.mapper m c vs g st.route hc hm

theorem runCustoms_kept {fs : List CustomFunc} (hP : ∀ f ∈ fs, CustomKeeps I f) (ctx : Str) (view : CallView) (n : Bool) :
    ∀ (ops : Builder) (st : HState), I st.route → I (runCustoms ctx view n fs ops st).1.route := by
  induction fs with
  | nil => intro ops st h; exact h
  | cons f fs ih =>
    intro ops st h
    have ih := ih (fun g hg => hP g (List.mem_cons_of_mem _ hg))
    have hk : I (if n = true then st.route else (f ctx view (if n then none else some st.route) ops st.components).route) := by
      cases n with
      | true => exact h
      | false => exact hP f (by simp) ctx view st.route ops st.components h
    simp only [runCustoms]
    generalize f ctx view (if n then none else some st.route) ops st.components = o at *
    obtain ⟨r1, p1, c1, x1⟩ := o
    match x1 with
    | .err e => exact hk
    | .panic e => exact hk
    | .ok .nil => exact ih _ _ hk
    | .ok .given =>
      cases n with
      | true => exact ih _ _ hk
      | false => exact hk
    | .ok (.fresh r) => exact hk

theorem callStep_kept (K : KeptByAnalysis I) (P : Prog) (hP : ∀ f ∈ P.customs, CustomKeeps I f) (k : Nat) (rec : HRec)
    (hrec : ∀ st n f file st' r, rec st n f file = some (st', r) → (∀ m, r ≠ .panic m) → I st.route → I st'.route)
    (ctx : Str) (file : FileId) (id : Nat) (st st' : HState) (loc loc' : Local) (b : Bool)
    (h : callStep P k rec ctx file id st loc = some (st', .ok (loc', b))) : I (loc.given st.route) → I (loc'.given st'.route) := by
  have hc := runCustoms_kept hP ctx (P.view st.active id) loc.nilRoute [] st
  simp only [callStep] at h
  generalize runCustoms ctx (P.view st.active id) loc.nilRoute P.customs [] st = o at *
  obtain ⟨s1, ops, x⟩ := o
  have hc : I st.route → I s1.route := hc
  match x, h with
  | .err e, h => cases h; exact given_kept hc
  | .panic e, h => cases h
  | .ok .given, h => cases h; exact given_kept hc
  | .ok (.fresh r), h => cases h; exact given_kept hc
  | .ok .nil, h =>
    simp only at h
    split at h
    · cases ht : (P.view st.active id).target with
      | err e => rw [ht] at h; cases h; exact given_kept hc
      | panic m => rw [ht] at h; cases h
      | ok f =>
        rw [ht] at h
        simp only at h
        cases hr : rec { s1 with active := (P.view st.active id).targetFile } loc.nilRoute f (P.view st.active id).targetFile with
        | none => rw [hr] at h; cases h
        | some z =>
          obtain ⟨s2, r1⟩ := z
          have := hrec _ _ _ _ _ _ hr
          rw [hr] at h
          cases r1 with
          | panic m => cases h
          | ok u => cases h; exact given_kept (fun x => this (by simp) (hc x))
          | err e => cases h; exact given_kept (fun x => this (by simp) (hc x))
    · cases ht : (P.view st.active id).func with
      | err e => rw [ht] at h; cases h; exact given_kept hc
      | panic m => rw [ht] at h; cases h
      | ok x =>
        obtain ⟨b, m⟩ := x
        rw [ht] at h
        cases b with
        | false => cases h; exact given_kept hc
        | true =>
          obtain ⟨h1, h2⟩ := contextCall_kept K P k _ _ _ _ _ _ _ _ _ h
          have : loc'.given st'.route = loc.given st'.route := by unfold Local.given; rw [h2]
          rw [this]
          exact given_kept (fun x => h1 (hc x))

mutual
theorem inspectNode_kept (K : KeptByAnalysis I) (P : Prog) (hP : ∀ f ∈ P.customs, CustomKeeps I f) (k : Nat) (rec : HRec)
    (hrec : ∀ st n f file st' r, rec st n f file = some (st', r) → (∀ m, r ≠ .panic m) → I st.route → I st'.route) (ctx : Str) (file : FileId) :
    ∀ (n : Node) (st st' : HState) (loc loc' : Local), inspectNode P k rec ctx file n st loc = some (st', .ok loc') →
      I (loc.given st.route) → I (loc'.given st'.route)
  | .other children, st, st', loc, loc', h => by
    simp only [inspectNode] at h
    exact inspectNodes_kept K P hP k rec hrec ctx file children st st' { loc with err := none } loc' h
  | .call id children, st, st', loc, loc', h => by
    simp only [inspectNode] at h
    cases hc : callStep P k rec ctx file id st loc with
    | none => rw [hc] at h; cases h
    | some x =>
      obtain ⟨s1, r1⟩ := x
      rw [hc] at h
      match r1, hc, h with
      | .ok (l, false), hc, h => cases h; exact callStep_kept K P hP k rec hrec ctx file id st _ loc _ _ hc
      | .ok (l, true), hc, h =>
        exact fun x => inspectNodes_kept K P hP k rec hrec ctx file children s1 st' l loc' h
          (callStep_kept K P hP k rec hrec ctx file id st s1 loc l true hc x)
theorem inspectNodes_kept (K : KeptByAnalysis I) (P : Prog) (hP : ∀ f ∈ P.customs, CustomKeeps I f) (k : Nat) (rec : HRec)
    (hrec : ∀ st n f file st' r, rec st n f file = some (st', r) → (∀ m, r ≠ .panic m) → I st.route → I st'.route) (ctx : Str) (file : FileId) :
    ∀ (ns : List Node) (st st' : HState) (loc loc' : Local), inspectNodes P k rec ctx file ns st loc = some (st', .ok loc') →
      I (loc.given st.route) → I (loc'.given st'.route)
  | [], st, st', loc, loc', h => by simp only [inspectNodes] at h; cases h; exact id
  | n :: ns, st, st', loc, loc', h => by
    simp only [inspectNodes] at h
    cases hc : inspectNode P k rec ctx file n st loc with
    | none => rw [hc] at h; cases h
    | some x =>
      obtain ⟨s1, r1⟩ := x
      rw [hc] at h
      match r1, hc, h with
      | .ok l, hc, h =>
        exact fun x => inspectNodes_kept K P hP k rec hrec ctx file ns s1 st' l loc' h (inspectNode_kept K P hP k rec hrec ctx file n st s1 loc l hc x)
end

theorem parseFunctionWith_kept (K : KeptByAnalysis I) (P : Prog) (hP : ∀ f ∈ P.customs, CustomKeeps I f) (k : Nat) (rec : HRec)
    (hrec : ∀ st n f file st' r, rec st n f file = some (st', r) → (∀ m, r ≠ .panic m) → I st.route → I st'.route) (top : Bool)
    (st : HState) (n : Bool) (f : FuncId) (file : FileId) (st' : HState) (r) (h : parseFunctionWith P k rec top st n f file = some (st', r))
    (hr : ∀ m, r ≠ .panic m) (hI : I st.route) : I st'.route := by
  have h0 : I (if top = true ∧ funcDoc P f ≠ [] then { st.route with doc := trimSpace (funcDoc P f) } else st.route) := by
    split
    · exact K.doc _ _ hI
    · exact hI
  simp only [parseFunctionWith] at h
  split at h
  · cases h; exact absurd rfl (hr _)
  · cases h; exact h0
  · cases h; exact h0
  · split at h
    · cases h
    · rename_i hi; exact absurd hi (Props.inspectNode_not_err P k rec _ _ _ _ _ _ _)
    · cases h; exact absurd rfl (hr _)
    · rename_i hi
      have := inspectNode_kept K P hP k rec hrec _ _ _ _ _ _ _ hi
      split at h
      · cases h; exact this h0
      · split at h
        · cases h; exact absurd rfl (hr _)
        · split at h <;> cases h <;> exact this h0

theorem parseHelper_kept (K : KeptByAnalysis I) (P : Prog) (hP : ∀ f ∈ P.customs, CustomKeeps I f) (k : Nat) :
    ∀ st n f file st' r, parseHelper P k st n f file = some (st', r) → (∀ m, r ≠ .panic m) → I st.route → I st'.route := by
  induction k with
  | zero => intro st n f file st' r h; cases h
  | succ k ih => intro st n f file st' r h; exact parseFunctionWith_kept K P hP k _ ih false st n f file st' r h

theorem analyse_kept (K : KeptByAnalysis I) (E : RouteEnv) (hP : ∀ f ∈ E.prog.customs, CustomKeeps I f) (k : Nat) (file : FileId) (f : FuncId) (c c' : List Field)
    (route route' : Route) (h : analyse E k file f c route = some (c', .ok route')) : I route → I route' := by
  simp only [analyse] at h
  split at h <;> cases h
  · rename_i hi; exact parseFunctionWith_kept K E.prog hP k _ (parseHelper_kept K E.prog hP k) true _ _ _ _ _ _ hi (by simp)
  · rename_i hi; exact parseFunctionWith_kept K E.prog hP k _ (parseHelper_kept K E.prog hP k) true _ _ _ _ _ _ hi (by simp)

mutual
theorem analyseLit_kept (K : KeptByAnalysis I) (E : RouteEnv) (hP : ∀ f ∈ E.prog.customs, CustomKeeps I f) (k : Nat) (file : FileId) :
    ∀ (l : Lit) (c c' : List Field) (route route' : Route), analyseLit E k file l c route = some (c', .ok route') → I route → I route'
  | .mk line f inner, c, c', route, route', h => by
    simp only [analyseLit] at h
    split at h
    · exact analyse_kept K E hP k file f c c' route route' h
    · exact analyseLits_kept K E hP k file inner c c' route route' h
theorem analyseLits_kept (K : KeptByAnalysis I) (E : RouteEnv) (hP : ∀ f ∈ E.prog.customs, CustomKeeps I f) (k : Nat) (file : FileId) :
    ∀ (ls : List Lit) (c c' : List Field) (route route' : Route), analyseLits E k file ls c route = some (c', .ok route') → I route → I route'
  | [], c, c', route, route', h => by simp only [analyseLits] at h; cases h; exact id
  | l :: ls, c, c', route, route', h => by
    simp only [analyseLits] at h
    cases hc : analyseLit E k file l c route with
    | none => rw [hc] at h; cases h
    | some x =>
      obtain ⟨c1, r1⟩ := x
      rw [hc] at h
      match r1, hc, h with
      | .ok r, hc, h =>
        exact fun x => analyseLits_kept K E hP k file ls c1 c' r route' h (analyseLit_kept K E hP k file l c c1 route r hc x)
end

theorem analyseDecls_kept (K : KeptByAnalysis I) (E : RouteEnv) (hP : ∀ f ∈ E.prog.customs, CustomKeeps I f) (k : Nat) (file : FileId) (funcName : Str) :
    ∀ (ds : List FuncDecl) (c c' : List Field) (route route' : Route),
      analyseDecls E k file funcName ds c route = some (c', .ok route') → I route → I route' := by
  intro ds
  induction ds with
  | nil => intro c c' route route' h; simp only [analyseDecls] at h; cases h; exact id
  | cons d ds ih =>
    intro c c' route route' h hI
    simp only [analyseDecls] at h
    cases hc : analyseDecl E k file funcName d c route with
    | none => rw [hc] at h; cases h
    | some x =>
      obtain ⟨c1, r1⟩ := x
      rw [hc] at h
      match r1, hc, h with
      | .ok r, hc, h =>
        refine ih c1 c' r route' h ?_
        simp only [analyseDecl] at hc
        split at hc
        · split at hc
          · exact analyseLits_kept K E hP k file _ _ _ _ _ hc hI
          · exact analyse_kept K E hP k file _ _ _ _ _ hc (K.oid _ _ hI)
        · cases hc; exact hI

theorem parseRoute_from (K : KeptByAnalysis I) (E : RouteEnv) (hP : ∀ f ∈ E.prog.customs, CustomKeeps I f) (k : Nat) (c c' : List Field) (route route' : Route)
    (h : parseRoute E k c route = some (c', .ok route')) (hI : I { route with pathParams := extractParams route.path }) : I route' := by
  simp only [parseRoute] at h
  cases hp : (splitHandlerPath route.handler).packageName with
  | panic m => rw [hp] at h; cases h
  | err e => rw [hp] at h; cases h
  | ok p =>
    rw [hp] at h
    simp only at h
    split at h
    · cases h
    · cases hf : (splitHandlerPath route.handler).funcName with
      | panic m => rw [hf] at h; cases h
      | err e => rw [hf] at h; cases h
      | ok fn =>
        rw [hf] at h
        simp only at h
        split at h
        · cases h
        · cases hfile : E.fileOf (splitHandlerPath route.handler).packagePath route.file with
          | none => rw [hfile] at h; cases h
          | some file =>
            rw [hfile] at h
            exact analyseDecls_kept K E hP k file fn _ _ _ _ _ h hI

/-- The analysis of a route keeps `I`. -/
theorem parseRoute_kept (K : KeptByAnalysis I) (E : RouteEnv) (hP : ∀ f ∈ E.prog.customs, CustomKeeps I f) (k : Nat) (c c' : List Field) (route route' : Route)
    (h : parseRoute E k c route = some (c', .ok route')) (hI : I route) : I route' :=
  parseRoute_from K E hP k c c' route route' h (K.params _ hI)

theorem inOrder_kept (K : KeptByAnalysis I) {L : Lib} {E : ParseCtx → RouteEnv} (hE : Props.ByModel L E)
    (hP : ∀ ctx, ∀ f ∈ (E ctx).prog.customs, CustomKeeps I f) {wd : Str} {fs : List CustomFunc} {m m' : Str} {cs cs' : List Field}
    {rs rs' : List Route} (h : AnalysedInOrder L wd fs m cs rs m' cs' rs')
    (hI : ∀ r ∈ rs, I { r with pathParams := extractParams r.path }) : ∀ r ∈ rs', I r := by
  induction h with
  | done => simp
  | step _ h2 _ ih =>
    intro r hr
    rcases List.mem_cons.mp hr with rfl | hr
    · obtain ⟨k, hk⟩ := hE.2 _ _ _ _ _ h2
      exact parseRoute_from K _ (hP _) k _ _ _ _ hk (hI _ (by simp))
    · exact ih (fun r hr => hI r (List.mem_cons_of_mem _ hr)) r hr

/-- After at least one pass over the routes, `I` holds of all routes, if it holds of the routes with their path parameters. -/
theorem passes_kept (K : KeptByAnalysis I) {L : Lib} {E : ParseCtx → RouteEnv} (hE : Props.ByModel L E)
    (hP : ∀ ctx, ∀ f ∈ (E ctx).prog.customs, CustomKeeps I f) {wd : Str} {fs : List CustomFunc} {n : Nat} {m m' : Str} {cs cs' : List Field}
    {rs rs' : List Route} (h : AnalysedPasses L wd fs n m cs rs m' cs' rs') (hn : 0 < n)
    (hI : ∀ r ∈ rs, I { r with pathParams := extractParams r.path }) : ∀ r ∈ rs', I r := by
  induction h with
  | done => cases hn
  | @pass n m m1 m2 cs cs1 cs2 rs rs1 rs2 h1 h2 ih =>
    have h0 := inOrder_kept K hE hP h1 hI
    cases n with
    | zero => cases h2; exact h0
    | succ n => exact ih (Nat.succ_pos n) (fun r hr => K.params r (h0 r hr))

end Astra
