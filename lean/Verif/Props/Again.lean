/-
C87: calling `Parse` again on the same service.
-/
import Verif.Spec.Again
import Verif.Props.HandlerDoc

namespace Astra.Props
open Spec Run

theorem replaceRoute_left (A B : List Route) (route : Route) (h : ∃ a ∈ A, SameKey a route) :
    replaceRoute (A ++ B) route = replaceRoute A route ++ B := by
  induction A with
  | nil => obtain ⟨_, ha, _⟩ := h; cases ha
  | cons r rs ih =>
    simp only [List.cons_append, replaceRoute]
    by_cases hk : r.path = route.path ∧ r.method = route.method
    · rw [if_pos hk, if_pos hk, List.cons_append]
    · rw [if_neg hk, if_neg hk, ih, List.cons_append]
      obtain ⟨a, ha, hka⟩ := h
      rcases List.mem_cons.mp ha with rfl | ha
      · exact absurd hka hk
      · exact ⟨a, ha, hka⟩

/-- Every key of the second list is in the first. -/
def Covered (A B : List Route) : Prop := ∀ b ∈ B, ∃ a ∈ A, SameKey a b

theorem covered_keys {A A' B : List Route} (h : A'.map (fun r => (r.path, r.method)) = A.map (fun r => (r.path, r.method))) (hc : Covered A B) :
    Covered A' B := by
  intro b hb
  obtain ⟨a, ha, hk⟩ := hc b hb
  have : (a.path, a.method) ∈ A'.map (fun r => (r.path, r.method)) := by rw [h]; exact List.mem_map.mpr ⟨a, ha, rfl⟩
  obtain ⟨a', ha', e⟩ := List.mem_map.mp this
  exact ⟨a', ha', (congrArg Prod.fst e).trans hk.1, (congrArg Prod.snd e).trans hk.2⟩

theorem ginParseLoop_covered {L : Lib} (hkey : KeepsKeys L) {φ : Faults} {B : List Route} (n : Nat) : ∀ (i : Nat) (A : List Route) {w w' : World Proc},
    w.st.svc.routes = A ++ B → Covered A B → ginParseLoop L n i φ w = (w', .ok ()) →
    ∃ m cs A', A'.map (fun r => (r.path, r.method)) = A.map (fun r => (r.path, r.method)) ∧ w'.cwd = w.cwd ∧
      w'.st = { w.st with svc := { w.st.svc with tempMain := m, components := cs, routes := A' ++ B } } := by
  induction n with
  | zero =>
    intro i A w w' hr _ h
    cases h
    exact ⟨_, _, A, rfl, rfl, by rw [← hr]⟩
  | succ n ih =>
    intro i A w w' hr hcov h
    simp only [ginParseLoop] at h
    rw [Run.bind_ok (getSvc_ok φ w)] at h
    cases hget : w.st.svc.routes[i]? with
    | none =>
      rw [hget] at h
      cases h
      exact ⟨_, _, A, rfl, rfl, by rw [← hr]⟩
    | some r =>
      rw [hget] at h
      simp only at h
      obtain ⟨w1, _, h1, h⟩ := Run.bind_inv h
      have hm : ∃ m1, w1.st = { w.st with svc := { w.st.svc with tempMain := m1 } } ∧ w1.cwd = w.cwd := by
        split at h1
        · obtain ⟨w2, a, h2, h3⟩ := Run.bind_inv h1
          cases h3
          obtain ⟨k1, k2, k3⟩ := getMain_inv h2
          exact ⟨a, k1, k2⟩
        · cases h1; exact ⟨_, rfl, rfl⟩
      obtain ⟨m1, e1, c1⟩ := hm
      rw [Run.bind_ok (getSvc_ok φ w1), Run.bind_ok (modifySvc_ok _ φ w1)] at h
      simp only [e1] at h
      cases hp : L.parse { workDir := w.st.svc.workDir, mainPkg := m1, customFuncs := w.st.svc.customFuncs } w.st.svc.components r with
      | mk cs1 x =>
        rw [hp] at h
        cases x with
        | err e => cases h
        | panic e => cases h
        | ok r' =>
          simp only at h
          rw [Run.bind_ok (modifySvc_ok _ φ _)] at h
          simp only [hr] at h
          have hk := hkey _ _ _ _ _ hp
          have hin : ∃ a ∈ A, SameKey a r' := by
            have hmem : r ∈ A ++ B := by rw [← hr]; exact List.mem_of_getElem? hget
            rcases List.mem_append.mp hmem with hA | hB
            · exact ⟨r, hA, hk.1.symm, hk.2.symm⟩
            · obtain ⟨a, ha, hka⟩ := hcov r hB
              exact ⟨a, ha, hka.1.trans hk.1.symm, hka.2.trans hk.2.symm⟩
          rw [replaceRoute_left A B r' hin] at h
          obtain ⟨m2, cs2, A2, k0, k2, k3⟩ := ih (i + 1) (replaceRoute A r') (w := { w1 with st := _ }) rfl
            (covered_keys (replaceRoute_keys A r') hcov) h
          refine ⟨m2, cs2, A2, k0.trans (replaceRoute_keys A r'), k2.trans c1, ?_⟩
          rw [k3]

theorem runParse_covered {L : Lib} (hkey : KeepsKeys L) {φ : Faults} (ev : Nat → Event) {is : List Input} {routers : List (List RouteInfo)}
    (hin : Each GinInput is routers) {B : List Route} (i : Nat) (A : List Route) {w w' : World Proc} (hr : w.st.svc.routes = A ++ B) (hcov : Covered A B)
    (h : runAll L ev i (is.map (·.parseRoutes)) φ w = (w', .ok ())) :
    ∃ m cs A', A'.map (fun r => (r.path, r.method)) = A.map (fun r => (r.path, r.method)) ∧
      w'.st.svc = { w.st.svc with tempMain := m, components := cs, routes := A' ++ B } ∧ w'.st.names = w.st.names ∧ w'.cwd = w.cwd := by
  induction hin generalizing i w A with
  | nil => cases h; exact ⟨_, _, A, rfl, by rw [← hr], rfl, rfl⟩
  | @cons a infos is routers ha _ ih =>
    simp only [List.map_cons, ha.2] at h
    unfold runAll at h
    rw [Run.bind_ok (logEvent_ok _ φ _)] at h
    obtain ⟨w2, _, h2, h3⟩ := Run.bind_inv h
    have h2 : ginParseRoutesM L φ _ = _ := h2
    unfold ginParseRoutesM at h2
    rw [Run.bind_ok (getSvc_ok φ _)] at h2
    obtain ⟨m, cs, A1, k1, k2, k3⟩ := ginParseLoop_covered hkey (B := B) _ 0 A (w := { w with st := { w.st with log := w.st.log ++ [ev i] } }) hr hcov h2
    have e2 : w2.st.svc = { w.st.svc with tempMain := m, components := cs, routes := A1 ++ B } := by rw [k3]
    obtain ⟨m', cs', A2, j1, j2, j3, j4⟩ := ih (i + 1) A1 (w := w2) (by rw [e2]) (covered_keys k1 hcov) h3
    refine ⟨m', cs', A2, j1.trans k1, ?_, ?_, j4.trans k2⟩
    · rw [j2, e2]
    · rw [j3, k3]

/-- A route as found has nothing to clean. -/
theorem found_clean {rel : Str → Except Str Str} (m : Str) {infos : List RouteInfo} {found : List Route} (h : Each (Found rel) infos found) :
    found.map (cleanRoute m) = found := by
  induction h with
  | nil => rfl
  | cons h _ ih => obtain ⟨p, _, rfl⟩ := h; rw [List.map_cons, ih]; rfl

theorem each_mem_right {α β : Type} {R : α → β → Prop} {as : List α} {bs : List β} (h : Each R as bs) : ∀ b ∈ bs, ∃ a ∈ as, R a b := by
  induction h with
  | nil => simp
  | cons h _ ih =>
    intro b hb
    rcases List.mem_cons.mp hb with rfl | hb
    · exact ⟨_, by simp, h⟩
    · obtain ⟨a, ha, hr⟩ := ih b hb
      exact ⟨a, by simp [ha], hr⟩

theorem each_mem_left {α β : Type} {R : α → β → Prop} {as : List α} {bs : List β} (h : Each R as bs) : ∀ a ∈ as, ∃ b ∈ bs, R a b := by
  induction h with
  | nil => simp
  | cons h _ ih =>
    intro b hb
    rcases List.mem_cons.mp hb with rfl | hb
    · exact ⟨_, by simp, h⟩
    · obtain ⟨a, ha, hr⟩ := ih b hb
      exact ⟨a, by simp [ha], hr⟩

/-- Up to generation: the routes that were there are analysed, some of them for an entry of the routers; if they cover the entries of the
routers, these come after them as they were found. -/
theorem before_generate_again {L : Lib} (hkey : KeepsKeys L) {getwd : Str} {φ : Faults} {w w' : World Proc} {routers : List (List RouteInfo)}
    (hin : Each GinInput w.st.svc.inputs routers) (h : Astra.parseAll L getwd φ w = (w', .ok ())) :
    ∃ found w1 m cs rs, Each (Found L.rel) (allowed w.st.svc.denyList routers.flatten) found ∧ AtGeneration L getwd φ w w1 w' m rs cs ∧
      rs.map (fun r => (r.path, r.method)) = (w.st.svc.routes ++ found).map (fun r => (r.path, r.method)) ∧
      (Covered w.st.svc.routes found → ∃ A, rs = A ++ found ∧
        A.map (fun r => (r.path, r.method)) = w.st.svc.routes.map (fun r => (r.path, r.method))) := by
  obtain ⟨w1, w2, w3, w4, h, h2, h3, h4, h1⟩ := run_steps h
  obtain ⟨a1, a2, a3⟩ := setup_inv h2
  obtain ⟨found, b0, b1, b2, b3⟩ := stepCreate_inv (routers := routers) (by rw [a1]; exact hin) h3
  rw [a1] at b0 b1
  have hr3 : w3.st.svc.routes = w.st.svc.routes ++ found := by rw [b1]; rfl
  have h4' := h4
  unfold stepParse at h4
  rw [Run.bind_ok (logEvent_ok _ φ w3), Run.bind_ok (getSvc_ok φ _)] at h4
  obtain ⟨w5, _, h5, h4⟩ := Run.bind_inv h4
  obtain ⟨s1, s2⟩ := cacheIfEnabled_st h4
  obtain ⟨m, d0, d1, d2, d3⟩ := stepClean_inv h1
  have hin3 : Each GinInput w3.st.svc.inputs routers := by rw [b1]; exact hin
  have key : ∀ A B, w3.st.svc.routes = A ++ B → Covered A B → ∃ m1 cs1 A',
      A'.map (fun r => (r.path, r.method)) = A.map (fun r => (r.path, r.method)) ∧
      w4.st.svc = { w3.st.svc with tempMain := m1, components := cs1, routes := A' ++ B } ∧ w4.st.names = w3.st.names ∧ w4.cwd = w3.cwd := by
    intro A B e hc
    rw [s1, s2]
    exact runParse_covered hkey .parse hin3 0 A (w := { w3 with st := { w3.st with log := w3.st.log ++ [.parseRoutes] } }) e hc h5
  obtain ⟨m1, cs1, A', k1, k2, k3, k4⟩ := key _ [] (List.append_nil _).symm (by intro b hb; cases hb)
  rw [List.append_nil] at k2
  refine ⟨found, w1, m, cs1.map (cleanField m), A'.map (cleanRoute m), b0, ⟨?_, ?_, ?_, h, w2, w3, w4, h2, h3, h4', h1⟩, ?_, ?_⟩
  · rw [d1, k2, b1]
  · rw [d2, k3, b2, a2]
  · rw [d3, k4, b3, a3]
  · rw [map_paths_clean, k1, hr3]
  · intro hcov
    obtain ⟨m2, cs2, A2, j1, j2, _, _⟩ := key _ found hr3 hcov
    have e : A' = A2 ++ found := by
      have := congrArg Service.routes (k2.symm.trans j2)
      exact this
    refine ⟨A2.map (cleanRoute m), ?_, by rw [map_paths_clean, j1]⟩
    rw [e, List.map_append]
    congr 1
    exact found_clean m b0

theorem blank_operation {rel : Str → Except Str Str} {i : RouteInfo} {r : Route} (hf : Found rel i r) (SE : SchemaEnv) (cs : List Field)
    {ch : RouteChoice} (hch : ValidChoice ch) : operationOf SE cs ch r = Operation.blank := by
  obtain ⟨p, _, rfl⟩ := hf
  unfold operationOf Operation.blank
  have h := ((hch.1 []).1).eq_nil
  simp only [pathParameters, headerParameters, queryParameters, List.filterMap_nil, List.append_nil, List.foldl_nil, h]

theorem covered_of_knows {rel : Str → Except Str Str} {s : Service} {infos : List RouteInfo} {found : List Route} (hk : Knows s infos)
    (h : Each (Found rel) infos found) : Covered s.routes found := by
  intro b hb
  obtain ⟨i, hi, hf⟩ := each_mem_right h b hb
  obtain ⟨r, hr, hk⟩ := hk i hi
  obtain ⟨p, _, rfl⟩ := hf
  exact ⟨r, hr, hk⟩

/-- C87, first part: a service whose routes include all allowed entries of its gin routers already. If the run succeeds, whatever faults it
survived, the document in the file of the OpenAPI output has a blank operation for each of these entries with a documented method. -/
theorem known_routes_documented_blank (L : Lib) (hkey : KeepsKeys L) (U : FPath → Prop) (hL : Tame L U)
    (hch : ∀ n, ValidChoice (L.choices.route n)) (getwd : Str) (φ : Faults) (w w' : World Proc) (d : FPath)
    (hd : DirAt w.cwd w.st.svc.workDir d) (hg : resolve w.cwd getwd = some w.cwd) (hnames : ProperNames w.fs) (hc : ∀ x ∈ w.cwd, '/' ∉ x)
    (routers : List (List RouteInfo)) (hin : Each GinInput w.st.svc.inputs routers)
    (hknown : Knows w.st.svc (allowed w.st.svc.denyList routers.flatten))
    (before after : List Output) (o : Output) (hout : w.st.svc.outputs = before ++ o :: after) (hown : OwnCells w.st.svc.outputs)
    (hbefore : ∀ b ∈ before, Plain b) (loc : Nat) (ho : o.generate = .openapi loc) (q : FPath) (hq : OutputPlace d w.st.svc o.generate q)
    (hplace : OwnPlace w.cwd d w.st.svc after q) (hU : ¬ U q)
    (h : Astra.parseAll L getwd φ w = (w', .ok ())) :
    ∃ doc text, w'.fs.look q = some (.file text) ∧
      L.render (isYaml (withExtension [c!".json", c!".yaml", c!".yml"] (w.st.svc.cells.getD loc []))) doc = .ok text ∧
      ∀ i ∈ allowed w.st.svc.denyList routers.flatten, i.method ∈ documentedMethods →
        Document.operation doc (openapiPath i.path) i.method = some Operation.blank := by
  obtain ⟨found, w1, m, cs, rs, h1, h2, h3, h4⟩ := before_generate_again hkey hin h
  have hcov := covered_of_knows hknown h1
  obtain ⟨A, rfl, _⟩ := h4 hcov
  obtain ⟨doc, text, k1, k2, k3⟩ := openapi_file_from hL hd hg hnames hc hin hout hown hbefore ho hq hplace hU h2
  refine ⟨doc, text, k3, k2, fun i hi hm => ?_⟩
  obtain ⟨names, _, hops, _⟩ := operation_of_last_route _ _ _ _ k1
  rw [hops _ _ hm]
  obtain ⟨r0, hr0, hf0⟩ := each_mem_left h1 i hi
  show Option.map _ ((A ++ found).zipIdx.reverse.find? _) = _
  rw [List.zipIdx_append, List.reverse_append, List.find?_append]
  cases hfi : (found.zipIdx (0 + A.length)).reverse.find? (fun x => decide (openapiPath x.1.path = openapiPath i.path ∧ x.1.method = i.method)) with
  | none =>
    obtain ⟨k, hk, e⟩ := List.mem_iff_getElem.mp hr0
    have := List.find?_eq_none.mp hfi (r0, 0 + A.length + k) (List.mem_reverse.mpr (by
      rw [List.mem_zipIdx_iff_le_and_getElem?_sub]
      exact ⟨by omega, by rw [show 0 + A.length + k - (0 + A.length) = k by omega, ← e]; exact List.getElem?_eq_getElem hk⟩))
    obtain ⟨p, _, rfl⟩ := hf0
    simp at this
  | some x =>
    have hx : x.1 ∈ found := by
      have := List.mem_reverse.mp (List.mem_of_find?_eq_some hfi)
      obtain ⟨y, n⟩ := x
      exact (List.mem_zipIdx this).2.2 ▸ List.getElem_mem _
    obtain ⟨j, _, hj⟩ := each_mem_right h1 x.1 hx
    show some _ = _
    exact congrArg some (blank_operation hj _ _ (hch _))

/-! ### Twice -/

/-- A property of the process that generation by built-in outputs keeps. -/
structure KeptAll (S : Proc → Prop) : Prop where
  log : ∀ p e, S p → S { p with log := p.log ++ [e] }
  cell : ∀ p l v, S p → S { p with svc := { p.svc with cells := p.svc.cells.set l v } }
  doc : KeptDoc S

theorem fresh_cell (as : List Action) : ∃ N, ∀ loc, N ≤ loc → ∀ a ∈ as, ¬ Action.usesCell loc a := by
  induction as with
  | nil => exact ⟨0, by simp⟩
  | cons a as ih =>
    obtain ⟨N, hN⟩ := ih
    have : ∃ M, ∀ loc, M ≤ loc → ¬ Action.usesCell loc a := by
      cases a with
      | json l => exact ⟨l + 1, fun loc h (e : l = loc) => by omega⟩
      | openapi l => exact ⟨l + 1, fun loc h (e : l = loc) => by omega⟩
      | _ => exact ⟨0, fun _ _ h => h⟩
    obtain ⟨M, hM⟩ := this
    refine ⟨N + M, fun loc h b hb => ?_⟩
    rcases List.mem_cons.mp hb with rfl | hb
    · exact hM loc (by omega)
    · exact hN loc (by omega) b hb

/-- Generation by built-in outputs, and teardown, change nothing of the service but the captured variables and the configuration. -/
theorem generate_keeps {L : Lib} {φ : Faults} {w w' : World Proc} {S : Proc → Prop} (hS : KeptAll S) (hb : ∀ o ∈ w.st.svc.outputs, BuiltIn o)
    (h0 : S w.st) (h : (stepGenerate L >>= fun _ => teardown) φ w = (w', .ok ())) : S w'.st := by
  obtain ⟨w5, _, g1, g2⟩ := Run.bind_inv h
  unfold stepGenerate at g1
  rw [Run.bind_ok (logEvent_ok .generate φ w), Run.bind_ok (getSvc_ok φ _)] at g1
  obtain ⟨w4, _, g1, g3⟩ := Run.bind_inv g1
  obtain ⟨N, hN⟩ := fresh_cell (w.st.svc.outputs.map (·.generate))
  have k := (kept_runAll (c := w.cwd) (loc := N) ⟨hS.log, fun p l v _ => hS.cell p l v⟩ L .output (w.st.svc.outputs.map (·.generate)) 0 (fun a ha => by
    refine ⟨hN N (Nat.le_refl _) a ha, ?_⟩
    obtain ⟨b, hb', rfl⟩ := List.mem_map.mp ha
    rcases hb b hb' with (h | h) | h
    · exact Or.inl h
    · exact Or.inr (Or.inl h)
    · exact Or.inr (Or.inr ⟨hS.doc, h⟩)) φ { w with st := { w.st with log := w.st.log ++ [.generate] } } ⟨rfl, hS.log _ _ h0, trivial⟩).1
  have g1 : runAll L .output 0 (w.st.svc.outputs.map (·.generate)) φ { w with st := { w.st with log := w.st.log ++ [.generate] } } = (w4, .ok ()) := g1
  rw [g1] at k
  have k4 : S w4.st := k.2.1
  obtain ⟨s1, _⟩ := cacheIfEnabled_st g3
  have k5 : S w5.st := by rw [s1]; exact k4
  have k6 : Keeps (Inv w5.cwd S anyFS) anyVal teardown :=
    Keeps.seq (keeps_logEvent (fun p hp => hS.log p _ hp)) (fun _ => keepsIO_teardown closed_anyFS)
  have := (k6 φ w5 ⟨rfl, k5, trivial⟩).1
  rw [g2] at this
  exact this.2.1

/-- After a successful `Parse` the service has its routes and those of the entries of its routers; its inputs, outputs and deny list are as before. -/
theorem parse_keys {L : Lib} (hkey : KeepsKeys L) {getwd : Str} {φ : Faults} {w w' : World Proc} {routers : List (List RouteInfo)}
    (hin : Each GinInput w.st.svc.inputs routers) (hb : ∀ o ∈ w.st.svc.outputs, BuiltIn o) (h : Astra.parseAll L getwd φ w = (w', .ok ())) :
    w'.st.svc.routes.map (fun r => (r.path, r.method)) =
        w.st.svc.routes.map (fun r => (r.path, r.method)) ++ (allowed w.st.svc.denyList routers.flatten).map (fun i => (i.path, i.method)) ∧
      w'.st.svc.inputs = w.st.svc.inputs ∧ w'.st.svc.outputs = w.st.svc.outputs ∧
      w'.st.svc.denyList = w.st.svc.denyList := by
  obtain ⟨found, w1, m, cs, rs, h1, ⟨e1, _, _, hgen, _⟩, h3, _⟩ := before_generate_again hkey hin h
  have k := generate_keeps (S := fun p => p.svc.routes = rs ∧ p.svc.inputs = w.st.svc.inputs ∧ p.svc.outputs = w.st.svc.outputs ∧
      p.svc.denyList = w.st.svc.denyList) ⟨fun _ _ h => h, fun _ _ _ h => h, fun _ _ _ h => h⟩ (by rw [e1]; exact hb)
    ⟨by rw [e1], (congrArg Service.inputs e1).trans rfl, (congrArg Service.outputs e1).trans rfl, (congrArg Service.denyList e1).trans rfl⟩ hgen
  exact ⟨by rw [k.1, h3, List.map_append, found_keys h1], k.2⟩

theorem keys_know {s : Service} {before : List (Str × Str)} {infos : List RouteInfo}
    (h : s.routes.map (fun r => (r.path, r.method)) = before ++ infos.map (fun i => (i.path, i.method))) : Knows s infos := by
  intro i hi
  have : (i.path, i.method) ∈ s.routes.map (fun r => (r.path, r.method)) := by
    rw [h]
    exact List.mem_append_right _ (List.mem_map.mpr ⟨i, hi, rfl⟩)
  obtain ⟨x, hx, e⟩ := List.mem_map.mp this
  exact ⟨x, hx, congrArg Prod.fst e, congrArg Prod.snd e⟩

/-- C87: `Parse` succeeds on a service with gin routers and built-in outputs, and later, when files may have changed, succeeds again on the
same service. Then the document that the second call writes to the file of the OpenAPI output has a blank operation for every allowed entry of the
routers with a documented method. -/
theorem second_parse_documents_blank (L : Lib) (hkey : KeepsKeys L) (U : FPath → Prop) (hL : Tame L U)
    (hch : ∀ n, ValidChoice (L.choices.route n)) (getwd : Str) (φ φ' : Faults) (w w1 w2 w' : World Proc) (d : FPath)
    (routers : List (List RouteInfo)) (hin : Each GinInput w.st.svc.inputs routers) (hb : ∀ o ∈ w.st.svc.outputs, BuiltIn o)
    (h1 : Astra.parseAll L getwd φ w = (w1, .ok ()))
    (hst : w2.st = w1.st)
    (hd : DirAt w2.cwd w2.st.svc.workDir d) (hg : resolve w2.cwd getwd = some w2.cwd) (hnames : ProperNames w2.fs) (hc : ∀ x ∈ w2.cwd, '/' ∉ x)
    (before after : List Output) (o : Output) (hout : w.st.svc.outputs = before ++ o :: after) (hown : OwnCells w.st.svc.outputs)
    (hbefore : ∀ b ∈ before, Plain b) (loc : Nat) (ho : o.generate = .openapi loc) (q : FPath) (hq : OutputPlace d w2.st.svc o.generate q)
    (hplace : OwnPlace w2.cwd d w2.st.svc after q) (hU : ¬ U q)
    (h2 : Astra.parseAll L getwd φ' w2 = (w', .ok ())) :
    ∃ doc text, w'.fs.look q = some (.file text) ∧
      L.render (isYaml (withExtension [c!".json", c!".yaml", c!".yml"] (w2.st.svc.cells.getD loc []))) doc = .ok text ∧
      ∀ i ∈ allowed w.st.svc.denyList routers.flatten, i.method ∈ documentedMethods →
        Document.operation doc (openapiPath i.path) i.method = some Operation.blank := by
  obtain ⟨k1, k2, k3, k4⟩ := parse_keys hkey hin hb h1
  have k1 := keys_know k1
  rw [← hst] at k1 k2 k3 k4
  have := known_routes_documented_blank L hkey U hL hch getwd φ' w2 w' d hd hg hnames hc routers (by rw [k2]; exact hin) (by rw [k4]; exact k1)
    before after o (by rw [k3]; exact hout) (by rw [k3]; exact hown) hbefore loc ho q hq hplace hU h2
  rw [k4] at this
  exact this

/-- C87, for the JSON output: the second call lists the routes of the first call (analysed anew), and then all entries again, as they were found. -/
theorem second_parse_lists_twice (L : Lib) (hkey : KeepsKeys L) (U : FPath → Prop) (hL : Tame L U)
    (getwd : Str) (φ φ' : Faults) (w w1 w2 w' : World Proc) (d : FPath)
    (routers : List (List RouteInfo)) (hin : Each GinInput w.st.svc.inputs routers) (hroutes : w.st.svc.routes = [])
    (hb : ∀ o ∈ w.st.svc.outputs, BuiltIn o)
    (h1 : Astra.parseAll L getwd φ w = (w1, .ok ()))
    (hst : w2.st = w1.st)
    (hd : DirAt w2.cwd w2.st.svc.workDir d) (hg : resolve w2.cwd getwd = some w2.cwd) (hnames : ProperNames w2.fs) (hc : ∀ x ∈ w2.cwd, '/' ∉ x)
    (before after : List Output) (o : Output) (hout : w.st.svc.outputs = before ++ o :: after) (hown : OwnCells w.st.svc.outputs)
    (loc : Nat) (ho : o.generate = .json loc) (q : FPath) (hq : OutputPlace d w2.st.svc o.generate q)
    (hplace : OwnPlace w2.cwd d w2.st.svc after q) (hU : ¬ U q)
    (h2 : Astra.parseAll L getwd φ' w2 = (w', .ok ())) :
    ∃ analysed found cs, w'.fs.look q = some (.file (marshalIndent (encJsonOutput (analysed ++ found) cs))) ∧
      analysed.map (fun r => (r.path, r.method)) = (allowed w.st.svc.denyList routers.flatten).map (fun i => (i.path, i.method)) ∧
      Each (Found L.rel) (allowed w.st.svc.denyList routers.flatten) found := by
  obtain ⟨k1, k2, k3, k4⟩ := parse_keys hkey hin hb h1
  have k0 := keys_know k1
  rw [hroutes, List.map_nil, List.nil_append] at k1
  rw [← hst] at k0 k1 k2 k3 k4
  obtain ⟨found, w5, m, cs, rs, j1, j2, _, j4⟩ := before_generate_again hkey (routers := routers) (by rw [k2]; exact hin) h2
  rw [k4] at j1
  obtain ⟨A, rfl, j5⟩ := j4 (covered_of_knows k0 j1)
  refine ⟨A, found, cs, ?_, by rw [j5, k1], j1⟩
  exact json_file_from hL hd hg hnames hc (routers := routers) (by rw [k2]; exact hin) (by rw [k3]; exact hout) (by rw [k3]; exact hown)
    (fun b hb' => hb b (by rw [hout]; simp [hb'])) ho hq hplace hU j2

/-! ### Non-vacuity -/

/-- The service of `routerWorld`, with a relative work dir. -/
def againWorld : World Proc :=
  { routerWorld with st := { svc := newService [.workDir c!".", .ginInput (some routerInfos), .openApiOutput c!"api.yaml", .jsonOutput c!"again",
      .deny (.exact c!"/secret"), .config (some { title := c!"t", host := c!"localhost", port := 8000, basePath := c!"/" })] } }

def onceMore : World Proc := (Astra.parseAll routerLib c!"/w" noFaults againWorld).1

/-- Both calls succeed. The first writes the paths with the names of their handlers, the second only the paths. -/
theorem again_witness :
    (Astra.parseAll routerLib c!"/w" noFaults againWorld).2 = .ok () ∧
    onceMore.fs.look [c!"w", c!"api.yaml"] = some (.file c!"/aGet/bEmpty") ∧
    (Astra.parseAll routerLib c!"/w" noFaults onceMore).2 = .ok () ∧
    (Astra.parseAll routerLib c!"/w" noFaults onceMore).1.fs.look [c!"w", c!"api.yaml"] = some (.file c!"/a/b") := by
  refine ⟨?_, ?_, ?_, ?_⟩ <;> decide +kernel

theorem pair_ok {σ α : Type} {x : σ × Exit α} {a : α} (h : x.2 = .ok a) : x = (x.1, .ok a) := by rw [← h]

theorem once_run : Astra.parseAll routerLib c!"/w" noFaults againWorld = (onceMore, .ok ()) := pair_ok again_witness.1

/-- C87: it is not so that calling `Parse` again gives the same document. -/
theorem not_parse_idempotent : ¬ ∀ (L : Lib) (getwd : Str) (w w1 w2 : World Proc) (q : FPath),
    Astra.parseAll L getwd noFaults w = (w1, .ok ()) → Astra.parseAll L getwd noFaults w1 = (w2, .ok ()) →
    (∃ o ∈ w.st.svc.outputs, OutputPlace w.cwd w.st.svc o.generate q) → w2.fs.look q = w1.fs.look q := by
  intro h
  obtain ⟨h1, h2, h3, h4⟩ := again_witness
  have := h routerLib c!"/w" againWorld onceMore (Astra.parseAll routerLib c!"/w" noFaults onceMore).1 [c!"w", c!"api.yaml"]
    once_run (pair_ok h3) ⟨_, List.mem_cons_self, show [c!"w", c!"api.yaml"] = _ by decide⟩
  rw [h2, h4] at this
  exact absurd this (by decide)

/-- With an absolute work dir, the second call of the example fails: it writes to /w/w/api.yaml (C50), and there is no such directory. -/
example : (Astra.parseAll routerLib c!"/w" noFaults routerWorld).2 = .ok () ∧
    (Astra.parseAll routerLib c!"/w" noFaults (Astra.parseAll routerLib c!"/w" noFaults routerWorld).1).2 ≠ .ok () := by
  constructor <;> decide +kernel

theorem properNames_of {fs : FS} (h : ∀ e ∈ fs, ∀ x ∈ e.1, '/' ∉ x) : ProperNames fs := by
  intro q hq x hx
  by_cases h0 : q = []
  · subst h0; cases hx
  · rw [FS.look, if_neg h0] at hq
    cases hf : fs.get q with
    | none => exact absurd hf hq
    | some n =>
      have : ∃ e ∈ fs, e.1 = q := by
        clear h hq
        induction fs with
        | nil => cases hf
        | cons e es ih =>
          by_cases he : e.1 = q
          · exact ⟨e, by simp, he⟩
          · have hf : FS.get es q = some n := by
              simp only [FS.get] at hf
              rw [if_neg he] at hf
              exact hf
            obtain ⟨e', h1, h2⟩ := ih hf
            exact ⟨e', by simp [h1], h2⟩
      obtain ⟨e, he, rfl⟩ := this
      exact h e he x hx

attribute [local irreducible] onceMore

/-- The example meets the hypotheses of the theorem. -/
theorem demo_second_parse : ∃ doc, routerLib.render true doc = .ok c!"/a/b" ∧ Document.operation doc c!"/a" c!"GET" = some Operation.blank ∧
    Document.operation doc c!"/b" c!"GET" = some Operation.blank := by
  obtain ⟨h1, h2, h3, h4⟩ := again_witness
  have hall : allowed againWorld.st.svc.denyList [routerInfos].flatten = routerInfos.take 2 := by
    show allowed _ _ = _
    decide +kernel
  have hplace : OwnPlace onceMore.cwd [c!"w"] onceMore.st.svc (againWorld.st.svc.outputs.drop 1) [c!"w", c!"api.yaml"] := by
    refine ⟨by decide, ?_, ?_⟩
    · rintro ⟨h, _⟩
      exact absurd h (by decide +kernel)
    · intro o ho
      have : againWorld.st.svc.outputs.drop 1 = [_] := rfl
      rw [this, List.mem_singleton] at ho
      subst ho
      show ¬ ([c!"w", c!"api.yaml"] = walk [c!"w"] (segments (withExtension [c!".json"] (onceMore.st.svc.cells.getD 1 []))))
      decide +kernel
  obtain ⟨doc, text, k1, k2, k3⟩ := second_parse_documents_blank routerLib routerLib_byModel.keeps (fun _ => False)
    (fun _ _ _ => ⟨fun _ _ => rfl, id, rfl, rfl, rfl, rfl, rfl, rfl, rfl, rfl⟩) (fun _ => someChoice_valid) c!"/w" noFaults noFaults againWorld onceMore onceMore
    (Astra.parseAll routerLib c!"/w" noFaults onceMore).1 [c!"w"] [routerInfos] (ginInput_one rfl) (by
      intro o ho
      have : againWorld.st.svc.outputs = [_, _] := rfl
      rw [this] at ho
      simp only [List.mem_cons, List.not_mem_nil, or_false] at ho
      rcases ho with rfl | rfl
      · exact Or.inr ⟨_, rfl⟩
      · exact Or.inl (Or.inl ⟨_, rfl⟩))
    once_run rfl (Or.inr (by decide +kernel)) (by decide +kernel) (properNames_of (by decide +kernel)) (by decide +kernel) [] (againWorld.st.svc.outputs.drop 1) _ rfl (options_shape _).2
    (by simp) 0 rfl [c!"w", c!"api.yaml"] (show [c!"w", c!"api.yaml"] = _ by decide +kernel) hplace id (pair_ok h3)
  rw [h4] at k1
  cases k1
  rw [hall] at k3
  have hy : isYaml (withExtension [c!".json", c!".yaml", c!".yml"] (onceMore.st.svc.cells.getD 0 [])) = true := by decide +kernel
  rw [hy] at k2
  exact ⟨doc, k2, k3 ⟨c!"GET", c!"/a", c!"example.com/shop.Get", c!"shop.go", 10⟩ (by simp [routerInfos]) (by decide),
    k3 ⟨c!"GET", c!"/b", c!"example.com/shop.Empty", c!"shop.go", 20⟩ (by simp [routerInfos]) (by decide)⟩

end Astra.Props
