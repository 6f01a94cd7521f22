/-
C76: from the router to the output file.
-/
import Verif.Spec.EndToEnd
import Verif.Props.Footprint
import Verif.Props.Routes
import Verif.Props.RouteAnalysis
import Verif.Props.OpenApi

namespace Astra.Props
open Astra.Spec Astra.Run

/-! ### What each step does to the state when it succeeds -/

theorem cacheIfEnabled_st {L : Lib} {φ : Faults} {w w' : World Proc} {x : Exit Unit} (h : cacheIfEnabled L φ w = (w', x)) :
    w'.st = w.st ∧ w'.cwd = w.cwd := by
  have := (keepsIO_cacheIfEnabled (c := w.cwd) (S := fun p => p = w.st) closed_anyFS L φ w ⟨rfl, rfl, trivial⟩).1
  rw [h] at this
  exact ⟨this.2.1, this.1⟩

/-- The state but for the name of the main package. -/
def butMain (p0 p : Proc) : Prop := ∃ m, p = { p0 with svc := { p0.svc with tempMain := m } }

theorem getMain_inv {φ : Faults} {w w' : World Proc} {a : Str} (h : getMainPackageName φ w = (w', .ok a)) :
    w'.st = { w.st with svc := { w.st.svc with tempMain := a } } ∧ w'.cwd = w.cwd ∧ (a = w.st.svc.tempMain ∨ w.st.svc.tempMain = []) := by
  have k : Keeps (Inv w.cwd (butMain w.st) anyFS) anyVal setupTempMainPackage := by
    have hP := closed_anyFS
    unfold setupTempMainPackage
    refine Keeps.seq keepsIO_getSvc (fun s => Keeps.seq (Keeps.try' keepsIO_stat) (fun r => ?_))
    have hrest : Keeps (Inv w.cwd (butMain w.st) anyFS) anyVal (do
        osMkdir (pathJoin [astraDirPath s, mainReplacement])
        let names ← osReadDir s.workDir
        let pkgName ← copyMainFiles s.workDir (pathJoin [astraDirPath s, mainReplacement]) names []
        modifySvc (fun s => { s with tempMain := pathJoin [pkgName, mainReplacementPath] })) :=
      Keeps.seq (keepsIO_mkdir hP) (fun _ => Keeps.seq keepsIO_readDir (fun names => Keeps.seq (keepsIO_copyMainFiles hP _ _ _ _) (fun pkg =>
        keeps_modifySvc (fun p hp => by obtain ⟨m, rfl⟩ := hp; exact ⟨_, rfl⟩))))
    cases r with
    | ok n => exact Keeps.seq (keepsIO_removeAll hP) (fun _ => hrest)
    | error e => exact hrest
  unfold getMainPackageName at h
  rw [Run.bind_ok (getSvc_ok φ w)] at h
  by_cases h0 : w.st.svc.tempMain = []
  · rw [if_pos h0] at h
    obtain ⟨w1, _, h1, h2⟩ := Run.bind_inv h
    have k := (k φ w ⟨rfl, ⟨w.st.svc.tempMain, rfl⟩, trivial⟩).1
    rw [h1] at k
    rw [Run.bind_ok (getSvc_ok φ w1)] at h2
    obtain ⟨k1, ⟨m, k2⟩, _⟩ := k
    cases h2
    refine ⟨?_, k1, Or.inr h0⟩
    rw [show w'.st = _ from k2]
  · rw [if_neg h0] at h
    rw [Run.bind_ok (show (Pure.pure () : Prg Unit) φ w = (w, .ok ()) from rfl), Run.bind_ok (getSvc_ok φ w)] at h
    cases h
    exact ⟨rfl, rfl, Or.inl rfl⟩

theorem createRoutes_inv {deny : List (Str → Bool)} {rel : Str → Except Str Str} {infos : List RouteInfo} {before rs : List Route}
    (h : createRoutes deny rel infos before = (rs, none)) : ∃ found, Each (Found rel) (allowed deny infos) found ∧ rs = before ++ found := by
  induction infos generalizing before with
  | nil => cases h; exact ⟨[], .nil, by simp⟩
  | cons i infos ih =>
    simp only [createRoutes] at h
    by_cases hd : deny.any (fun f => f i.path) = true
    · rw [if_pos hd] at h
      obtain ⟨found, h1, h2⟩ := ih h
      refine ⟨found, ?_, h2⟩
      unfold allowed
      rw [List.filter_cons_of_neg]
      · exact h1
      · simpa using hd
    · rw [if_neg hd] at h
      cases hr : rel i.file with
      | error e => rw [hr] at h; cases h
      | ok p =>
        rw [hr] at h
        obtain ⟨found, h1, h2⟩ := ih h
        refine ⟨baseRoute i p :: found, ?_, by rw [h2]; simp [addRoute]⟩
        unfold allowed
        rw [List.filter_cons_of_pos]
        · exact .cons ⟨p, hr, rfl⟩ h1
        · simpa using hd

theorem found_keys {rel : Str → Except Str Str} {infos : List RouteInfo} {found : List Route} (h : Each (Found rel) infos found) :
    found.map (fun r => (r.path, r.method)) = infos.map (fun i => (i.path, i.method)) := by
  induction h with
  | nil => rfl
  | cons h _ ih => obtain ⟨p, _, rfl⟩ := h; simp [ih]

theorem ginParseLoop_inv {L : Lib} (hkey : KeepsKeys L) {φ : Faults} (rest done : List Route) {w w' : World Proc}
    (hr : w.st.svc.routes = done ++ rest) (hnd : ((done ++ rest).map (fun r => (r.path, r.method))).Nodup)
    (h : ginParseLoop L rest.length done.length φ w = (w', .ok ())) :
    ∃ m cs rs, AnalysedInOrder L w.st.svc.workDir w.st.svc.customFuncs w.st.svc.tempMain w.st.svc.components rest m cs rs ∧
      w'.cwd = w.cwd ∧ w'.st = { w.st with svc := { w.st.svc with tempMain := m, components := cs, routes := done ++ rs } } := by
  induction rest generalizing done w with
  | nil =>
    cases h
    refine ⟨_, _, _, .done _ _, rfl, ?_⟩
    rw [← hr]
  | cons r rest ih =>
    simp only [List.length_cons, ginParseLoop] at h
    rw [Run.bind_ok (getSvc_ok φ w)] at h
    have hget : w.st.svc.routes[done.length]? = some r := by rw [hr]; simp
    rw [hget] at h
    simp only at h
    obtain ⟨w1, _, h1, h⟩ := Run.bind_inv h
    have hm : ∃ m1, w1.st = { w.st with svc := { w.st.svc with tempMain := m1 } } ∧ w1.cwd = w.cwd ∧
        (m1 = w.st.svc.tempMain ∨ (L.usesMain r = true ∧ w.st.svc.tempMain = [])) := by
      split at h1
      · rename_i hu
        obtain ⟨w2, a, h2, h3⟩ := Run.bind_inv h1
        cases h3
        obtain ⟨k1, k2, k3⟩ := getMain_inv h2
        exact ⟨a, k1, k2, k3.imp id (fun h => ⟨hu, h⟩)⟩
      · cases h1; exact ⟨_, rfl, rfl, Or.inl rfl⟩
    obtain ⟨m1, e1, c1, hm1⟩ := hm
    rw [Run.bind_ok (getSvc_ok φ w1), Run.bind_ok (modifySvc_ok _ φ w1)] at h
    simp only [e1] at h
    cases hp : L.parse { workDir := w.st.svc.workDir, mainPkg := m1, customFuncs := w.st.svc.customFuncs } w.st.svc.components r with
    | mk cs1 x =>
      rw [hp] at h
      cases x with
      | err e => cases h
      | panic e => cases h
      | ok r' =>
        simp only at h
        rw [Run.bind_ok (modifySvc_ok _ φ _)] at h
        simp only [hr] at h
        have hk := hkey _ _ _ _ _ hp
        have hrep : replaceRoute (done ++ r :: rest) r' = (done ++ [r']) ++ rest := by
          rw [replaceRoute_first done rest r r' ⟨hk.1.symm, hk.2.symm⟩]
          · simp
          · intro x hx hsx
            simp only [List.map_append, List.map_cons, List.nodup_append] at hnd
            exact hnd.2.2 (x.path, x.method) (List.mem_map.mpr ⟨x, hx, rfl⟩) (r.path, r.method) (by simp)
              (by rw [hsx.1, hsx.2, hk.1, hk.2])
        have hlen : done.length + 1 = (done ++ [r']).length := by simp
        rw [hrep, hlen] at h
        have hnd' : (((done ++ [r']) ++ rest).map (fun r => (r.path, r.method))).Nodup := by
          simp only [List.map_append, List.map_cons, List.append_assoc, List.singleton_append, hk.1, hk.2] at hnd ⊢
          exact hnd
        obtain ⟨m2, cs2, rs2, k1, k2, k3⟩ := ih (done ++ [r']) rfl hnd' h
        refine ⟨m2, cs2, r' :: rs2, .step hm1 hp k1, k2.trans c1, ?_⟩
        rw [k3]
        simp

/-- The state of the process but for the log. -/
def sameData (p p' : Proc) : Prop := p'.svc = p.svc ∧ p'.names = p.names

theorem setup_inv {L : Lib} {getwd : Str} {φ : Faults} {w w' : World Proc} (h : setup L getwd φ w = (w', .ok ())) :
    w'.st.svc = afterSetup getwd w.st.svc ∧ w'.st.names = w.st.names ∧ w'.cwd = w.cwd := by
  unfold setup at h
  rw [Run.bind_ok (logEvent_ok _ φ w)] at h
  obtain ⟨w1, _, h1, h⟩ := Run.bind_inv h
  have k := (keepsIO_setupAstraDir (c := w.cwd) (S := fun p => p = { w.st with log := w.st.log ++ [.setup] }) closed_anyFS φ
    { w with st := { w.st with log := w.st.log ++ [.setup] } } ⟨rfl, rfl, trivial⟩).1
  rw [h1] at k
  rw [Run.bind_ok (modifySvc_ok _ φ w1)] at h
  obtain ⟨e1, e2⟩ := cacheIfEnabled_st h
  have hs : w1.st = _ := k.2.1
  rw [e1, e2]
  simp only [hs]
  refine ⟨?_, trivial, k.1⟩
  unfold afterSetup workDirAfter
  split <;> rfl

theorem analysed_keys {L : Lib} (hkey : KeepsKeys L) {wd : Str} {fs : List CustomFunc} {m m' : Str} {cs cs' : List Field} {rs rs' : List Route}
    (h : AnalysedInOrder L wd fs m cs rs m' cs' rs') : rs'.map (fun r => (r.path, r.method)) = rs.map (fun r => (r.path, r.method)) := by
  induction h with
  | done => rfl
  | step _ hp _ ih => have := hkey _ _ _ _ _ hp; simp [ih, this.1, this.2]

theorem passes_keys {L : Lib} (hkey : KeepsKeys L) {wd : Str} {fs : List CustomFunc} {n : Nat} {m m' : Str} {cs cs' : List Field} {rs rs' : List Route}
    (h : AnalysedPasses L wd fs n m cs rs m' cs' rs') : rs'.map (fun r => (r.path, r.method)) = rs.map (fun r => (r.path, r.method)) := by
  induction h with
  | done => rfl
  | pass h _ ih => rw [ih, analysed_keys hkey h]

/-- One pass. -/
theorem passes_one {L : Lib} {wd : Str} {fs : List CustomFunc} {m m' : Str} {cs cs' : List Field} {rs rs' : List Route} :
    AnalysedPasses L wd fs 1 m cs rs m' cs' rs' ↔ AnalysedInOrder L wd fs m cs rs m' cs' rs' := by
  constructor
  · intro h
    cases h with
    | pass h1 h2 => cases h2; exact h1
  · intro h; exact .pass h (.done _ _ _)

/-- The result for one router. -/
theorem runResult_one {L : Lib} {s : Service} {wd : Str} {infos : List RouteInfo} {m : Str} {rs : List Route} {cs : List Field} :
    RunResult L s wd [infos] m rs cs ↔ ∃ found m1 cs1 rs1, Each (Found L.rel) (allowed s.denyList infos) found ∧
      AnalysedInOrder L wd s.customFuncs s.tempMain s.components found m1 cs1 rs1 ∧ (m = m1 ∨ m1 = []) ∧
      rs = rs1.map (cleanRoute m) ∧ cs = cs1.map (cleanField m) := by
  unfold RunResult
  simp only [List.flatten_cons, List.flatten_nil, List.append_nil, List.length_cons, List.length_nil, Nat.zero_add, passes_one]

theorem each_append {α β : Type} {R : α → β → Prop} {a1 a2 : List α} {b1 b2 : List β} (h1 : Each R a1 b1) (h2 : Each R a2 b2) :
    Each R (a1 ++ a2) (b1 ++ b2) := by
  induction h1 with
  | nil => exact h2
  | cons h _ ih => exact .cons h ih

theorem allowed_append (deny : List (Str → Bool)) (a b : List RouteInfo) : allowed deny (a ++ b) = allowed deny a ++ allowed deny b :=
  List.filter_append a b

theorem each_mem {α β : Type} {R : α → β → Prop} {as : List α} {bs : List β} (h : Each R as bs) : ∀ a ∈ as, ∃ b, R a b := by
  induction h with
  | nil => simp
  | cons h _ ih =>
    intro a ha
    rcases List.mem_cons.mp ha with rfl | ha
    · exact ⟨_, h⟩
    · exact ih a ha

theorem ginInput_one {is : List Input} {mode : Str} {infos : List RouteInfo} (h : is = [⟨mode, .ginCreate (some infos), .ginParse⟩]) :
    Each GinInput is [infos] := by
  rw [h]; exact .cons ⟨rfl, rfl⟩ .nil

theorem runCreate_inv {L : Lib} {φ : Faults} (ev : Nat → Event) {is : List Input} {routers : List (List RouteInfo)} (hin : Each GinInput is routers)
    (i : Nat) {w w' : World Proc} (h : runAll L ev i (is.map (·.createRoutes)) φ w = (w', .ok ())) :
    ∃ found, Each (Found L.rel) (allowed w.st.svc.denyList routers.flatten) found ∧
      w'.st.svc = { w.st.svc with routes := w.st.svc.routes ++ found } ∧ w'.st.names = w.st.names ∧ w'.cwd = w.cwd := by
  induction hin generalizing i w with
  | nil => cases h; exact ⟨[], .nil, by simp, rfl, rfl⟩
  | @cons a infos is routers ha _ ih =>
    simp only [List.map_cons, ha.1] at h
    unfold runAll at h
    rw [Run.bind_ok (logEvent_ok _ φ _)] at h
    obtain ⟨w2, _, h2, h3⟩ := Run.bind_inv h
    have h2 : ginCreateRoutes L (some infos) φ _ = _ := h2
    unfold ginCreateRoutes at h2
    rw [Run.bind_ok (getSvc_ok φ _)] at h2
    simp only at h2
    rw [Run.bind_ok (modifySvc_ok _ φ _)] at h2
    simp only at h2
    cases hc : createRoutes w.st.svc.denyList L.rel infos w.st.svc.routes with
    | mk rs x =>
      rw [hc] at h2
      cases x with
      | some e => cases h2
      | none =>
        cases h2
        obtain ⟨found, k1, k2⟩ := createRoutes_inv hc
        obtain ⟨found', j1, j2, j3, j4⟩ := ih (i + 1) h3
        refine ⟨found ++ found', ?_, ?_, j3, j4⟩
        · rw [List.flatten_cons, allowed_append]; exact each_append k1 j1
        · rw [j2]; simp [k2, List.append_assoc]

theorem stepCreate_inv {L : Lib} {φ : Faults} {w w' : World Proc} {routers : List (List RouteInfo)}
    (hin : Each GinInput w.st.svc.inputs routers) (h : stepCreate L φ w = (w', .ok ())) :
    ∃ found, Each (Found L.rel) (allowed w.st.svc.denyList routers.flatten) found ∧
      w'.st.svc = { w.st.svc with routes := w.st.svc.routes ++ found } ∧ w'.st.names = w.st.names ∧ w'.cwd = w.cwd := by
  unfold stepCreate at h
  rw [Run.bind_ok (logEvent_ok _ φ w), Run.bind_ok (getSvc_ok φ _)] at h
  obtain ⟨w1, _, h1, h⟩ := Run.bind_inv h
  obtain ⟨e1, e2⟩ := cacheIfEnabled_st h
  rw [e1, e2]
  exact runCreate_inv .create hin 0 (w := { w with st := { w.st with log := w.st.log ++ [.createRoutes] } }) h1

theorem runParse_inv {L : Lib} (hkey : KeepsKeys L) {φ : Faults} (ev : Nat → Event) {is : List Input} {routers : List (List RouteInfo)}
    (hin : Each GinInput is routers) (i : Nat) {w w' : World Proc} (hnd : (w.st.svc.routes.map (fun r => (r.path, r.method))).Nodup)
    (h : runAll L ev i (is.map (·.parseRoutes)) φ w = (w', .ok ())) :
    ∃ m cs rs, AnalysedPasses L w.st.svc.workDir w.st.svc.customFuncs routers.length w.st.svc.tempMain w.st.svc.components w.st.svc.routes m cs rs ∧
      w'.st.svc = { w.st.svc with tempMain := m, components := cs, routes := rs } ∧ w'.st.names = w.st.names ∧ w'.cwd = w.cwd := by
  induction hin generalizing i w with
  | nil => cases h; exact ⟨_, _, _, .done _ _ _, rfl, rfl, rfl⟩
  | @cons a infos is routers ha _ ih =>
    simp only [List.map_cons, ha.2] at h
    unfold runAll at h
    rw [Run.bind_ok (logEvent_ok _ φ _)] at h
    obtain ⟨w2, _, h2, h3⟩ := Run.bind_inv h
    have h2 : ginParseRoutesM L φ _ = _ := h2
    unfold ginParseRoutesM at h2
    rw [Run.bind_ok (getSvc_ok φ _)] at h2
    obtain ⟨m, cs, rs, k1, k2, k3⟩ := ginParseLoop_inv hkey w.st.svc.routes [] (w := { w with st := { w.st with log := w.st.log ++ [ev i] } })
      (by simp) (by simpa using hnd) h2
    have e2 : w2.st.svc = { w.st.svc with tempMain := m, components := cs, routes := rs } := by rw [k3]; simp
    obtain ⟨m', cs', rs', j1, j2, j3, j4⟩ := ih (i + 1) (w := w2) (by rw [e2, analysed_keys hkey k1]; exact hnd) h3
    rw [e2] at j1 j2
    refine ⟨m', cs', rs', .pass k1 j1, j2, ?_, j4.trans k2⟩
    rw [j3, k3]

theorem stepParse_inv {L : Lib} (hkey : KeepsKeys L) {φ : Faults} {w w' : World Proc} {routers : List (List RouteInfo)}
    (hin : Each GinInput w.st.svc.inputs routers) (hnd : (w.st.svc.routes.map (fun r => (r.path, r.method))).Nodup)
    (h : stepParse L φ w = (w', .ok ())) :
    ∃ m cs rs, AnalysedPasses L w.st.svc.workDir w.st.svc.customFuncs routers.length w.st.svc.tempMain w.st.svc.components w.st.svc.routes m cs rs ∧
      w'.st.svc = { w.st.svc with tempMain := m, components := cs, routes := rs } ∧ w'.st.names = w.st.names ∧ w'.cwd = w.cwd := by
  unfold stepParse at h
  rw [Run.bind_ok (logEvent_ok _ φ w), Run.bind_ok (getSvc_ok φ _)] at h
  obtain ⟨w1, _, h1, h⟩ := Run.bind_inv h
  obtain ⟨e1, e2⟩ := cacheIfEnabled_st h
  rw [e1, e2]
  exact runParse_inv hkey .parse hin 0 (w := { w with st := { w.st with log := w.st.log ++ [.parseRoutes] } }) hnd h1

theorem stepClean_inv {L : Lib} {φ : Faults} {w w' : World Proc} (h : stepClean L φ w = (w', .ok ())) :
    ∃ m, (m = w.st.svc.tempMain ∨ w.st.svc.tempMain = []) ∧
      w'.st.svc = { w.st.svc with tempMain := m, components := w.st.svc.components.map (cleanField m), routes := w.st.svc.routes.map (cleanRoute m) } ∧
      w'.st.names = w.st.names ∧ w'.cwd = w.cwd := by
  unfold stepClean at h
  rw [Run.bind_ok (logEvent_ok _ φ w)] at h
  obtain ⟨w1, m, h1, h⟩ := Run.bind_inv h
  obtain ⟨k1, k2, k3⟩ := getMain_inv h1
  rw [Run.bind_ok (modifySvc_ok _ φ w1)] at h
  obtain ⟨e1, e2⟩ := cacheIfEnabled_st h
  rw [e1, e2]
  simp only [k1]
  exact ⟨m, k3, rfl, trivial, k2⟩

/-- The steps of a run that succeeds. -/
theorem run_steps {L : Lib} {getwd : Str} {φ : Faults} {w w' : World Proc} (h : Astra.parseAll L getwd φ w = (w', .ok ())) :
    ∃ w1 w2 w3 w4, (stepGenerate L >>= fun _ => teardown) φ w1 = (w', .ok ()) ∧
      setup L getwd φ w = (w2, .ok ()) ∧ stepCreate L φ w2 = (w3, .ok ()) ∧ stepParse L φ w3 = (w4, .ok ()) ∧ stepClean L φ w4 = (w1, .ok ()) := by
  unfold Astra.parseAll setupParse at h
  rw [bind_assoc'] at h
  obtain ⟨w0, _, h0, h⟩ := Run.bind_inv h
  have := checkIO_world φ w
  rw [h0] at this
  rw [show w0 = w from this] at h
  rw [bind_assoc'] at h
  obtain ⟨w2, _, h2, h⟩ := Run.bind_inv h
  obtain ⟨w3, _, h3, h⟩ := Run.bind_inv h
  unfold completeParse at h
  obtain ⟨w0, _, h0, h⟩ := Run.bind_inv h
  have := checkIO_world φ w3
  rw [h0] at this
  rw [show w0 = w3 from this] at h
  obtain ⟨w4, _, h4, h⟩ := Run.bind_inv h
  obtain ⟨w1, _, h1, h⟩ := Run.bind_inv h
  exact ⟨w1, w2, w3, w4, h, h2, h3, h4, h1⟩

/-- The run of a service with gin inputs has come to generation in `w1`, with these routes and components. -/
def AtGeneration (L : Lib) (getwd : Str) (φ : Faults) (w w1 w' : World Proc) (m : Str) (rs : List Route) (cs : List Field) : Prop :=
  w1.st.svc = { afterSetup getwd w.st.svc with tempMain := m, components := cs, routes := rs } ∧ w1.st.names = w.st.names ∧ w1.cwd = w.cwd ∧
  (stepGenerate L >>= fun _ => teardown) φ w1 = (w', .ok ()) ∧
  (∃ w2 w3 w4, setup L getwd φ w = (w2, .ok ()) ∧ stepCreate L φ w2 = (w3, .ok ()) ∧ stepParse L φ w3 = (w4, .ok ()) ∧ stepClean L φ w4 = (w1, .ok ()))

/-- A whole run, up to generation: the routes and the components are the result for the routers, everything else is as given. -/
theorem before_generate {L : Lib} (hkey : KeepsKeys L) {getwd : Str} {φ : Faults} {w w' : World Proc} {routers : List (List RouteInfo)}
    (hin : Each GinInput w.st.svc.inputs routers) (hroutes : w.st.svc.routes = [])
    (hnd : DistinctRoutes (allowed w.st.svc.denyList routers.flatten)) (h : Astra.parseAll L getwd φ w = (w', .ok ())) :
    ∃ w1 m rs cs, RunResult L w.st.svc (workDirAfter getwd w.st.svc) routers m rs cs ∧ AtGeneration L getwd φ w w1 w' m rs cs := by
  obtain ⟨w1, w2, w3, w4, h, h2, h3, h4, h1⟩ := run_steps h
  obtain ⟨a1, a2, a3⟩ := setup_inv h2
  obtain ⟨found, b0, b1, b2, b3⟩ := stepCreate_inv (routers := routers) (by rw [a1]; exact hin) h3
  rw [a1] at b0 b1
  have hr3 : w3.st.svc.routes = found := by
    rw [b1]
    show w.st.svc.routes ++ found = found
    rw [hroutes]; rfl
  obtain ⟨m1, cs1, rs1, c0, c1, c2, c3⟩ := stepParse_inv hkey (routers := routers) (by rw [b1]; exact hin)
    (by rw [hr3, found_keys b0]; exact hnd) h4
  obtain ⟨m, d0, d1, d2, d3⟩ := stepClean_inv h1
  rw [hr3] at c0
  refine ⟨w1, m, rs1.map (cleanRoute m), cs1.map (cleanField m), ⟨found, m1, cs1, rs1, b0, ?_, ?_, rfl, rfl⟩, ?_, ?_, ?_, h, w2, w3, w4, h2, h3, h4, h1⟩
  · rw [b1] at c0; exact c0
  · rw [c1] at d0; exact d0
  · rw [d1, c1, b1]
  · rw [d2, c2, b2, a2]
  · rw [d3, c3, b3, a3]

/-! ### Generation -/

theorem runAll_split {L : Lib} {ev : Nat → Event} {φ : Faults} (as : List Action) (a : Action) (bs : List Action) (i : Nat) {w w' : World Proc}
    (h : runAll L ev i (as ++ a :: bs) φ w = (w', .ok ())) :
    ∃ w1 w2, runAll L ev i as φ w = (w1, .ok ()) ∧ a.run L φ { w1 with st := { w1.st with log := w1.st.log ++ [ev (i + as.length)] } } = (w2, .ok ()) ∧
      runAll L ev (i + as.length + 1) bs φ w2 = (w', .ok ()) := by
  induction as generalizing i w with
  | nil =>
    simp only [List.nil_append, runAll] at h
    rw [Run.bind_ok (logEvent_ok _ φ w)] at h
    obtain ⟨w2, _, h1, h2⟩ := Run.bind_inv h
    exact ⟨w, w2, rfl, h1, h2⟩
  | cons b as ih =>
    simp only [List.cons_append, runAll] at h ⊢
    rw [Run.bind_ok (logEvent_ok _ φ w)] at h ⊢
    obtain ⟨w2, _, h1, h2⟩ := Run.bind_inv h
    obtain ⟨w3, w4, k1, k2, k3⟩ := ih (i + 1) h2
    have e : i + (b :: as).length = i + 1 + as.length := by simp; omega
    rw [e]
    refine ⟨w3, w4, ?_, k2, k3⟩
    rw [Run.bind_ok h1]
    exact k1

/-- A property of the process that the JSON and Azure outputs with other variables than `loc` keep. -/
structure Kept (loc : Nat) (S : Proc → Prop) : Prop where
  log : ∀ p e, S p → S { p with log := p.log ++ [e] }
  cell : ∀ p l v, l ≠ loc → S p → S { p with svc := { p.svc with cells := p.svc.cells.set l v } }

/-- One that the OpenAPI output keeps, too. -/
def KeptDoc (S : Proc → Prop) : Prop := ∀ p names config, S p → S { p with names := names, svc := { p.svc with config := config } }

theorem kept_json {c : FPath} {S : Proc → Prop} {loc l : Nat} (hS : Kept loc S) (hl : l ≠ loc) : Keeps (Inv c S anyFS) anyVal (jsonGenerate l) := by
  unfold jsonGenerate setCell
  exact Keeps.seq keepsIO_getSvc (fun s => Keeps.seq (keepsIO_getCell l) (fun p => Keeps.seq
    (keeps_modifySvc (fun p hp => hS.cell p l _ hl hp)) (fun _ => keepsIO_writeFile closed_anyFS)))

theorem kept_openapi {c : FPath} {S : Proc → Prop} {loc l : Nat} (hS : Kept loc S) (hD : KeptDoc S) (hl : l ≠ loc) (L : Lib) :
    Keeps (Inv c S anyFS) anyVal (openApiGenerate L l) := by
  unfold openApiGenerate setCell
  refine Keeps.seq (A := anyVal) (fun φ w h => ⟨h, fun _ _ => trivial⟩) (fun p => ?_)
  simp only
  split
  · exact Keeps.throw _
  · exact Keeps.panic
  · refine Keeps.seq (A := anyVal) (fun φ w h => ⟨⟨h.1, hD w.st _ _ h.2.1, trivial⟩, fun _ _ => trivial⟩) (fun _ => ?_)
    refine Keeps.seq (keepsIO_getCell l) (fun p => Keeps.seq (keeps_modifySvc (fun p hp => hS.cell p l _ hl hp)) (fun _ => ?_))
    split
    · exact Keeps.throw _
    · exact Keeps.seq (keeps_modifySvc (fun p hp => hS.cell p l _ hl hp)) (fun _ => keepsIO_writeFile closed_anyFS)

theorem kept_runAll {c : FPath} {S : Proc → Prop} {loc : Nat} (hS : Kept loc S) (L : Lib) (ev : Nat → Event) (as : List Action) (i : Nat)
    (h : ∀ a ∈ as, ¬ Action.usesCell loc a ∧ ((∃ l, a = .json l) ∨ (∃ d, a = .azure d) ∨ (KeptDoc S ∧ ∃ l, a = .openapi l))) :
    Keeps (Inv c S anyFS) anyVal (runAll L ev i as) := by
  induction as generalizing i with
  | nil => exact Keeps.pure trivial
  | cons a as ih =>
    refine Keeps.seq (keeps_logEvent (fun p hp => hS.log p _ hp)) (fun _ => Keeps.seq (A := anyVal) ?_ (fun _ => ih (i + 1) (fun b hb => h b (by simp [hb]))))
    obtain ⟨h1, h2⟩ := h a (by simp)
    rcases h2 with ⟨l, rfl⟩ | ⟨d, rfl⟩ | ⟨hD, l, rfl⟩
    · exact kept_json hS (fun e => h1 e)
    · exact keepsIO_azureGenerate closed_anyFS d
    · exact kept_openapi hS hD (fun e => h1 e) L

section
variable {c : FPath} {T U : FPath → Prop} {fs0 : FS} {s : Service} (hc : ∀ x ∈ c, '/' ∉ x) (hw : s.workDir ≠ [])
  (hastra : ∀ r, locOf c s.workDir ++ [c!".astra"] <+: r → T r) {L : Lib} (hL : Tame L U) (hU : ∀ q, U q → T q)

include hc hw hastra hL hU in
/-- Some of the outputs have run; the variables of the others are as they were. -/
theorem out_some (ev : Nat → Event) (as bs : List Action) (i : Nat)
    (hd : (as ++ bs).Pairwise (fun a b => ∀ loc, Action.usesCell loc a → ¬ Action.usesCell loc b))
    (hT : ∀ a ∈ as, ∀ q, OutputPlace (locOf c s.workDir) s a q → T q) : Outputs c T fs0 s (as ++ bs) bs (runAll L ev i as) := by
  induction as generalizing i with
  | nil => intro φ w h; exact h
  | cons a as ih =>
    rintro φ w h
    have h := (wi_log (lasting_cells s (a :: as ++ bs)) (ev i) φ w h).1
    unfold runAll
    rw [Run.bind_ok (logEvent_ok (ev i) φ w)]
    rw [List.cons_append] at hd
    have h := out_action hc hw hastra hL hU a (as ++ bs) (fun loc hu b hb => (List.pairwise_cons.mp hd).1 b hb loc hu) (hT a (by simp)) φ _ h
    rcases bind_split (φ := φ) (w := { w with st := { w.st with log := w.st.log ++ [ev i] } }) (a.run L) (runAll L ev (i + 1) as) with ⟨w1, h1, h2⟩ | ⟨_, h2⟩
    · rw [h2]
      have h1 : a.run L φ (logEvent (ev i) φ w).1 = (w1, .ok ()) := h1
      rw [h1] at h
      exact ih (i + 1) (List.pairwise_cons.mp hd).2 (fun b hb => hT b (by simp [hb])) φ w1 h
    · rw [h2]
      exact ⟨h.1, cellsOf_sub (fun b hb => by simp [hb]) h.2.1, h.2.2⟩

end

/-- A whole run with an output among others: the run up to this output gives it the routes and components that were there before generation;
what it leaves at a place of its own is there at the end. -/
theorem output_runs {L : Lib} {U : FPath → Prop} (hL : Tame L U) {getwd : Str} {φ : Faults} {w w' : World Proc} {d : FPath}
    (hd : DirAt w.cwd w.st.svc.workDir d) (hg : resolve w.cwd getwd = some w.cwd) (hnames : ProperNames w.fs) (hc : ∀ x ∈ w.cwd, '/' ∉ x)
    {routers : List (List RouteInfo)} (hin : Each GinInput w.st.svc.inputs routers)
    {before after : List Output} {o : Output} (hout : w.st.svc.outputs = before ++ o :: after) (hown : OwnCells w.st.svc.outputs)
    {w0 : World Proc} {m : Str} {rs : List Route} {cs : List Field} (h : AtGeneration L getwd φ w w0 w' m rs cs) :
    ∃ w1 w2 w3,
      w1.st.svc = { afterSetup getwd w.st.svc with tempMain := m, components := cs, routes := rs } ∧ w1.st.names = w.st.names ∧ w1.cwd = w.cwd ∧
      runAll L .output 0 (before.map (·.generate)) φ w1 = (w2, .ok ()) ∧ o.generate.run L φ { w2 with st := { w2.st with log := w2.st.log ++ [.output before.length] } } = (w3, .ok ()) ∧
      ∀ q, OwnPlace w.cwd d w.st.svc after q → ¬ U q → w'.fs.look q = w3.fs.look q := by
  obtain ⟨e1, e2, e3, hgen, wa, wb, wc, ha, hb, hcc, hcl⟩ := h
  have hd' := dirAt_iff.mp hd
  let s' := afterSetup getwd w.st.svc
  have hgne : getwd ≠ [] := by rintro rfl; simp [resolve] at hg
  have hwd : s'.workDir ≠ [] ∧ locOf w.cwd s'.workDir = d := by
    show workDirAfter getwd w.st.svc ≠ [] ∧ locOf w.cwd (workDirAfter getwd w.st.svc) = d
    unfold workDirAfter
    split
    · rename_i h0
      refine ⟨hgne, ?_⟩
      rw [resolve_eq hgne] at hg
      rw [Option.some.inj hg, ← hd', show w.st.svc.workDir = [] from h0]
      simp [locOf, baseOf, segments, split, walk, walkStep, isAbs]
    · rename_i h0; exact ⟨h0, hd'⟩
  -- up to generation, the names of the files stay proper
  have k0 := wi_setup (c := w.cwd) (T := fun _ => True) (fs0 := w.fs) (s := w.st.svc) hc L getwd (fun _ _ => trivial) (fun _ _ _ _ _ => trivial) φ w
    ⟨rfl, rfl, .refl _ _, hnames⟩
  rw [ha] at k0
  have k1 := k0.2 () rfl
  have k1 : Inv w.cwd (fixedAll s') (Within' (fun _ => True) w.fs) wa := ⟨k1.1, by
    have := k1.2.1; unfold isSvc at this; unfold fixedAll fixedSvc; rw [this]; exact ⟨⟨rfl, rfl, rfl, rfl, rfl, rfl⟩, rfl⟩, k1.2.2⟩
  have hif : ∀ i ∈ s'.inputs, InputFunction i.createRoutes ∧ InputFunction i.parseRoutes := by
    intro i hi
    obtain ⟨infos, h1, h2⟩ := each_mem hin i hi
    rw [h1, h2]
    exact ⟨trivial, trivial⟩
  have k2 := (wi_stepCreate hc (fun _ _ => trivial) hL (fun _ _ => trivial) (fun _ _ _ _ _ => trivial) (fun i hi => (hif i hi).1) φ wa k1).1
  rw [hb] at k2
  have k3 := (wi_stepParse hc (fun _ _ => trivial) hL (fun _ _ => trivial) (fun _ _ _ _ _ => trivial) (fun i hi => (hif i hi).2) φ wb k2).1
  rw [hcc] at k3
  have k4 := (wi_stepClean (L := L) hc (fun _ _ => trivial) (fun _ _ _ _ _ => trivial) φ wc k3).1
  rw [hcl] at k4
  -- generation
  obtain ⟨w5, _, g1, g2⟩ := Run.bind_inv hgen
  unfold stepGenerate at g1
  rw [Run.bind_ok (logEvent_ok .generate φ w0), Run.bind_ok (getSvc_ok φ _)] at g1
  have ho : w0.st.svc.outputs = before ++ o :: after := by rw [e1]; exact hout
  simp only [ho, List.map_append, List.map_cons] at g1
  obtain ⟨w4, _, g1, g3⟩ := Run.bind_inv g1
  obtain ⟨w2, w3, g4, g5, g6⟩ := runAll_split _ _ _ _ g1
  rw [List.length_map, Nat.zero_add] at g5
  refine ⟨{ w0 with st := { w0.st with log := w0.st.log ++ [.generate] } }, w2, w3, e1, e2, e3, g4, g5, ?_⟩
  intro q hq hu
  have hpw : ((before.map (·.generate)) ++ (o.generate :: after.map (·.generate))).Pairwise (fun a b => ∀ loc, Action.usesCell loc a → ¬ Action.usesCell loc b) := by
    rw [hout] at hown
    have := (List.pairwise_map (f := fun x : Output => x.generate) (R := fun a b => ∀ loc, Action.usesCell loc a → ¬ Action.usesCell loc b)).mpr hown
    simpa only [List.map_append, List.map_cons] using this
  have i1 := out_some (c := w.cwd) (T := fun _ => True) (fs0 := w.fs) (s := s') hc hwd.1 (fun _ _ => trivial) hL (fun _ _ => trivial) .output
    (before.map (·.generate)) (o.generate :: after.map (·.generate)) 0 hpw (fun _ _ _ _ => trivial) φ
    { w0 with st := { w0.st with log := w0.st.log ++ [.generate] } } ⟨k4.1, ⟨k4.2.1.1, fun a _ l _ => by rw [← k4.2.1.2]⟩, k4.2.2⟩
  rw [g4] at i1
  have hpw2 := (List.pairwise_append.mp hpw).2.1
  have i2 := out_action (c := w.cwd) (T := fun _ => True) (fs0 := w.fs) (s := s') hc hwd.1 (fun _ _ => trivial) hL (fun _ _ => trivial) o.generate
    (after.map (·.generate)) (fun loc hu b hb => (List.pairwise_cons.mp hpw2).1 b hb loc hu) (fun _ _ => trivial) φ
    { w2 with st := { w2.st with log := w2.st.log ++ [.output before.length] } }
    (wi_log (lasting_cells s' _) (.output before.length) φ w2 i1).1
  rw [g5] at i2
  have hT : ∀ r, locOf w.cwd s'.workDir ++ [c!".astra"] <+: r → r ≠ q := by
    rw [hwd.2]
    rintro r hr rfl
    exact hq.1 hr
  have hTc : s'.cacheEnabled = true → ∀ p, resolve w.cwd (cachePathOf s') = some p → ∀ r, p <+: r → r ≠ q := by
    rintro he p hr r hp rfl
    unfold cachePathOf at hr
    split at hr
    · exact hq.2.1 ⟨he, p, hr, hp⟩
    · rw [resolve_in_astra w.cwd s' plain_cacheFile, hwd.2] at hr
      cases hr
      exact hq.1 (List.IsPrefix.trans ⟨[cacheFileName], by simp⟩ hp)
  have i3 := out_some (c := w.cwd) (T := fun r => r ≠ q) (fs0 := w3.fs) (s := s') hc hwd.1 hT hL (fun r hr => by rintro rfl; exact hu hr) .output
    (after.map (·.generate)) [] (0 + (before.map (·.generate)).length + 1) (by simpa using (List.pairwise_cons.mp hpw2).2)
    (fun a ha r hr => by
      obtain ⟨o', ho', rfl⟩ := List.mem_map.mp ha
      rintro rfl
      rw [hwd.2] at hr
      refine hq.2.2 o' ho' ?_
      cases hgn : o'.generate <;> rw [hgn] at hr <;> exact hr)
    φ w3 ⟨i2.1, by simpa using i2.2.1, .refl _ _, i2.2.2.2⟩
  rw [g6] at i3
  have i4 := (wi_cacheIfEnabled hc (lasting_svc s') hTc L φ w4 ⟨i3.1, i3.2.1.1, i3.2.2⟩).1
  rw [g3] at i4
  have i5 := (wi_teardown hT φ w5 i4).1
  rw [g2] at i5
  exact i5.2.2.1 q (fun h => h rfl)

/-- The file of the OpenAPI output holds the document for the routes and components that were there before generation. -/
theorem openapi_file_from {L : Lib} {U : FPath → Prop} (hL : Tame L U) {getwd : Str} {φ : Faults} {w w' : World Proc} {d : FPath}
    (hd : DirAt w.cwd w.st.svc.workDir d) (hg : resolve w.cwd getwd = some w.cwd) (hnames : ProperNames w.fs) (hc : ∀ x ∈ w.cwd, '/' ∉ x)
    {routers : List (List RouteInfo)} (hin : Each GinInput w.st.svc.inputs routers)
    {before after : List Output} {o : Output} (hout : w.st.svc.outputs = before ++ o :: after) (hown : OwnCells w.st.svc.outputs)
    (hbefore : ∀ b ∈ before, Plain b) {loc : Nat} (ho : o.generate = .openapi loc) {q : FPath} (hq : OutputPlace d w.st.svc o.generate q)
    (hplace : OwnPlace w.cwd d w.st.svc after q) (hU : ¬ U q)
    {w0 : World Proc} {m : Str} {rs : List Route} {cs : List Field} (h : AtGeneration L getwd φ w w0 w' m rs cs) :
    ∃ doc text,
      generateDoc L.choices w.st.names { config := w.st.svc.config, routes := rs, components := cs, types := w.st.svc.maps.merged } = .ok doc ∧
      L.render (isYaml (withExtension [c!".json", c!".yaml", c!".yml"] (w.st.svc.cells.getD loc []))) doc = .ok text ∧
      w'.fs.look q = some (.file text) := by
  obtain ⟨w1, w2, w3, e1, e2, e3, g1, g2, g3⟩ := output_runs hL hd hg hnames hc hin hout hown h
  have hkept : Kept loc (fun p => p.names = w.st.names ∧ p.svc.config = w.st.svc.config ∧ p.svc.routes = rs ∧ p.svc.components = cs ∧
      p.svc.maps = w.st.svc.maps ∧ p.svc.workDir = workDirAfter getwd w.st.svc ∧ p.svc.cells.getD loc [] = w.st.svc.cells.getD loc []) :=
    ⟨fun p e h => h, fun p l v hl h => ⟨h.1, h.2.1, h.2.2.1, h.2.2.2.1, h.2.2.2.2.1, h.2.2.2.2.2.1, (getD_set_ne (Ne.symm hl) v).trans h.2.2.2.2.2.2⟩⟩
  have k := (kept_runAll (c := w.cwd) hkept L .output (before.map (·.generate)) 0 (fun a ha => by
    obtain ⟨b, hb, rfl⟩ := List.mem_map.mp ha
    refine ⟨?_, ?_⟩
    · rw [hout] at hown
      exact fun hu => (List.pairwise_append.mp hown).2.2 b hb o (by simp) loc hu (by rw [ho]; rfl)
    · rcases hbefore b hb with h | h
      · exact Or.inl h
      · exact Or.inr (Or.inl h)) φ w1 ⟨e3, ⟨e2, (congrArg Service.config e1).trans rfl, congrArg Service.routes e1, congrArg Service.components e1, (congrArg Service.maps e1).trans rfl, congrArg Service.workDir e1, congrArg (fun s => s.cells.getD loc []) e1⟩, trivial⟩).1
  rw [g1] at k
  obtain ⟨kc, ⟨k1, k2, k3, k4, k5, k6, k7⟩, _⟩ := k
  simp only at kc k1 k2 k3 k4 k5 k6 k7
  rw [ho] at g2
  obtain ⟨p, doc, text, f1, f2, f3, f4, f5, _⟩ := openApiGenerate_inv g2
  simp only [k1, k2, k3, k4, k5, k6, k7, kc] at f1 f2 f3
  rw [openApiExt_spec] at f2 f3
  have hd' := dirAt_iff.mp hd
  have hgne : getwd ≠ [] := by rintro rfl; simp [resolve] at hg
  have hwd : workDirAfter getwd w.st.svc ≠ [] ∧ locOf w.cwd (workDirAfter getwd w.st.svc) = d := by
    unfold workDirAfter
    split
    · rename_i h0
      refine ⟨hgne, ?_⟩
      rw [resolve_eq hgne] at hg
      rw [Option.some.inj hg, ← hd', show w.st.svc.workDir = [] from h0]
      simp [locOf, baseOf, segments, split, walk, walkStep, isAbs]
    · rename_i h0; exact ⟨h0, hd'⟩
  rw [resolve_join _ (Or.inl hwd.1), hwd.2] at f3
  rw [ho] at hq
  have hq : q = _ := hq
  have e : p = q := by rw [hq]; exact (Option.some.inj f3).symm
  subst e
  refine ⟨doc, text, f1, f2, ?_⟩
  rw [g3 p hplace hU, f5, FS.look_put _ f4, if_pos rfl]

/-- C76: a service with gin routers and an OpenAPI output that comes after no other OpenAPI output. If the whole run succeeds, whatever
faults it survived, the file of the output holds the text of the document for the result of the routers: the allowed entries, analysed in
order, once for each router, and cleaned. -/
theorem openapi_file_of_run (L : Lib) (hkey : KeepsKeys L) (U : FPath → Prop) (hL : Tame L U) (getwd : Str) (φ : Faults) (w w' : World Proc) (d : FPath)
    (hd : DirAt w.cwd w.st.svc.workDir d) (hg : resolve w.cwd getwd = some w.cwd) (hnames : ProperNames w.fs) (hc : ∀ x ∈ w.cwd, '/' ∉ x)
    (routers : List (List RouteInfo)) (hin : Each GinInput w.st.svc.inputs routers) (hroutes : w.st.svc.routes = [])
    (hnd : DistinctRoutes (allowed w.st.svc.denyList routers.flatten))
    (before after : List Output) (o : Output) (hout : w.st.svc.outputs = before ++ o :: after) (hown : OwnCells w.st.svc.outputs)
    (hbefore : ∀ b ∈ before, Plain b) (loc : Nat) (ho : o.generate = .openapi loc) (q : FPath) (hq : OutputPlace d w.st.svc o.generate q)
    (hplace : OwnPlace w.cwd d w.st.svc after q) (hU : ¬ U q)
    (h : Astra.parseAll L getwd φ w = (w', .ok ())) :
    ∃ m rs cs doc text, RunResult L w.st.svc (workDirAfter getwd w.st.svc) routers m rs cs ∧
      generateDoc L.choices w.st.names { config := w.st.svc.config, routes := rs, components := cs, types := w.st.svc.maps.merged } = .ok doc ∧
      L.render (isYaml (withExtension [c!".json", c!".yaml", c!".yml"] (w.st.svc.cells.getD loc []))) doc = .ok text ∧
      w'.fs.look q = some (.file text) := by
  obtain ⟨w1, m, rs, cs, hres, h⟩ := before_generate hkey hin hroutes hnd h
  obtain ⟨doc, text, k1, k2, k3⟩ := openapi_file_from hL hd hg hnames hc hin hout hown hbefore ho hq hplace hU h
  exact ⟨m, rs, cs, doc, text, hres, k1, k2, k3⟩

/-- The file of the JSON output holds the routes and components that were there before generation. -/
theorem json_file_from {L : Lib} {U : FPath → Prop} (hL : Tame L U) {getwd : Str} {φ : Faults} {w w' : World Proc} {d : FPath}
    (hd : DirAt w.cwd w.st.svc.workDir d) (hg : resolve w.cwd getwd = some w.cwd) (hnames : ProperNames w.fs) (hc : ∀ x ∈ w.cwd, '/' ∉ x)
    {routers : List (List RouteInfo)} (hin : Each GinInput w.st.svc.inputs routers)
    {before after : List Output} {o : Output} (hout : w.st.svc.outputs = before ++ o :: after) (hown : OwnCells w.st.svc.outputs)
    (hbefore : ∀ b ∈ before, BuiltIn b) {loc : Nat} (ho : o.generate = .json loc) {q : FPath} (hq : OutputPlace d w.st.svc o.generate q)
    (hplace : OwnPlace w.cwd d w.st.svc after q) (hU : ¬ U q)
    {w0 : World Proc} {m : Str} {rs : List Route} {cs : List Field} (h : AtGeneration L getwd φ w w0 w' m rs cs) :
    w'.fs.look q = some (.file (marshalIndent (encJsonOutput rs cs))) := by
  obtain ⟨w1, w2, w3, e1, e2, e3, g1, g2, g3⟩ := output_runs hL hd hg hnames hc hin hout hown h
  have hkept : Kept loc (fun p => p.svc.routes = rs ∧ p.svc.components = cs ∧
      p.svc.workDir = workDirAfter getwd w.st.svc ∧ p.svc.cells.getD loc [] = w.st.svc.cells.getD loc []) :=
    ⟨fun p e h => h, fun p l v hl h => ⟨h.1, h.2.1, h.2.2.1, (getD_set_ne (Ne.symm hl) v).trans h.2.2.2⟩⟩
  have k := (kept_runAll (c := w.cwd) hkept L .output (before.map (·.generate)) 0 (fun a ha => by
    obtain ⟨b, hb, rfl⟩ := List.mem_map.mp ha
    refine ⟨?_, ?_⟩
    · rw [hout] at hown
      exact fun hu => (List.pairwise_append.mp hown).2.2 b hb o (by simp) loc hu (by rw [ho]; rfl)
    · rcases hbefore b hb with (h | h) | h
      · exact Or.inl h
      · exact Or.inr (Or.inl h)
      · exact Or.inr (Or.inr ⟨fun p _ _ h => h, h⟩)) φ w1 ⟨e3, ⟨congrArg Service.routes e1, congrArg Service.components e1, congrArg Service.workDir e1, congrArg (fun s => s.cells.getD loc []) e1⟩, trivial⟩).1
  rw [g1] at k
  obtain ⟨kc, ⟨k3, k4, k6, k7⟩, _⟩ := k
  simp only at kc k3 k4 k6 k7
  rw [ho] at g2
  obtain ⟨p, f3, f4, f5⟩ := jsonGenerate_inv g2
  simp only [k6, k7, kc] at f3
  rw [jsonExt_spec] at f3
  have hd' := dirAt_iff.mp hd
  have hgne : getwd ≠ [] := by rintro rfl; simp [resolve] at hg
  have hwd : workDirAfter getwd w.st.svc ≠ [] ∧ locOf w.cwd (workDirAfter getwd w.st.svc) = d := by
    unfold workDirAfter
    split
    · rename_i h0
      refine ⟨hgne, ?_⟩
      rw [resolve_eq hgne] at hg
      rw [Option.some.inj hg, ← hd', show w.st.svc.workDir = [] from h0]
      simp [locOf, baseOf, segments, split, walk, walkStep, isAbs]
    · rename_i h0; exact ⟨h0, hd'⟩
  rw [resolve_join _ (Or.inl hwd.1), hwd.2] at f3
  rw [ho] at hq
  have hq : q = _ := hq
  have e : p = q := by rw [hq]; exact (Option.some.inj f3).symm
  subst e
  rw [g3 p hplace hU, f5]
  simp only [k3, k4]
  rw [FS.look_put _ f4, if_pos rfl]

/-- C76, for the JSON output: its file holds the result for the routers, whatever built-in outputs come before it. -/
theorem json_file_of_run (L : Lib) (hkey : KeepsKeys L) (U : FPath → Prop) (hL : Tame L U) (getwd : Str) (φ : Faults) (w w' : World Proc) (d : FPath)
    (hd : DirAt w.cwd w.st.svc.workDir d) (hg : resolve w.cwd getwd = some w.cwd) (hnames : ProperNames w.fs) (hc : ∀ x ∈ w.cwd, '/' ∉ x)
    (routers : List (List RouteInfo)) (hin : Each GinInput w.st.svc.inputs routers) (hroutes : w.st.svc.routes = [])
    (hnd : DistinctRoutes (allowed w.st.svc.denyList routers.flatten))
    (before after : List Output) (o : Output) (hout : w.st.svc.outputs = before ++ o :: after) (hown : OwnCells w.st.svc.outputs)
    (hbefore : ∀ b ∈ before, BuiltIn b) (loc : Nat) (ho : o.generate = .json loc) (q : FPath) (hq : OutputPlace d w.st.svc o.generate q)
    (hplace : OwnPlace w.cwd d w.st.svc after q) (hU : ¬ U q)
    (h : Astra.parseAll L getwd φ w = (w', .ok ())) :
    ∃ m rs cs, RunResult L w.st.svc (workDirAfter getwd w.st.svc) routers m rs cs ∧
      w'.fs.look q = some (.file (marshalIndent (encJsonOutput rs cs))) := by
  obtain ⟨w1, m, rs, cs, hres, h⟩ := before_generate hkey hin hroutes hnd h
  exact ⟨m, rs, cs, hres, json_file_from hL hd hg hnames hc hin hout hown hbefore ho hq hplace hU h⟩

/-! ### Each entry of the router -/

/-- The successful analyses of the library are those of the model of the route analysis, in some environment for each context, with
well-behaved custom functions. -/
def ByModel (L : Lib) (E : ParseCtx → RouteEnv) : Prop :=
  (∀ ctx, ∀ f ∈ (E ctx).prog.customs, StaysOnRoute f) ∧
  ∀ ctx cs r cs' r', L.parse ctx cs r = (cs', .ok r') → ∃ k, parseRoute (E ctx) k cs r = some (cs', .ok r')

theorem ByModel.keeps {L : Lib} {E : ParseCtx → RouteEnv} (h : ByModel L E) : KeepsKeys L := by
  intro ctx cs r cs' r' hp
  obtain ⟨k, hk⟩ := h.2 _ _ _ _ _ hp
  have := parseRoute_identity (E ctx) (h.1 ctx) k cs cs' r r' hk
  exact ⟨this.2.2.2.1, this.2.2.2.2⟩

theorem each_split {α β : Type} {R : α → β → Prop} {pre post : List α} {a : α} {ys : List β} (h : Each R (pre ++ a :: post) ys) :
    ∃ pre' b post', ys = pre' ++ b :: post' ∧ Each R pre pre' ∧ R a b ∧ Each R post post' := by
  induction pre generalizing ys with
  | nil =>
    cases h with
    | cons h1 h2 => exact ⟨[], _, _, rfl, .nil, h1, h2⟩
  | cons x pre ih =>
    cases h with
    | cons h1 h2 =>
      obtain ⟨p, b, q, rfl, k1, k2, k3⟩ := ih h2
      exact ⟨_ :: p, b, q, rfl, .cons h1 k1, k2, k3⟩

theorem analysed_split {L : Lib} {wd : Str} {fs : List CustomFunc} {m m' : Str} {cs cs' : List Field} {pre post : List Route} {r : Route} {rs' : List Route}
    (h : AnalysedInOrder L wd fs m cs (pre ++ r :: post) m' cs' rs') :
    ∃ pre' r' post' mr c0 c1 c2 m1 m2, rs' = pre' ++ r' :: post' ∧ AnalysedInOrder L wd fs m cs pre m1 c0 pre' ∧
      L.parse { workDir := wd, mainPkg := mr, customFuncs := fs } c1 r = (c2, .ok r') ∧ AnalysedInOrder L wd fs m2 c2 post m' cs' post' := by
  induction pre generalizing m cs rs' with
  | nil =>
    cases h with
    | step h1 h2 h3 => exact ⟨[], _, _, _, _, _, _, _, _, rfl, .done _ _, h2, h3⟩
  | cons x pre ih =>
    cases h with
    | step h1 h2 h3 =>
      obtain ⟨p, r', q, mr, c0, c1, c2, m1, m2, rfl, k1, k2, k3⟩ := ih h3
      exact ⟨_ :: p, r', q, mr, c0, c1, c2, m1, m2, rfl, .step h1 h2 k1, k2, k3⟩

theorem ByModel.own {L : Lib} {E : ParseCtx → RouteEnv} (h : ByModel L E) {ctx : ParseCtx} {cs cs' : List Field} {r r' : Route}
    (hp : L.parse ctx cs r = (cs', .ok r')) : ∃ k, OwnAnalysis (E ctx) k r r' := by
  obtain ⟨k, hk⟩ := h.2 _ _ _ _ _ hp
  have := parseRoute_indep _ (h.1 ctx) k cs [] r
  rw [hk] at this
  exact ⟨k, outcome_some (b := Res.ok r') this.symm⟩

theorem passes_split {L : Lib} {E : ParseCtx → RouteEnv} (hE : ByModel L E) {wd : Str} {fs : List CustomFunc} {n : Nat} {m m' : Str}
    {cs cs' : List Field} {pre post : List Route} {r : Route} {rs rs' : List Route} (e : rs = pre ++ r :: post)
    (h : AnalysedPasses L wd fs n m cs rs m' cs' rs') :
    ∃ pre' r' post' mains, rs' = pre' ++ r' :: post' ∧ mains.length = n ∧ r'.path = r.path ∧ r'.method = r.method ∧
      OwnAnalyses (fun main => E { workDir := wd, mainPkg := main, customFuncs := fs }) mains r r' ∧
      post'.map (fun r => (r.path, r.method)) = post.map (fun r => (r.path, r.method)) := by
  induction h generalizing pre r post with
  | done => exact ⟨pre, r, post, [], e, rfl, rfl, rfl, .none _, rfl⟩
  | pass h1 _ ih =>
    subst e
    obtain ⟨pre1, r1, post1, mr, c0, c1, c2, m1', m2', e1, q1, q2, q3⟩ := analysed_split h1
    obtain ⟨pre2, r2, post2, mains, k1, k2, k3, k4, k5, k6⟩ := ih e1
    have key := hE.keeps _ _ _ _ _ q2
    obtain ⟨k, hk⟩ := hE.own q2
    exact ⟨pre2, r2, post2, mr :: mains, k1, by rw [List.length_cons, k2], k3.trans key.1, k4.trans key.2, .again hk k5,
      k6.trans (analysed_keys hE.keeps q3)⟩

theorem map_paths_clean (m : Str) (rs : List Route) : (rs.map (cleanRoute m)).map (fun r => (r.path, r.method)) = rs.map (fun r => (r.path, r.method)) := by
  rw [List.map_map]; rfl

/-- The keys of the result are those of the allowed entries, in order. -/
theorem result_keys {L : Lib} (hkey : KeepsKeys L) {s : Service} {wd : Str} {routers : List (List RouteInfo)} {m : Str} {rs : List Route} {cs : List Field}
    (h : RunResult L s wd routers m rs cs) : rs.map (fun r => (r.path, r.method)) = (allowed s.denyList routers.flatten).map (fun i => (i.path, i.method)) := by
  obtain ⟨found, m1, cs1, rs1, h1, h2, _, rfl, rfl⟩ := h
  rw [map_paths_clean, passes_keys hkey h2, found_keys h1]

/-- C76, seen from the router: under the hypotheses of `openapi_file_of_run`, with an analysis as modelled, the document in the file has
no other paths than those of the allowed entries, and each allowed entry with a documented method, whose templated path and method no
other entry has, has the operation that is built from the analysis of its own handler, made once for each router. -/
theorem run_documents_router (L : Lib) (E : ParseCtx → RouteEnv) (hE : ByModel L E) (U : FPath → Prop) (hL : Tame L U) (getwd : Str) (φ : Faults)
    (w w' : World Proc) (d : FPath)
    (hd : DirAt w.cwd w.st.svc.workDir d) (hg : resolve w.cwd getwd = some w.cwd) (hnames : ProperNames w.fs) (hc : ∀ x ∈ w.cwd, '/' ∉ x)
    (routers : List (List RouteInfo)) (hin : Each GinInput w.st.svc.inputs routers) (hroutes : w.st.svc.routes = [])
    (hnd : DistinctRoutes (allowed w.st.svc.denyList routers.flatten))
    (before after : List Output) (o : Output) (hout : w.st.svc.outputs = before ++ o :: after) (hown : OwnCells w.st.svc.outputs)
    (hbefore : ∀ b ∈ before, Plain b) (loc : Nat) (ho : o.generate = .openapi loc) (q : FPath) (hq : OutputPlace d w.st.svc o.generate q)
    (hplace : OwnPlace w.cwd d w.st.svc after q) (hU : ¬ U q)
    (h : Astra.parseAll L getwd φ w = (w', .ok ())) :
    ∃ m rs cs names doc text, RunResult L w.st.svc (workDirAfter getwd w.st.svc) routers m rs cs ∧
      makeNames L.choices.groups cs w.st.names = .ok names ∧ w'.fs.look q = some (.file text) ∧
      L.render (isYaml (withExtension [c!".json", c!".yaml", c!".yml"] (w.st.svc.cells.getD loc []))) doc = .ok text ∧
      (∀ path, path ∈ mkeys doc.paths ↔ ∃ i ∈ allowed w.st.svc.denyList routers.flatten, openapiPath i.path = path) ∧
      ∀ i ∈ allowed w.st.svc.denyList routers.flatten, i.method ∈ documentedMethods →
        (∀ j ∈ allowed w.st.svc.denyList routers.flatten, openapiPath j.path = openapiPath i.path → j.method = i.method → j = i) →
        ∃ r r' mains n, Found L.rel i r ∧ mains.length = routers.length ∧
          OwnAnalyses (fun main => E { workDir := workDirAfter getwd w.st.svc, mainPkg := main, customFuncs := w.st.svc.customFuncs }) mains r r' ∧
          Document.operation doc (openapiPath i.path) i.method =
            some (operationOf { types := w.st.svc.maps.merged, names := names } cs (L.choices.route n) (cleanRoute m r')) := by
  obtain ⟨m, rs, cs, doc, text, hres, h1, h2, h3⟩ := openapi_file_of_run L hE.keeps U hL getwd φ w w' d hd hg hnames hc routers hin hroutes hnd
    before after o hout hown hbefore loc ho q hq hplace hU h
  have hk : rs.map (fun r => (r.path, r.method)) = (allowed w.st.svc.denyList routers.flatten).map (fun i => (i.path, i.method)) :=
    result_keys hE.keeps hres
  obtain ⟨names, _, _, hpaths⟩ := operation_of_last_route _ _ _ _ h1
  obtain ⟨names, hn, hops⟩ := route_operation _ _ _ _ h1
  refine ⟨m, rs, cs, names, doc, text, hres, hn, h3, h2, ?_, ?_⟩
  · intro path
    rw [hpaths]
    have e : rs.map (·.path) = (allowed w.st.svc.denyList routers.flatten).map (·.path) := by
      have := congrArg (List.map Prod.fst) hk
      simpa [List.map_map, Function.comp_def] using this
    constructor
    · rintro ⟨r, hr, rfl⟩
      have : r.path ∈ rs.map (·.path) := List.mem_map.mpr ⟨r, hr, rfl⟩
      rw [e] at this
      obtain ⟨i, hi, ei⟩ := List.mem_map.mp this
      exact ⟨i, hi, by rw [ei]⟩
    · rintro ⟨i, hi, rfl⟩
      have : i.path ∈ (allowed w.st.svc.denyList routers.flatten).map (·.path) := List.mem_map.mpr ⟨i, hi, rfl⟩
      rw [← e] at this
      obtain ⟨r, hr, er⟩ := List.mem_map.mp this
      exact ⟨r, hr, by rw [er]⟩
  · intro i hi hm huniq
    obtain ⟨found, m1, cs1, rs1, b1, b2, _, b4, b5⟩ := id hres
    obtain ⟨pre, post, epp⟩ := List.append_of_mem hi
    rw [epp] at b1
    obtain ⟨pre', r, post', rfl, p1, p2, p3⟩ := each_split b1
    obtain ⟨pre'', r', post'', mains, rfl, q0, q1, q2, q3, q4⟩ := passes_split hE rfl b2
    obtain ⟨file, _, hr⟩ := id p2
    have hpath : r'.path = i.path := by rw [q1, hr]
    have hmeth : r'.method = i.method := by rw [q2, hr]
    have op := hops (pre''.map (cleanRoute m)) (post''.map (cleanRoute m)) (cleanRoute m r') (by simp [b4]) (by
        show r'.method ∈ _; rw [hmeth]; exact hm) (by
      rintro x hx ⟨hx1, hx2⟩
      have hx1 : openapiPath x.path = openapiPath r'.path := hx1
      have hx2 : x.method = r'.method := hx2
      have e : (post''.map (cleanRoute m)).map (fun r => (r.path, r.method)) = post.map (fun i => (i.path, i.method)) := by
        rw [map_paths_clean, q4, found_keys p3]
      have : (x.path, x.method) ∈ (post''.map (cleanRoute m)).map (fun r => (r.path, r.method)) := List.mem_map.mpr ⟨x, hx, rfl⟩
      rw [e] at this
      obtain ⟨j, hj, ej⟩ := List.mem_map.mp this
      have ej1 : j.path = x.path := congrArg Prod.fst ej
      have ej2 : j.method = x.method := congrArg Prod.snd ej
      have hji := huniq j (by rw [epp]; simp [hj]) (by rw [ej1, hx1, hpath]) (by rw [ej2, hx2, hmeth])
      subst hji
      unfold DistinctRoutes at hnd
      rw [epp, List.map_append, List.map_cons, List.nodup_append] at hnd
      exact (List.nodup_cons.mp hnd.2.1).1 (List.mem_map.mpr ⟨j, hj, rfl⟩))
    refine ⟨r, r', mains, (pre''.map (cleanRoute m)).length, p2, q0, q3, ?_⟩
    have op : Document.operation doc (openapiPath r'.path) r'.method = _ := op
    rw [hpath, hmeth] at op
    exact op

/-! ### Non-vacuity -/

/-- A library that analyses the handlers of the demo program; the text of a document is the list of its paths and operation ids. -/
def routerLib : Lib :=
  { exampleLib with
    parse := fun _ cs r => match parseRoute demoRoutes 2 cs r with | some x => x | none => (cs, .err [])
    choices := someChoices
    yamlText := fun j => .ok ((entriesAt j c!"paths").flatMap (fun x => x.1 ++ textAt (.obj (entriesAt x.2 c!"get")) c!"operationId")) }

/-- A router with three entries, one of them denied, and an OpenAPI output between two others. -/
def routerInfos : List RouteInfo :=
  [⟨c!"GET", c!"/a", c!"example.com/shop.Get", c!"shop.go", 10⟩, ⟨c!"GET", c!"/b", c!"example.com/shop.Empty", c!"shop.go", 20⟩,
    ⟨c!"GET", c!"/secret", c!"example.com/shop.Get", c!"shop.go", 10⟩]

def routerWorld : World Proc :=
  { fs := [([c!"w"], .dir), ([c!"w", c!"main.go"], .file c!"package main"), ([c!"w", c!"go.mod"], .file c!"module m\n")], cwd := [c!"w"]
    st := { svc := newService [.workDir c!"/w", .ginInput (some routerInfos), .jsonOutput c!"routes", .openApiOutput c!"api.yaml", .jsonOutput c!"again",
      .deny (.exact c!"/secret"), .config (some { title := c!"t", host := c!"localhost", port := 8000, basePath := c!"/" })] } }

theorem routerLib_byModel : ByModel routerLib (fun _ => demoRoutes) := by
  refine ⟨fun _ f hf => (by cases hf), fun ctx cs r cs' r' h => ⟨2, ?_⟩⟩
  have h : (match parseRoute demoRoutes 2 cs r with | some x => x | none => (cs, .err [])) = (cs', .ok r') := h
  cases hp : parseRoute demoRoutes 2 cs r with
  | none => rw [hp] at h; cases h
  | some x => rw [hp] at h; rw [show x = _ from h]

/-- The run of the example succeeds and the file of the OpenAPI output, which is one of three outputs, has the allowed entries. -/
example : (Astra.parseAll routerLib c!"/w" noFaults routerWorld).2 = .ok () ∧
    (Astra.parseAll routerLib c!"/w" noFaults routerWorld).1.fs.look [c!"w", c!"api.yaml"] = some (.file c!"/aGet/bEmpty") := by
  constructor <;> decide +kernel

/-- The example meets the hypotheses of the theorems. -/
example : Tame routerLib (fun _ => False) ∧ DirAt routerWorld.cwd routerWorld.st.svc.workDir [c!"w"] ∧
    resolve routerWorld.cwd c!"/w" = some routerWorld.cwd ∧ (∀ x ∈ routerWorld.cwd, '/' ∉ x) ∧
    routerWorld.st.svc.inputs = [⟨modeGin, .ginCreate (some routerInfos), .ginParse⟩] ∧ routerWorld.st.svc.routes = [] ∧
    DistinctRoutes (allowed routerWorld.st.svc.denyList routerInfos) ∧ OwnCells routerWorld.st.svc.outputs ∧
    OutputPlace [c!"w"] routerWorld.st.svc (.openapi 1) [c!"w", c!"api.yaml"] ∧
    OwnPlace routerWorld.cwd [c!"w"] routerWorld.st.svc (routerWorld.st.svc.outputs.drop 2) [c!"w", c!"api.yaml"] := by
  refine ⟨fun _ _ _ => ⟨fun _ _ => rfl, id, rfl, rfl, rfl, rfl, rfl, rfl, rfl, rfl⟩, Or.inr (by decide), by decide, by decide, rfl, rfl, ?_,
    (options_shape _).2, show [c!"w", c!"api.yaml"] = _ by decide, by decide, ?_, ?_⟩
  · show (List.map _ (allowed _ _)).Nodup
    decide +kernel
  · rintro ⟨h, _⟩
    cases h
  · intro o ho
    have : routerWorld.st.svc.outputs.drop 2 = [_] := rfl
    rw [this, List.mem_singleton] at ho
    subst ho
    show ¬ ([c!"w", c!"api.yaml"] = walk [c!"w"] (segments (withExtension [c!".json"] (routerWorld.st.svc.cells.getD 2 []))))
    decide

end Astra.Props
