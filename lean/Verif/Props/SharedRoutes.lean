/-
C94: a route that more than one router of the service defines.
-/
import Verif.Props.Again
import Verif.Props.Routers

namespace Astra.Props
open Spec Run

/-- Replacing keeps an entry that an earlier one hides, and the keys on both sides of it. -/
theorem replaceRoute_shared (A C : List Route) (b route : Route) (h : ∃ a ∈ A, SameKey a b) :
    ∃ A' C', replaceRoute (A ++ b :: C) route = A' ++ b :: C' ∧
      A'.map (fun r => (r.path, r.method)) = A.map (fun r => (r.path, r.method)) ∧
      C'.map (fun r => (r.path, r.method)) = C.map (fun r => (r.path, r.method)) := by
  by_cases hA : ∃ a ∈ A, SameKey a route
  · exact ⟨_, C, replaceRoute_left A (b :: C) route hA, replaceRoute_keys A route, rfl⟩
  · have hb : ¬ SameKey b route := fun hb => by
      obtain ⟨a, ha, hk⟩ := h
      exact hA ⟨a, ha, hk.1.trans hb.1, hk.2.trans hb.2⟩
    refine ⟨A, replaceRoute C route, ?_, rfl, replaceRoute_keys C route⟩
    clear h
    induction A with
    | nil => simp only [List.nil_append, replaceRoute]; rw [if_neg (show ¬ (b.path = route.path ∧ b.method = route.method) from hb)]
    | cons x A ih =>
      simp only [List.cons_append, replaceRoute]
      rw [if_neg (show ¬ (x.path = route.path ∧ x.method = route.method) from fun hk => hA ⟨x, by simp, hk⟩), ih (fun ⟨a, ha, hk⟩ => hA ⟨a, by simp [ha], hk⟩)]

theorem shared_keys {A A' : List Route} {b : Route} (h : A'.map (fun r => (r.path, r.method)) = A.map (fun r => (r.path, r.method)))
    (hc : ∃ a ∈ A, SameKey a b) : ∃ a ∈ A', SameKey a b :=
  covered_keys (B := [b]) h (by simpa [Covered] using hc) b (by simp)

theorem ginParseLoop_shared {L : Lib} {φ : Faults} {b : Route} (n : Nat) : ∀ (i : Nat) (A C : List Route) {w w' : World Proc},
    w.st.svc.routes = A ++ b :: C → (∃ a ∈ A, SameKey a b) → ginParseLoop L n i φ w = (w', .ok ()) →
    ∃ m cs A' C', A'.map (fun r => (r.path, r.method)) = A.map (fun r => (r.path, r.method)) ∧
      C'.map (fun r => (r.path, r.method)) = C.map (fun r => (r.path, r.method)) ∧ w'.cwd = w.cwd ∧
      w'.st = { w.st with svc := { w.st.svc with tempMain := m, components := cs, routes := A' ++ b :: C' } } := by
  induction n with
  | zero =>
    intro i A C w w' hr _ h
    cases h
    exact ⟨_, _, A, C, rfl, rfl, rfl, by rw [← hr]⟩
  | succ n ih =>
    intro i A C w w' hr hcov h
    simp only [ginParseLoop] at h
    rw [Run.bind_ok (getSvc_ok φ w)] at h
    cases hget : w.st.svc.routes[i]? with
    | none =>
      rw [hget] at h
      cases h
      exact ⟨_, _, A, C, rfl, rfl, rfl, by rw [← hr]⟩
    | some r =>
      rw [hget] at h
      simp only at h
      obtain ⟨w1, _, h1, h⟩ := Run.bind_inv h
      have hm : ∃ m1, w1.st = { w.st with svc := { w.st.svc with tempMain := m1 } } ∧ w1.cwd = w.cwd := by
        split at h1
        · obtain ⟨w2, a, h2, h3⟩ := Run.bind_inv h1
          cases h3
          obtain ⟨k1, k2, k3⟩ := getMain_inv h2
          exact ⟨a, k1, k2⟩
        · cases h1; exact ⟨_, rfl, rfl⟩
      obtain ⟨m1, e1, c1⟩ := hm
      rw [Run.bind_ok (getSvc_ok φ w1), Run.bind_ok (modifySvc_ok _ φ w1)] at h
      simp only [e1] at h
      cases hp : L.parse { workDir := w.st.svc.workDir, mainPkg := m1, customFuncs := w.st.svc.customFuncs } w.st.svc.components r with
      | mk cs1 x =>
        rw [hp] at h
        cases x with
        | err e => cases h
        | panic e => cases h
        | ok r' =>
          simp only at h
          rw [Run.bind_ok (modifySvc_ok _ φ _)] at h
          simp only [hr] at h
          obtain ⟨A1, C1, e2, hA1, hC1⟩ := replaceRoute_shared A C b r' hcov
          rw [e2] at h
          obtain ⟨m2, cs2, A2, C2, k0, k1, k2, k3⟩ := ih (i + 1) A1 C1 (w := { w1 with st := _ }) rfl (shared_keys hA1 hcov) h
          refine ⟨m2, cs2, A2, C2, k0.trans hA1, k1.trans hC1, k2.trans c1, ?_⟩
          rw [k3]

theorem runParse_shared {L : Lib} {φ : Faults} (ev : Nat → Event) {is : List Input} {routers : List (List RouteInfo)}
    (hin : Each GinInput is routers) {b : Route} (i : Nat) (A C : List Route) {w w' : World Proc} (hr : w.st.svc.routes = A ++ b :: C)
    (hcov : ∃ a ∈ A, SameKey a b) (h : runAll L ev i (is.map (·.parseRoutes)) φ w = (w', .ok ())) :
    ∃ m cs A' C', A'.map (fun r => (r.path, r.method)) = A.map (fun r => (r.path, r.method)) ∧
      C'.map (fun r => (r.path, r.method)) = C.map (fun r => (r.path, r.method)) ∧
      w'.st.svc = { w.st.svc with tempMain := m, components := cs, routes := A' ++ b :: C' } ∧ w'.st.names = w.st.names ∧ w'.cwd = w.cwd := by
  induction hin generalizing i w A C with
  | nil => cases h; exact ⟨_, _, A, C, rfl, rfl, by rw [← hr], rfl, rfl⟩
  | @cons a infos is routers ha _ ih =>
    simp only [List.map_cons, ha.2] at h
    unfold runAll at h
    rw [Run.bind_ok (logEvent_ok _ φ _)] at h
    obtain ⟨w2, _, h2, h3⟩ := Run.bind_inv h
    have h2 : ginParseRoutesM L φ _ = _ := h2
    unfold ginParseRoutesM at h2
    rw [Run.bind_ok (getSvc_ok φ _)] at h2
    obtain ⟨m, cs, A1, C1, k0, k1, k2, k3⟩ := ginParseLoop_shared (b := b) _ 0 A C (w := { w with st := { w.st with log := w.st.log ++ [ev i] } }) hr hcov h2
    have e2 : w2.st.svc = { w.st.svc with tempMain := m, components := cs, routes := A1 ++ b :: C1 } := by rw [k3]
    obtain ⟨m', cs', A2, C2, j0, j1, j2, j3, j4⟩ := ih (i + 1) A1 C1 (w := w2) (by rw [e2]) (shared_keys k0 hcov) h3
    refine ⟨m', cs', A2, C2, j0.trans k0, j1.trans k1, ?_, ?_, j4.trans k2⟩
    · rw [j2, e2]
    · rw [j3, k3]

/-- Up to generation: an allowed entry whose path and method an earlier entry has is still as it was found. -/
theorem before_generate_shared {L : Lib} {getwd : Str} {φ : Faults} {w w' : World Proc} {routers : List (List RouteInfo)}
    (hin : Each GinInput w.st.svc.inputs routers) {pre post : List RouteInfo} {i : RouteInfo}
    (hall : allowed w.st.svc.denyList routers.flatten = pre ++ i :: post)
    (hsame : (∃ j ∈ pre, j.path = i.path ∧ j.method = i.method) ∨ ∃ r ∈ w.st.svc.routes, r.path = i.path ∧ r.method = i.method)
    (h : Astra.parseAll L getwd φ w = (w', .ok ())) :
    ∃ b w1 m cs A C, Found L.rel i b ∧ AtGeneration L getwd φ w w1 w' m (A ++ b :: C) cs ∧
      C.map (fun r => (r.path, r.method)) = post.map (fun k => (k.path, k.method)) ∧
      A.map (fun r => (r.path, r.method)) = w.st.svc.routes.map (fun r => (r.path, r.method)) ++ pre.map (fun k => (k.path, k.method)) := by
  obtain ⟨w1, w2, w3, w4, h, h2, h3, h4, h1⟩ := run_steps h
  obtain ⟨a1, a2, a3⟩ := setup_inv h2
  obtain ⟨found, b0, b1, b2, b3⟩ := stepCreate_inv (routers := routers) (by rw [a1]; exact hin) h3
  rw [a1] at b0 b1
  have hr3 : w3.st.svc.routes = w.st.svc.routes ++ found := by rw [b1]; rfl
  have b0 : Each (Found L.rel) (allowed w.st.svc.denyList routers.flatten) found := b0
  rw [hall] at b0
  obtain ⟨pre', b, post', rfl, e1, e2, e3⟩ := each_split b0
  have hr3 : w3.st.svc.routes = (w.st.svc.routes ++ pre') ++ b :: post' := by rw [hr3, List.append_assoc]
  have hc : ∃ a ∈ w.st.svc.routes ++ pre', SameKey a b := by
    have hb := e2
    obtain ⟨p, _, rfl⟩ := hb
    rcases hsame with ⟨j, hj, hk⟩ | ⟨r, hr, hk⟩
    · obtain ⟨a, ha, f, hf⟩ := each_mem_left e1 j hj
      refine ⟨a, by simp [ha], ?_⟩
      rw [hf.2]
      exact hk
    · exact ⟨r, by simp [hr], hk⟩
  have h4' := h4
  unfold stepParse at h4
  rw [Run.bind_ok (logEvent_ok _ φ w3), Run.bind_ok (getSvc_ok φ _)] at h4
  obtain ⟨w5, _, h5, h4⟩ := Run.bind_inv h4
  obtain ⟨s1, s2⟩ := cacheIfEnabled_st h4
  obtain ⟨m, d0, d1, d2, d3⟩ := stepClean_inv h1
  have hin3 : Each GinInput w3.st.svc.inputs routers := by rw [b1]; exact hin
  obtain ⟨m1, cs1, A', C', k0, k1, k2, k3, k4⟩ :=
    runParse_shared .parse hin3 0 _ _ (w := { w3 with st := { w3.st with log := w3.st.log ++ [.parseRoutes] } }) hr3 hc h5
  rw [← s1] at k2 k3
  rw [← s2] at k4
  have hbc : cleanRoute m b = b := by
    obtain ⟨p, _, rfl⟩ := e2
    rfl
  refine ⟨b, w1, m, cs1.map (cleanField m), A'.map (cleanRoute m), C'.map (cleanRoute m), e2, ⟨?_, ?_, ?_, h, w2, w3, w4, h2, h3, h4', h1⟩, ?_, ?_⟩
  · rw [d1, k2, b1, ← hbc, ← List.map_cons, ← List.map_append, hbc]
  · rw [d2, k3, b2, a2]
  · rw [d3, k4, b3, a3]
  · rw [map_paths_clean, k1, found_keys e3]
  · rw [map_paths_clean, k0, List.map_append, found_keys e1]

theorem atGeneration_unique {L : Lib} {getwd : Str} {φ : Faults} {w w1 w2 w' : World Proc} {m1 m2 : Str} {rs1 rs2 : List Route} {cs1 cs2 : List Field}
    (h1 : AtGeneration L getwd φ w w1 w' m1 rs1 cs1) (h2 : AtGeneration L getwd φ w w2 w' m2 rs2 cs2) : rs1 = rs2 ∧ cs1 = cs2 := by
  obtain ⟨e1, _, _, _, a, b, c, p1, p2, p3, p4⟩ := h1
  obtain ⟨e2, _, _, _, a', b', c', q1, q2, q3, q4⟩ := h2
  cases p1.symm.trans q1
  cases p2.symm.trans q2
  cases p3.symm.trans q3
  cases p4.symm.trans q4
  have := e1.symm.trans e2
  exact ⟨congrArg Service.routes this, congrArg Service.components this⟩

/-- C94 is false of the program: if an allowed entry of the routers has the path and the method of an earlier one, of the same router or of
another one, and no later entry has its path and method, then the operation in the document is blank: it documents neither handler. The run may
survive any faults. -/
theorem shared_route_documented_blank (L : Lib) (hkey : KeepsKeys L) (U : FPath → Prop) (hL : Tame L U)
    (hch : ∀ n, ValidChoice (L.choices.route n)) (getwd : Str) (φ : Faults) (w w' : World Proc) (d : FPath)
    (hd : DirAt w.cwd w.st.svc.workDir d) (hg : resolve w.cwd getwd = some w.cwd) (hnames : ProperNames w.fs) (hc : ∀ x ∈ w.cwd, '/' ∉ x)
    (routers : List (List RouteInfo)) (hin : Each GinInput w.st.svc.inputs routers)
    (before after : List Output) (o : Output) (hout : w.st.svc.outputs = before ++ o :: after) (hown : OwnCells w.st.svc.outputs)
    (hbefore : ∀ b ∈ before, Plain b) (loc : Nat) (ho : o.generate = .openapi loc) (q : FPath) (hq : OutputPlace d w.st.svc o.generate q)
    (hplace : OwnPlace w.cwd d w.st.svc after q) (hU : ¬ U q)
    (h : Astra.parseAll L getwd φ w = (w', .ok ())) :
    ∃ doc text, w'.fs.look q = some (.file text) ∧
      L.render (isYaml (withExtension [c!".json", c!".yaml", c!".yml"] (w.st.svc.cells.getD loc []))) doc = .ok text ∧
      ∀ pre i post, allowed w.st.svc.denyList routers.flatten = pre ++ i :: post → i.method ∈ documentedMethods →
        (∃ j ∈ pre, j.path = i.path ∧ j.method = i.method) →
        (∀ k ∈ post, ¬ (openapiPath k.path = openapiPath i.path ∧ k.method = i.method)) →
        Document.operation doc (openapiPath i.path) i.method = some Operation.blank := by
  obtain ⟨_, w1, m, cs, rs, _, h2, _, _⟩ := before_generate_again hkey hin h
  obtain ⟨doc, text, k1, k2, k3⟩ := openapi_file_from hL hd hg hnames hc hin hout hown hbefore ho hq hplace hU h2
  refine ⟨doc, text, k3, k2, fun pre i post hall hm hsame hlast => ?_⟩
  obtain ⟨b, w1', m', cs', A, C, hf, h2', hC, _⟩ := before_generate_shared hin hall (Or.inl hsame) h
  obtain rfl := (atGeneration_unique h2 h2').1
  obtain ⟨names, _, hops⟩ := route_operation _ _ _ _ k1
  have hb := hf
  obtain ⟨p, _, e⟩ := hb
  have := hops A C b rfl (by rw [e]; exact hm) (fun r' hr' hk => by
    have : (r'.path, r'.method) ∈ post.map (fun k => (k.path, k.method)) := by rw [← hC]; exact List.mem_map.mpr ⟨r', hr', rfl⟩
    obtain ⟨k, hk1, hk2⟩ := List.mem_map.mp this
    refine hlast k hk1 ?_
    rw [show k.path = r'.path from congrArg Prod.fst hk2, show k.method = r'.method from congrArg Prod.snd hk2, hk.1, hk.2, e]
    exact ⟨rfl, rfl⟩)
  rw [blank_operation hf _ _ (hch _), e] at this
  exact this

/-! ### Non-vacuity -/

/-- A second router that defines `GET /a` too, with another handler. -/
def secondRouter : List RouteInfo := [⟨c!"GET", c!"/a", c!"example.com/shop.Empty", c!"shop.go", 20⟩]

/-- With the first router alone the document names the handler of `GET /a` and the query parameter it reads. With both routers, the run
succeeds, and the document has neither the name of the one handler nor that of the other at `/a`, and no parameter. -/
theorem shared_route_witness :
    (Astra.parseAll routerLib c!"/w" noFaults (withMore [.ginInput (some secondRouter)])).2 = .ok () ∧
    occurrences c!"\"operationId\": \"Get\"" (apiText []) = 1 ∧ occurrences c!"\"name\": \"id\"" (apiText []) = 1 ∧
    occurrences c!"\"operationId\": \"Get\"" (apiText [.ginInput (some secondRouter)]) = 0 ∧
    occurrences c!"\"operationId\": \"Empty\"" (apiText [.ginInput (some secondRouter)]) = 1 ∧
    occurrences c!"\"name\": \"id\"" (apiText [.ginInput (some secondRouter)]) = 0 := by
  refine ⟨?_, ?_, ?_, ?_, ?_, ?_⟩ <;> decide +kernel

/-- The service with the second router meets the hypotheses. -/
theorem demo_shared_route : ∃ doc,
    (Astra.parseAll routerLib c!"/w" noFaults (withMore [.ginInput (some secondRouter)])).1.fs.look [c!"w", c!"api.json"] = some (.file (docText doc)) ∧
      Document.operation doc c!"/a" c!"GET" = some Operation.blank := by
  have hplace : OwnPlace [c!"w"] [c!"w"] (withMore [.ginInput (some secondRouter)]).st.svc [] [c!"w", c!"api.json"] :=
    ⟨by decide, (by rintro ⟨h, _⟩; cases h), (by intro o ho; cases ho)⟩
  obtain ⟨doc, text, h1, h2, h3⟩ := shared_route_documented_blank routerLib routerLib_byModel.keeps (fun _ => False)
    (fun _ _ _ => ⟨fun _ _ => rfl, id, rfl, rfl, rfl, rfl, rfl, rfl, rfl, rfl⟩) (fun _ => someChoice_valid) c!"/w" noFaults
    (withMore [.ginInput (some secondRouter)]) _ [c!"w"] (Or.inr (by decide)) (by decide) (properNames_of (by decide)) (by decide) [routerInfos, secondRouter]
    (.cons ⟨rfl, rfl⟩ (.cons ⟨rfl, rfl⟩ .nil))
    [] [] _ rfl (options_shape _).2 (by intro b hb; cases hb) 0 rfl [c!"w", c!"api.json"] (show [c!"w", c!"api.json"] = _ by decide) hplace id
    (pair_ok shared_route_witness.1)
  refine ⟨doc, ?_, ?_⟩
  · rw [h1]
    have : Except.ok (docText doc) = Except.ok text := h2
    cases this
    rfl
  · exact h3 (routerInfos.take 2) ⟨c!"GET", c!"/a", c!"example.com/shop.Empty", c!"shop.go", 20⟩ [] rfl (by decide)
      ⟨_, List.mem_cons_self, rfl, rfl⟩ (by simp)

end Astra.Props
