/-
C106: a route is documented by all functions that stand at the line of its handler.
-/
import Verif.Spec.LineHandlers
import Verif.Props.Again
import Verif.Props.HandlerDoc
import Verif.Props.Routers

namespace Astra.Props
open Astra.Spec

/-! ### The analysis of all functions at the line -/

/-- Taking the function for the handler has the effect `eff`, and keeps the line. -/
def TakenFor (E : RouteEnv) (k : Nat) (file : FileId) (name : Str) (line : Int) (eff : FuncId × Bool → Route → Route) (f : FuncId × Bool) : Prop :=
  ∀ comps route, route.lineNo = line → EndsWith (analyse E k file f.1 comps (startRoute E name f.2 route)) (eff f route) ∧ (eff f route).lineNo = line

theorem foldl_line {E : RouteEnv} {k : Nat} {file : FileId} {name : Str} {line : Int} {eff : FuncId × Bool → Route → Route} : ∀ (fs : List (FuncId × Bool)),
    (∀ f ∈ fs, TakenFor E k file name line eff f) → ∀ route : Route, route.lineNo = line → (fs.foldl (fun r f => eff f r) route).lineNo = line
  | [], _, _, h => h
  | f :: fs, hf, route, h => foldl_line fs (fun x hx => hf x (List.mem_cons_of_mem _ hx)) _ (hf f List.mem_cons_self [] route h).2

mutual
theorem analyseLit_all {E : RouteEnv} {k : Nat} {file : FileId} {name : Str} {line : Int} {eff : FuncId × Bool → Route → Route} :
    ∀ (l : Lit), (∀ f ∈ (litAt line l).map (fun f => (f, false)), TakenFor E k file name line eff f) → ∀ (comps : List Field) (route : Route), route.lineNo = line →
      EndsWith (analyseLit E k file l comps route) (((litAt line l).map (fun f => (f, false))).foldl (fun r f => eff f r) route)
  | .mk n g inner, h, comps, route, hr => by
    by_cases e : line = n
    · rw [analyseLit, if_pos (hr.trans e)]
      simp only [litAt, if_pos e, List.map_cons, List.map_nil, List.foldl_cons, List.foldl_nil] at h ⊢
      exact (h (g, false) List.mem_cons_self comps route hr).1
    · rw [analyseLit, if_neg (by rw [hr]; exact e)]
      simp only [litAt, if_neg e] at h ⊢
      exact analyseLits_all inner h comps route hr
theorem analyseLits_all {E : RouteEnv} {k : Nat} {file : FileId} {name : Str} {line : Int} {eff : FuncId × Bool → Route → Route} :
    ∀ (ls : List Lit), (∀ f ∈ (litsAt line ls).map (fun f => (f, false)), TakenFor E k file name line eff f) → ∀ (comps : List Field) (route : Route), route.lineNo = line →
      EndsWith (analyseLits E k file ls comps route) (((litsAt line ls).map (fun f => (f, false))).foldl (fun r f => eff f r) route)
  | [], _, comps, route, _ => Or.inr ⟨comps, by simp [analyseLits, litsAt]⟩
  | l :: ls, h, comps, route, hr => by
    simp only [litsAt, List.map_append, List.foldl_append, List.mem_append] at h ⊢
    rw [analyseLits]
    rcases analyseLit_all l (fun f hf => h f (Or.inl hf)) comps route hr with e | ⟨c, e⟩
    · rw [e]; exact Or.inl rfl
    · rw [e]; exact analyseLits_all ls (fun f hf => h f (Or.inr hf)) c _ (foldl_line _ (fun f hf => h f (Or.inl hf)) route hr)
end

theorem analyseDecls_all {E : RouteEnv} {k : Nat} {file : FileId} {name : Str} {line : Int} {eff : FuncId × Bool → Route → Route} :
    ∀ (ds : List FuncDecl), (∀ f ∈ functionsAt name line ds, TakenFor E k file name line eff f) → ∀ (comps : List Field) (route : Route), route.lineNo = line →
      EndsWith (analyseDecls E k file name ds comps route) ((functionsAt name line ds).foldl (fun r f => eff f r) route)
  | [], _, comps, route, _ => Or.inr ⟨comps, rfl⟩
  | d :: ds, h, comps, route, hr => by
    have hsplit : functionsAt name line (d :: ds) = functionsAt name line [d] ++ functionsAt name line ds := by
      simp [functionsAt]
    rw [hsplit] at h ⊢
    rw [List.foldl_append, analyseDecls]
    have hd : EndsWith (analyseDecl E k file name d comps route) ((functionsAt name line [d]).foldl (fun r f => eff f r) route) := by
      have h' := fun f hf => h f (List.mem_append_left _ hf)
      simp only [functionsAt, List.flatMap_cons, List.flatMap_nil, List.append_nil] at h' ⊢
      unfold analyseDecl
      by_cases hn : d.name = name
      · simp only [if_pos hn] at h' ⊢
        by_cases hl : line = d.line
        · rw [if_neg (by rw [hr]; exact fun e => e hl)]
          simp only [if_pos hl, List.foldl_cons, List.foldl_nil] at h' ⊢
          exact (h' (d.func, true) List.mem_cons_self comps route hr).1
        · rw [if_pos (by rw [hr]; exact hl)]
          simp only [if_neg hl] at h' ⊢
          exact analyseLits_all d.lits h' comps route hr
      · simp only [if_neg hn] at h' ⊢
        exact Or.inr ⟨comps, rfl⟩
    rcases hd with e | ⟨c, e⟩
    · rw [e]; exact Or.inl rfl
    · rw [e]
      exact analyseDecls_all ds (fun f hf => h f (List.mem_append_right _ hf)) c _ (foldl_line _ (fun f hf => h f (List.mem_append_left _ hf)) route hr)

/-! ### The route after the analysis -/

theorem findContextName_none {P : Prog} {f : FuncId} {file : FileId} (h : NoContextParam P f file) : findContextName ((P.funcs f).params file) = .ok [] := by
  have := findContextName_skip ((P.funcs f).params file) [] h
  rw [List.append_nil] at this
  rw [this]
  rfl

/-- The effect of taking a function for the handler. -/
theorem taken_for {E : RouteEnv} {k : Nat} {file : FileId} {f : FuncId} {es : List Entry} (h : Contributes E.prog file f es) (comps : List Field) (route : Route) :
    EndsWith (analyse E k file f comps route) (withEntries es { route with doc := docOf E.prog f route.doc }) := by
  cases h with
  | handler hctx han =>
    obtain ⟨bb, han⟩ := han
    obtain ⟨comps', out, res, _, hout, hrep, hends⟩ := handler_source_order E.prog f file _ es bb hctx han comps route
    unfold analyse
    cases hp : parseFunction E.prog k comps route f file with
    | none => exact Or.inl rfl
    | some x =>
      have := ends_unique ⟨k, hp⟩ hends
      subst this
      refine Or.inr ⟨comps', ?_⟩
      subst hout
      rcases reported_cases hrep with rfl | ⟨m, rfl⟩ <;> rfl
  | noContext hno =>
    unfold analyse parseFunction parseFunctionWith
    rw [findContextName_none hno]
    refine Or.inr ⟨comps, ?_⟩
    simp only [true_and, route_with_doc]
    rfl

/-- The effect of taking a function for the handler, on the route. -/
def taking (E : RouteEnv) (name : Str) (contribution : FuncId → List Entry) (f : FuncId × Bool) (route : Route) : Route :=
  withEntries (contribution f.1) { startRoute E name f.2 route with doc := docOf E.prog f.1 route.doc }

theorem startRoute_fields (E : RouteEnv) (name : Str) (named : Bool) (r : Route) : (startRoute E name named r).lineNo = r.lineNo ∧
    (startRoute E name named r).doc = r.doc := by
  unfold startRoute
  split <;> exact ⟨rfl, rfl⟩

theorem withEntries_set (i d : Str) : ∀ (es : List Entry) (r : Route),
    { withEntries es r with operationId := i, doc := d } = withEntries es { r with operationId := i, doc := d }
  | [], _ => rfl
  | e :: es, r => withEntries_set i d es (e.addTo r)

theorem taking_all (E : RouteEnv) (name : Str) (contribution : FuncId → List Entry) : ∀ (fs : List (FuncId × Bool)) (route : Route),
    fs.foldl (fun r f => taking E name contribution f r) route = withEntries (fs.flatMap (fun f => contribution f.1))
      { route with operationId := if fs.any (·.2) then E.lowerCamel name else route.operationId, doc := lastComment E.prog fs route.doc }
  | [], route => rfl
  | f :: fs, route => by
    rw [List.foldl_cons, taking_all E name contribution fs, List.flatMap_cons, withEntries, withEntries, List.foldl_append]
    congr 1
    obtain ⟨_, w2, w3, _⟩ := withEntries_identity (contribution f.1) { startRoute E name f.2 route with doc := docOf E.prog f.1 route.doc }
    have e2 : (taking E name contribution f route).doc = docOf E.prog f.1 route.doc := w2
    have e3 : (taking E name contribution f route).operationId = (startRoute E name f.2 route).operationId := w3
    rw [e2, e3]
    unfold taking
    rw [withEntries_set]
    show withEntries _ _ = withEntries _ _
    congr 1
    obtain ⟨g, named⟩ := f
    cases named with
    | true => simp only [startRoute, if_true, List.any_cons, Bool.true_or, ite_self]; rfl
    | false => simp only [startRoute, List.any_cons, Bool.false_or, Bool.false_eq_true, if_false]; rfl

/-- The route that the analysis ends with: that of the router, with the parameters of the path, and what all functions at the line contribute. -/
theorem own_analysis_of_line {E : RouteEnv} {k : Nat} {r r' : Route} (h : OwnAnalysis E k r r') {fs : List (FuncId × Bool)} {pkg name : Str} {fileId : FileId}
    {contribution : FuncId → List Entry} (hname : GoFunctionName r.handler pkg name) (hfile : E.fileOf pkg r.file = some fileId)
    (hfs : functionsAt name r.lineNo (E.decls fileId) = fs) (hc : ∀ f ∈ fs, Contributes E.prog fileId f.1 (contribution f.1)) :
    r' = withEntries (fs.flatMap (fun f => contribution f.1)) { r with
      pathParams := extractParams r.path, operationId := if fs.any (·.2) then E.lowerCamel name else r.operationId, doc := lastComment E.prog fs r.doc } := by
  obtain ⟨c, h⟩ := h
  obtain ⟨hn1, hn2⟩ := split_function_name hname
  rw [← hn1] at hfile
  simp only [parseRoute, hn2, hfile] at h
  cases hpk : (splitHandlerPath r.handler).packageName with
  | panic m => simp [hpk] at h
  | err m => simp [hpk] at h
  | ok p =>
    simp only [hpk] at h
    split at h
    · simp at h
    · split at h
      · simp at h
      · have := analyseDecls_all (E := E) (k := k) (file := fileId) (name := name) (line := r.lineNo) (eff := taking E name contribution) (E.decls fileId)
          (fun f hf comps route hr => by
            obtain ⟨s1, s2⟩ := startRoute_fields E name f.2 route
            have t := taken_for (k := k) (hc f (hfs ▸ hf)) comps (startRoute E name f.2 route)
            rw [s2] at t
            refine ⟨t, ?_⟩
            unfold taking
            rw [(withEntries_identity _ _).1]
            exact s1.trans hr) [] { r with pathParams := extractParams r.path } rfl
        rw [hfs, taking_all] at this
        rcases this with e | ⟨c', e⟩
        · rw [e] at h; cases h
        · rw [e] at h; cases h; rfl

/-! ### The run -/

theorem docOf_cases (P : Prog) (f : FuncId) : (∀ c, docOf P f c = c) ∨ ∃ x, ∀ c, docOf P f c = x := by
  unfold docOf
  cases (P.funcs f).doc with
  | none => exact Or.inl fun _ => rfl
  | some d =>
    by_cases h : commentText d = []
    · exact Or.inl fun c => by simp [h]
    · exact Or.inr ⟨commentText d, fun c => by simp [h]⟩

theorem lastComment_cases (P : Prog) : ∀ fs : List (FuncId × Bool), (∀ c, lastComment P fs c = c) ∨ ∃ x, ∀ c, lastComment P fs c = x
  | [] => Or.inl fun _ => rfl
  | f :: fs => by
    have e : ∀ c, lastComment P (f :: fs) c = lastComment P fs (docOf P f.1 c) := fun _ => rfl
    rcases lastComment_cases P fs with h | ⟨x, h⟩
    · rcases docOf_cases P f.1 with h1 | ⟨x, h1⟩
      · exact Or.inl fun c => by rw [e, h, h1]
      · exact Or.inr ⟨x, fun c => by rw [e, h, h1]⟩
    · exact Or.inr ⟨x, fun c => by rw [e, h]⟩

theorem line_stage_step {E : RouteEnv} {handler file : Str} {line : Int} {path comment id : Str} {es : List Entry}
    {n k : Nat} {r r' : Route} (S : Stage handler file line path comment id es n r) (hv : LineView E handler file line comment id es)
    (h : OwnAnalysis E k r r') : Stage handler file line path comment id es (n + 1) r' := by
  obtain ⟨pkg, fileId, name, fs, contribution, hname, hfile, hfs, hcon, e0, e1, e2⟩ := hv
  have e := own_analysis_of_line h (by rw [S.handler]; exact hname) (by rw [S.file]; exact hfile) (by rw [S.line]; exact hfs) hcon
  rw [← e0] at e
  have hd : lastComment E.prog fs r.doc = comment := by
    rcases lastComment_cases E.prog fs with h1 | ⟨x, h1⟩
    · rw [h1] at e1 ⊢
      rcases S.doc with hd | ⟨_, hd⟩
      · exact hd
      · rw [hd, e1]
    · rw [e1, h1, h1]
  have hi : (if fs.any (·.2) then E.lowerCamel name else r.operationId) = id := by
    cases hany : fs.any (·.2) with
    | true => rw [hany] at e2; exact e2.symm
    | false =>
      rw [hany] at e2
      simp only [Bool.false_eq_true, if_false] at e2 ⊢
      rcases S.oid with hi | ⟨_, hi⟩
      · exact hi
      · rw [hi, e2]
  rw [hd, hi] at e
  obtain ⟨w1, w2, w3, w4, w5, w6, w7, w8⟩ := withEntries_identity es { r with pathParams := extractParams r.path, operationId := id, doc := comment }
  obtain ⟨x1, x2, x3⟩ := withEntries_responses es { r with pathParams := extractParams r.path, operationId := id, doc := comment }
  obtain ⟨p1, p2, p3⟩ := withEntries_place es { r with pathParams := extractParams r.path, operationId := id, doc := comment }
  rw [← e] at w1 w2 w3 w4 w5 w6 w7 w8 x1 x2 x3 p1 p2 p3
  have G := S.gathered
  refine ⟨p1.trans S.handler, p2.trans S.file, w1.trans S.line, p3.trans S.rpath, Or.inl w2, Or.inl w3, ?_, ?_, ?_, ?_, ?_, ?_, ?_⟩
  · intro _; exact x2
  · intro y hy
    rcases x3 y hy with h | h
    · exact G.source y h
    · exact h
  · intro _; rw [w4, S.rpath]
  · rw [w5, G.query]; exact copies_succ _ _
  · rw [w6, G.header]; exact copies_succ _ _
  · rw [w7, G.body]; exact copies_succ _ _
  · rw [w8, G.rheader]; exact copies_succ _ _

theorem line_stage_steps {E : Str → RouteEnv} {handler file : Str} {line : Int} {path comment id : Str}
    {es : List Entry} {mains : List Str} {r r' : Route} (h : OwnAnalyses E mains r r') : ∀ n, Stage handler file line path comment id es n r →
    (∀ m ∈ mains, LineView (E m) handler file line comment id es) → Stage handler file line path comment id es (n + mains.length) r' := by
  induction h with
  | none => intro n S _; exact S
  | again h1 _ ih =>
    intro n S hv
    have := ih (n + 1) (line_stage_step S (hv _ (by simp)) h1) (fun m hm => hv m (List.mem_cons_of_mem _ hm))
    rw [List.length_cons, Nat.add_comm _ 1, ← Nat.add_assoc]
    exact this

theorem line_unbound {E : RouteEnv} {handler file : Str} {line : Int} {comment id : Str} {es : List Entry} (h : LineView E handler file line comment id es) :
    ∀ e ∈ es, (∀ p ∈ e.queryParams, p.isBound = false → p.field = { type := c!"string" }) ∧
      (∀ p ∈ e.requestHeaders, p.isBound = false → p.field = { type := c!"string" }) ∧
      (∀ p ∈ e.responseHeaders, p.isBound = false → p.field = { type := c!"string" }) ∧
      (∀ p ∈ e.body, p.isBound = false → p.field = { type := c!"string" } ∨ p.field = { type := c!"file" }) := by
  obtain ⟨_, _, _, fs, contribution, _, _, _, hcon, rfl, _, _⟩ := h
  intro e he
  obtain ⟨f, hf, he⟩ := List.mem_flatMap.mp he
  have := hcon f hf
  generalize contribution f.1 = l at this he
  cases this with
  | handler hctx han => exact analysed_unbound han e he
  | noContext _ => cases he

/-- C106, exactly what happens: a service with gin routers and an OpenAPI output that comes after no other OpenAPI output; a run that succeeds, whatever faults
it survived. For each allowed entry of the routers with a documented method, whose templated path and method no other entry has: in the document whose text is
in the file, the operation of the entry shows what all functions do that stand at the line of the handler, in the declarations with the name that comes first in
the name of the handler, and nothing else. The handler need not be among them. -/
theorem run_documents_line (L : Lib) (E : ParseCtx → RouteEnv) (hE : ByModel L E) (U : FPath → Prop) (hL : Tame L U)
    (hch : ∀ n, ValidChoice (L.choices.route n)) (getwd : Str) (φ : Faults)
    (w w' : World Proc) (d : FPath)
    (hd : DirAt w.cwd w.st.svc.workDir d) (hg : resolve w.cwd getwd = some w.cwd) (hnames : ProperNames w.fs) (hc : ∀ x ∈ w.cwd, '/' ∉ x)
    (routers : List (List RouteInfo)) (hin : Each GinInput w.st.svc.inputs routers) (hroutes : w.st.svc.routes = [])
    (hnd : DistinctRoutes (allowed w.st.svc.denyList routers.flatten))
    (before after : List Output) (o : Output) (hout : w.st.svc.outputs = before ++ o :: after) (hown : OwnCells w.st.svc.outputs)
    (hbefore : ∀ b ∈ before, Plain b) (loc : Nat) (ho : o.generate = .openapi loc) (q : FPath) (hq : OutputPlace d w.st.svc o.generate q)
    (hplace : OwnPlace w.cwd d w.st.svc after q) (hU : ¬ U q)
    (h : Astra.parseAll L getwd φ w = (w', .ok ())) :
    ∃ doc text, w'.fs.look q = some (.file text) ∧
      L.render (isYaml (withExtension [c!".json", c!".yaml", c!".yml"] (w.st.svc.cells.getD loc []))) doc = .ok text ∧
      ∀ i ∈ allowed w.st.svc.denyList routers.flatten, i.method ∈ documentedMethods →
        (∀ j ∈ allowed w.st.svc.denyList routers.flatten, openapiPath j.path = openapiPath i.path → j.method = i.method → j = i) →
        ∃ (relative : Str) (mains : List Str), L.rel i.file = .ok relative ∧ mains.length = routers.length ∧ ∀ (comment id : Str) (es : List Entry),
          (∀ main ∈ mains, LineView (E { workDir := workDirAfter getwd w.st.svc, mainPkg := main, customFuncs := w.st.svc.customFuncs })
            i.handler relative i.line comment id es) →
            ∃ op, Document.operation doc (openapiPath i.path) i.method = some op ∧ op.description = comment ∧ op.operationId = id ∧
              (∀ e ∈ es, Shows op e) ∧ ShowsOnly op i.path es := by
  obtain ⟨m, rs, cs, names, doc, text, _, _, h3, h4, _, h6⟩ := run_documents_router L E hE U hL getwd φ w w' d hd hg hnames hc routers hin
    hroutes hnd before after o hout hown hbefore loc ho q hq hplace hU h
  refine ⟨doc, text, h3, h4, fun i hi hm huniq => ?_⟩
  obtain ⟨r, r', mains, n, ⟨relative, hrel, hr⟩, hlen, hown', hop⟩ := h6 i hi hm huniq
  refine ⟨relative, mains, hrel, hlen, ?_⟩
  intro comment id es hv
  subst hr
  have S := line_stage_steps hown' 0 (show Stage i.handler relative i.line i.path comment id es 0 _ from
    ⟨rfl, rfl, rfl, rfl, Or.inr ⟨rfl, rfl⟩, Or.inr ⟨rfl, rfl⟩, by simp, by simp, by simp, rfl, rfl, rfl, rfl⟩) hv
  have hpos : 0 < mains.length := by
    rw [hlen]
    cases routers with
    | nil => simp [allowed] at hi
    | cons _ _ => exact Nat.succ_pos _
  obtain ⟨main, hmain⟩ := List.exists_mem_of_length_pos hpos
  obtain ⟨k, hk⟩ : ∃ k, mains.length = k + 1 := ⟨mains.length - 1, by omega⟩
  rw [Nat.zero_add, hk] at S
  obtain ⟨s1, s2⟩ := document_shows { types := w.st.svc.maps.merged, names := names } cs (L.choices.route n) (hch n) m es i.path k r' S.gathered
    (line_unbound (hv main hmain))
  exact ⟨_, hop, S.doc.resolve_right (fun h => by cases h.1), S.oid.resolve_right (fun h => by cases h.1), s1, s2⟩

/-- A handler with its line to itself is seen as in C83. -/
theorem line_view_of_handler {E : RouteEnv} {handler file : Str} {line : Int} {comment id : Str} {es : List Entry}
    (h : HandlerView E handler file line comment id es) : LineView E handler file line comment id es := by
  obtain ⟨fileId, name, f, named, ctx, ⟨⟨pkg, hn, hf⟩, honly⟩, hctx, han, e1, e2⟩ := h
  refine ⟨pkg, fileId, name, _, fun _ => es, hn, hf, honly, fun g hg => ?_, by simp, e1, by simpa using e2⟩
  cases List.mem_singleton.mp hg
  exact .handler hctx han

/-! ### Non-vacuity -/

/-- The function `Routes` (line 5) registers two function literals in one line (6): the first reads a query parameter, the second sends a response. The function
`Short` registers a literal that reads the query parameter in its only line (9). -/
def lineFunc (f : FuncId) : FuncInfo :=
  match f with
  | 0 => { params := fun _ => ctxParams, body := [.call 0 []] }
  | 1 => { params := fun _ => ctxParams, body := [.call 2 [.other []]] }
  | 2 => { params := fun _ => [], doc := some c!"Routes.\n" }
  | 3 => { params := fun _ => [], doc := some c!"Short.\n" }
  | _ => {}

def lineRoutes : RouteEnv where
  prog := { demo with funcs := lineFunc }
  loadable p := p = c!"example.com/shop"
  fileOf _ f := if f = c!"shop.go" then some 0 else none
  decls _ := [⟨c!"Routes", 5, 2, [.mk 6 0 [], .mk 6 1 []]⟩, ⟨c!"Short", 9, 3, [.mk 9 0 []]⟩]
  lowerCamel s := s

def lineLib : Lib :=
  { routerLib with parse := fun _ cs r => match parseRoute lineRoutes 2 cs r with | some x => x | none => (cs, .err []) }

theorem lineLib_byModel : ByModel lineLib (fun _ => lineRoutes) := by
  refine ⟨fun _ f hf => (by cases hf), fun ctx cs r cs' r' h => ⟨2, ?_⟩⟩
  have h : (match parseRoute lineRoutes 2 cs r with | some x => x | none => (cs, .err [])) = (cs', .ok r') := h
  cases hp : parseRoute lineRoutes 2 cs r with
  | none => rw [hp] at h; cases h
  | some x => rw [hp] at h; rw [show x = _ from h]

def lineInfos : List RouteInfo :=
  [⟨c!"GET", c!"/a", c!"example.com/shop.Routes.func1", c!"shop.go", 6⟩, ⟨c!"GET", c!"/b", c!"example.com/shop.Routes.func2", c!"shop.go", 6⟩,
    ⟨c!"GET", c!"/c", c!"example.com/shop.Short.func1", c!"shop.go", 9⟩]

def lineWorld : World Proc :=
  { fs := [([c!"w"], .dir), ([c!"w", c!"main.go"], .file c!"package main"), ([c!"w", c!"go.mod"], .file c!"module m\n")], cwd := [c!"w"]
    st := { svc := newService [.workDir c!"/w", .ginInput (some lineInfos), .openApiOutput c!"api.json",
      .config (some { title := c!"t", host := c!"localhost", port := 8000, basePath := c!"/" })] } }

def idEntry : Entry := { queryParams := [{ name := c!"id", field := { type := c!"string" } }] }
def okEntry : Entry := { responses := [{ statusCode := 200, contentType := c!"application/json", field := { type := c!"string" } }] }

theorem line_contributes : Contributes lineRoutes.prog 0 0 [idEntry] ∧ Contributes lineRoutes.prog 0 1 [okEntry] ∧ Contributes lineRoutes.prog 0 3 [] := by
  have hq : Documented lineRoutes.prog.types (lineRoutes.prog.filePkg 0) (lineRoutes.prog.view 0 0).args c!"Query" idEntry := .query (by simp) ⟨_, rfl, rfl⟩
  have hn0 : ¬ PassesContext (lineRoutes.prog.view 0 0) c!"c" := by
    rintro ⟨a, ha, hi⟩
    simp only [lineRoutes, demo, demoCall, List.mem_singleton] at ha
    subst ha; cases hi
  have hn2 : ¬ PassesContext (lineRoutes.prog.view 0 2) c!"c" := by
    rintro ⟨a, ha, hi⟩
    simp only [lineRoutes, demo, demoCall, jsonArgs, List.mem_cons, List.not_mem_nil, or_false] at ha
    rcases ha with rfl | rfl <;> cases hi
  have hl : ∀ call, AllLeave lineRoutes.prog c!"c" call := by intro call f hf; cases hf
  have hother : AnalysedTo lineRoutes.prog 0 c!"c" true [.other []] [] true := .other (es := []) (es' := []) .nil .nil
  exact ⟨.handler ((context_parameter_found _ 0 0 c!"c" (by decide)).1 rfl) ⟨_, .context (es := []) (es' := []) (hl _) hn0 rfl hq .nil .nil⟩,
    .handler ((context_parameter_found _ 1 0 c!"c" (by decide)).1 rfl) ⟨_, .context (es := []) (es' := []) (hl _) hn2 rfl demo_json hother .nil⟩,
    .noContext (fun p hp => by cases hp)⟩

/-- At line 6 both literals are seen, whichever of them is the handler. -/
theorem line_view_two (handler : Str) (h : GoFunctionName handler c!"example.com/shop" c!"Routes") :
    LineView lineRoutes handler c!"shop.go" 6 [] [] [idEntry, okEntry] := by
  refine ⟨c!"example.com/shop", 0, c!"Routes", [(0, false), (1, false)], fun f => if f = 0 then [idEntry] else [okEntry], h, rfl, by decide +kernel, ?_, rfl, rfl, rfl⟩
  intro f hf
  simp only [List.mem_cons, List.not_mem_nil, or_false] at hf
  rcases hf with rfl | rfl
  · exact line_contributes.1
  · exact line_contributes.2.1

/-- At line 9 the function around the literal is seen, not the literal. -/
theorem line_view_short : LineView lineRoutes c!"example.com/shop.Short.func1" c!"shop.go" 9 c!"Short." c!"Short" [] := by
  refine ⟨c!"example.com/shop", 0, c!"Short", [(3, true)], fun _ => [],
    ⟨c!"shop", c!"Short.func1", Or.inr ⟨c!"example.com", rfl⟩, by decide, by decide, rfl, by decide, by decide, Or.inr ⟨c!"func1", rfl⟩⟩, rfl, by decide +kernel, ?_, rfl,
    by decide, rfl⟩
  intro f hf
  cases List.mem_singleton.mp hf
  exact line_contributes.2.2

/-- C106 is false of the program. The run succeeds. Only the handlers of `/a` and `/c` read the query parameter, only the handler of `/b` sends a response, and no
handler has a name; the file has the parameter at `/a` and `/b` and not at `/c`, the response at `/a` and `/b`, and the name and comment of `Short` at `/c`. -/
theorem one_line_handlers_merged :
    (Astra.parseAll lineLib c!"/w" noFaults lineWorld).2 = .ok () ∧
    ∃ doc opA opB opC, (Astra.parseAll lineLib c!"/w" noFaults lineWorld).1.fs.look [c!"w", c!"api.json"] = some (.file (docText doc)) ∧
      Document.operation doc c!"/a" c!"GET" = some opA ∧ Document.operation doc c!"/b" c!"GET" = some opB ∧ Document.operation doc c!"/c" c!"GET" = some opC ∧
      (∀ op ∈ [opA, opB], (∃ o ∈ op.parameters, o.name = c!"id" ∧ o.loc = c!"query") ∧ c!"200" ∈ mkeys op.responses) ∧
      (∀ o ∈ opC.parameters, o.name ≠ c!"id" ∨ o.loc ≠ c!"query") ∧ opC.operationId = c!"Short" ∧ opC.description = c!"Short." := by
  have hok : (Astra.parseAll lineLib c!"/w" noFaults lineWorld).2 = .ok () := by decide +kernel
  refine ⟨hok, ?_⟩
  have hplace : OwnPlace [c!"w"] [c!"w"] lineWorld.st.svc [] [c!"w", c!"api.json"] :=
    ⟨by decide, (by rintro ⟨h, _⟩; cases h), (by intro o ho; cases ho)⟩
  obtain ⟨doc, text, h1, h2, h3⟩ := run_documents_line lineLib (fun _ => lineRoutes) lineLib_byModel (fun _ => False)
    (fun _ _ _ => ⟨fun _ _ => rfl, id, rfl, rfl, rfl, rfl, rfl, rfl, rfl, rfl⟩) (fun _ => someChoice_valid) c!"/w" noFaults
    lineWorld _ [c!"w"] (Or.inr (by decide)) (by decide) (properNames_of (by decide)) (by decide) [lineInfos] (ginInput_one rfl) rfl
    (by show (List.map _ (allowed _ _)).Nodup; decide +kernel)
    [] [] _ rfl (options_shape _).2 (by intro b hb; cases hb) 0 rfl [c!"w", c!"api.json"] (show [c!"w", c!"api.json"] = _ by decide) hplace id
    (pair_ok hok)
  have hal : allowed lineWorld.st.svc.denyList [lineInfos].flatten = lineInfos := by
    show [lineInfos].flatten.filter _ = _
    rfl
  have huniq : ∀ i ∈ lineInfos, ∀ j ∈ lineInfos, openapiPath j.path = openapiPath i.path → j.method = i.method → j = i := by decide +kernel
  have hmeth : ∀ i ∈ lineInfos, i.method ∈ documentedMethods := by decide +kernel
  have hfile : ∀ i ∈ lineInfos, i.file = c!"shop.go" := by decide +kernel
  have key : ∀ i ∈ lineInfos, ∀ comment id es, LineView lineRoutes i.handler c!"shop.go" i.line comment id es →
      ∃ op, Document.operation doc (openapiPath i.path) i.method = some op ∧ op.description = comment ∧ op.operationId = id ∧
        (∀ e ∈ es, Shows op e) ∧ ShowsOnly op i.path es := by
    intro i hi comment id es hv
    obtain ⟨relative, mains, hrel, _, h4⟩ := h3 i (by rw [hal]; exact hi) (hmeth i hi) (by rw [hal]; exact huniq i hi)
    have hrel' : relative = i.file := by cases hrel; rfl
    rw [hrel', hfile i hi] at h4
    exact h4 comment id es (fun _ _ => hv)
  have hn : ∀ t, '/' ∉ t → GoFunctionName (c!"example.com/shop.Routes." ++ t) c!"example.com/shop" c!"Routes" := fun t ht =>
    ⟨c!"shop", c!"Routes." ++ t, Or.inr ⟨c!"example.com", rfl⟩, by decide, by decide, rfl, by simpa using ht, by decide, Or.inr ⟨t, rfl⟩⟩
  obtain ⟨opA, a1, _, _, a2, _⟩ := key _ List.mem_cons_self _ _ _ (line_view_two _ (hn c!"func1" (by decide)))
  obtain ⟨opB, b1, _, _, b2, _⟩ := key _ (List.mem_cons_of_mem _ List.mem_cons_self) _ _ _ (line_view_two _ (hn c!"func2" (by decide)))
  obtain ⟨opC, c1, c2, c3, _, c4⟩ := key _ (List.mem_cons_of_mem _ (List.mem_cons_of_mem _ List.mem_cons_self)) _ _ _ line_view_short
  have shows : ∀ op : Operation, (∀ e ∈ [idEntry, okEntry], Shows op e) → (∃ o ∈ op.parameters, o.name = c!"id" ∧ o.loc = c!"query") ∧ c!"200" ∈ mkeys op.responses := by
    intro op h
    obtain ⟨o, ho, e1, e2, _⟩ := (h idEntry List.mem_cons_self).query { name := c!"id", field := { type := c!"string" } } List.mem_cons_self rfl
    have := (h okEntry (List.mem_cons_of_mem _ List.mem_cons_self)).responses _ List.mem_cons_self
    exact ⟨⟨o, ho, e1, e2⟩, by rw [show c!"200" = itoa 200 by decide]; exact this⟩
  refine ⟨doc, opA, opB, opC, ?_, a1, b1, c1, ?_, ?_, c3, c2⟩
  · rw [h1]
    have : Except.ok (docText doc) = Except.ok text := h2
    cases this
    rfl
  · intro op hop
    simp only [List.mem_cons, List.not_mem_nil, or_false] at hop
    rcases hop with rfl | rfl
    · exact shows _ a2
    · exact shows _ b2
  · intro o ho
    by_cases hl : o.loc = c!"query"
    · obtain ⟨e, he, _⟩ := c4.query o ho hl
      cases he
    · exact Or.inr hl

end Astra.Props
