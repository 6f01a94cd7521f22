/-
C83: what a handler does with the context is in the OpenAPI document of the run.
-/
import Verif.Spec.HandlerDoc
import Verif.Props.EndToEnd
import Verif.Props.HandlerPath
import Verif.Props.Paths
import Verif.Props.SafePushing

namespace Astra.Props
open Astra.Spec

/-! ### The function at the line of the route -/

mutual
theorem analyseLit_none (E : RouteEnv) (k : Nat) (file : FileId) : ∀ (l : Lit) (comps : List Field) (route : Route), litAt route.lineNo l = [] →
    analyseLit E k file l comps route = some (comps, .ok route)
  | .mk line f inner, comps, route, h => by
    by_cases hl : route.lineNo = line
    · simp [litAt, hl] at h
    · simp only [litAt, if_neg hl] at h
      simp only [analyseLit, if_neg hl]
      exact analyseLits_none E k file inner comps route h
theorem analyseLits_none (E : RouteEnv) (k : Nat) (file : FileId) : ∀ (ls : List Lit) (comps : List Field) (route : Route), litsAt route.lineNo ls = [] →
    analyseLits E k file ls comps route = some (comps, .ok route)
  | [], comps, route, _ => by simp only [analyseLits]
  | l :: ls, comps, route, h => by
    simp only [litsAt, List.append_eq_nil_iff] at h
    simp only [analyseLits, analyseLit_none E k file l comps route h.1]
    exact analyseLits_none E k file ls comps route h.2
end

/-- A possible outcome of the analysis with some fuel: it does not end, or it ends with this route. -/
def EndsWith (o : ROut) (route : Route) : Prop := o = none ∨ ∃ c, o = some (c, .ok route)

mutual
theorem analyseLit_one (E : RouteEnv) (k : Nat) (file : FileId) (f : FuncId) (comps : List Field) (route route' : Route)
    (hA : EndsWith (analyse E k file f comps route) route') (hl : route'.lineNo = route.lineNo) :
    ∀ l, litAt route.lineNo l = [f] → analyseLit E k file l comps route = analyse E k file f comps route
  | .mk line g inner, h => by
    by_cases e : route.lineNo = line
    · rw [litAt, if_pos e] at h
      cases h
      rw [analyseLit, if_pos e]
    · rw [litAt, if_neg e] at h
      rw [analyseLit, if_neg e]
      exact analyseLits_one E k file f comps route route' hA hl inner h
theorem analyseLits_one (E : RouteEnv) (k : Nat) (file : FileId) (f : FuncId) (comps : List Field) (route route' : Route)
    (hA : EndsWith (analyse E k file f comps route) route') (hl : route'.lineNo = route.lineNo) :
    ∀ ls, litsAt route.lineNo ls = [f] → analyseLits E k file ls comps route = analyse E k file f comps route
  | [], h => by simp [litsAt] at h
  | l :: ls, h => by
    rw [litsAt, List.append_eq_cons_iff] at h
    rcases h with ⟨h1, h2⟩ | ⟨t, h1, h2⟩
    · rw [analyseLits, analyseLit_none E k file l comps route h1]
      exact analyseLits_one E k file f comps route route' hA hl ls h2
    · obtain ⟨rfl, h3⟩ := List.append_eq_nil_iff.mp h2.symm
      rw [analyseLits, analyseLit_one E k file f comps route route' hA hl l h1]
      rcases hA with hA | ⟨c, hA⟩
      · rw [hA]
      · rw [hA]
        exact analyseLits_none E k file ls c route' (by rw [hl]; exact h3)
end

theorem analyseDecls_none (E : RouteEnv) (k : Nat) (file : FileId) (name : Str) : ∀ (ds : List FuncDecl) (comps : List Field) (route : Route),
    functionsAt name route.lineNo ds = [] → analyseDecls E k file name ds comps route = some (comps, .ok route)
  | [], comps, route, _ => rfl
  | d :: ds, comps, route, h => by
    rw [functionsAt, List.flatMap_cons, List.append_eq_nil_iff] at h
    have hd : analyseDecl E k file name d comps route = some (comps, .ok route) := by
      unfold analyseDecl
      by_cases hn : d.name = name
      · rw [if_pos hn]
        rw [if_pos hn] at h
        by_cases hl : route.lineNo = d.line
        · rw [if_pos hl] at h; cases h.1
        · rw [if_pos hl]
          rw [if_neg hl, List.map_eq_nil_iff] at h
          exact analyseLits_none E k file _ comps route h.1
      · rw [if_neg hn]
    rw [analyseDecls, hd]
    exact analyseDecls_none E k file name ds comps route h.2

/-- The route that the function is analysed for. -/
def startRoute (E : RouteEnv) (name : Str) (named : Bool) (route : Route) : Route :=
  if named then { route with operationId := E.lowerCamel name } else route

theorem analyseDecls_one (E : RouteEnv) (k : Nat) (file : FileId) (name : Str) (f : FuncId) (named : Bool) (comps : List Field) (route route' : Route)
    (hA : EndsWith (analyse E k file f comps (startRoute E name named route)) route') (hl : route'.lineNo = route.lineNo) :
    ∀ ds, functionsAt name route.lineNo ds = [(f, named)] →
      analyseDecls E k file name ds comps route = analyse E k file f comps (startRoute E name named route)
  | [], h => by simp [functionsAt] at h
  | d :: ds, h => by
    rw [functionsAt, List.flatMap_cons, List.append_eq_cons_iff] at h
    rcases h with ⟨h1, h2⟩ | ⟨t, h1, h2⟩
    · have := analyseDecls_none E k file name [d] comps route (by simpa [functionsAt] using h1)
      have hd : analyseDecl E k file name d comps route = some (comps, .ok route) := by
        rw [analyseDecls] at this
        cases hx : analyseDecl E k file name d comps route with
        | none => rw [hx] at this; cases this
        | some x =>
          obtain ⟨c, r⟩ := x
          rw [hx] at this
          cases r with
          | ok r => simpa only [analyseDecls] using this
          | err e => simp at this
          | panic m => simp at this
      rw [analyseDecls, hd]
      exact analyseDecls_one E k file name f named comps route route' hA hl ds h2
    · obtain ⟨rfl, h3⟩ := List.append_eq_nil_iff.mp h2.symm
      have hd : analyseDecl E k file name d comps route = analyse E k file f comps (startRoute E name named route) := by
        unfold analyseDecl
        by_cases hn : d.name = name
        · rw [if_pos hn]
          rw [if_pos hn] at h1
          by_cases hline : route.lineNo = d.line
          · rw [if_pos hline] at h1
            cases h1
            rw [if_neg (by simpa using hline)]
            rfl
          · rw [if_neg hline] at h1
            rw [if_pos hline]
            obtain ⟨g, e1, e2⟩ : ∃ g, litsAt route.lineNo d.lits = [g] ∧ (g, false) = (f, named) := by
              cases hls : litsAt route.lineNo d.lits with
              | nil => rw [hls] at h1; cases h1
              | cons g gs =>
                rw [hls, List.map_cons, List.cons.injEq, List.map_eq_nil_iff] at h1
                exact ⟨g, by rw [h1.2], h1.1⟩
            cases e2
            exact analyseLits_one E k file _ comps route route' hA hl d.lits e1
        · rw [if_neg hn] at h1
          cases h1
      rw [analyseDecls, hd]
      rcases hA with hA | ⟨c, hA⟩
      · rw [hA]
      · rw [hA]
        exact analyseDecls_none E k file name ds c route' (by rw [hl]; exact h3)

/-! ### The route after the analysis -/

/-- The route with the contributions of all calls. -/
abbrev withEntries (es : List Entry) (r : Route) : Route := es.foldl (fun r e => e.addTo r) r

theorem withEntries_identity (es : List Entry) : ∀ r : Route, (withEntries es r).lineNo = r.lineNo ∧ (withEntries es r).doc = r.doc ∧
    (withEntries es r).operationId = r.operationId ∧
    (withEntries es r).pathParams = r.pathParams ++ es.flatMap (·.pathParams) ∧
    (withEntries es r).queryParams = r.queryParams ++ es.flatMap (·.queryParams) ∧
    (withEntries es r).requestHeaders = r.requestHeaders ++ es.flatMap (·.requestHeaders) ∧
    (withEntries es r).body = r.body ++ es.flatMap (·.body) ∧
    (withEntries es r).responseHeaders = r.responseHeaders ++ es.flatMap (·.responseHeaders) := by
  induction es with
  | nil => intro r; simp [withEntries]
  | cons e es ih =>
    intro r
    obtain ⟨h1, h2, h3, h4, h5, h6, h7, h8⟩ := ih (e.addTo r)
    have : withEntries (e :: es) r = withEntries es (e.addTo r) := rfl
    rw [this, h1, h2, h3, h4, h5, h6, h7, h8]
    simp [Entry.addTo, List.append_assoc]

theorem addReturnType_from (prev n : List ReturnType) : ∀ y ∈ addReturnType prev n, y ∈ prev ∨ y ∈ n := by
  unfold addReturnType
  induction n generalizing prev with
  | nil => intro y hy; exact Or.inl hy
  | cons a n ih =>
    intro y hy
    rcases ih _ y hy with h | h
    · unfold addReturnType1 at h
      split at h
      · rcases List.mem_append.mp h with h | h
        · exact Or.inl h
        · simp only [List.mem_singleton] at h; subst h; exact Or.inr (by simp)
      · split at h
        · rcases List.mem_append.mp h with h | h
          · exact Or.inl h
          · simp only [List.mem_singleton] at h; subst h; exact Or.inr (by simp)
        · exact Or.inl h
    · exact Or.inr (List.mem_cons_of_mem _ h)

theorem withEntries_responses (es : List Entry) : ∀ r : Route,
    r.returnTypes <+: (withEntries es r).returnTypes ∧
    (∀ e ∈ es, ∀ rt ∈ e.responses, ∃ y ∈ (withEntries es r).returnTypes, y.statusCode = rt.statusCode ∧ y.contentType = rt.contentType) ∧
    (∀ y ∈ (withEntries es r).returnTypes, y ∈ r.returnTypes ∨ ∃ e ∈ es, y ∈ e.responses) := by
  induction es with
  | nil => intro r; exact ⟨List.prefix_refl _, by simp, fun y hy => Or.inl hy⟩
  | cons e es ih =>
    intro r
    obtain ⟨h1, h2, h3⟩ := ih (e.addTo r)
    have hrec : (e.addTo r).returnTypes = addReturnType r.returnTypes e.responses := record_eq _ _
    obtain ⟨k1, k2⟩ := addReturnType_keeps_and_adds_partial r.returnTypes e.responses
    rw [← hrec] at k1 k2
    refine ⟨k1.trans h1, ?_, ?_⟩
    · intro e' he' rt hrt
      rcases List.mem_cons.mp he' with rfl | he'
      · obtain ⟨y, hy, hk⟩ := k2 rt hrt
        exact ⟨y, h1.subset hy, by unfold rtKey at hk; simp only [Prod.mk.injEq] at hk; exact hk.2.2⟩
      · exact h2 e' he' rt hrt
    · intro y hy
      rcases h3 y hy with h | ⟨e', he', h⟩
      · rcases addReturnType_from _ _ y (hrec ▸ h) with h | h
        · exact Or.inl h
        · exact Or.inr ⟨e, by simp, h⟩
      · exact Or.inr ⟨e', List.mem_cons_of_mem _ he', h⟩

/-- What is reported is success or an error. -/
theorem reported_cases {b : Bool} {out : Route} {res : Res Unit} (h : Reported b out res) : res = .ok () ∨ ∃ m, res = .err m := by
  unfold Reported at h
  split at h
  · split at h
    · exact Or.inr ⟨_, h⟩
    · exact Or.inl h
  · exact Or.inr h

/-- The route that the analysis of a handler ends with: that of the router, with the path parameters, the operation id and
documentation of the handler, and the contributions of all context calls in source order. -/
theorem own_analysis_of_handler {E : RouteEnv} {k : Nat} {r r' : Route} (h : OwnAnalysis E k r r')
    {file : FileId} {name : Str} {f : FuncId} {named : Bool} (hh : HandlerIs E r.handler r.file r.lineNo file name f named)
    {ctx : Str} {es : List Entry} (hctx : ContextParam E.prog f file ctx) (han : Analysed E.prog file ctx (E.prog.funcs f).body es) :
    r' = withEntries es { r with pathParams := extractParams r.path, operationId := if named then E.lowerCamel name else r.operationId, doc := docOf E.prog f r.doc } := by
  obtain ⟨c, h⟩ := h
  obtain ⟨pkg, hname, hfile⟩ := hh.inFile
  obtain ⟨hn1, hn2⟩ := split_function_name hname
  rw [← hn1] at hfile
  simp only [parseRoute, hn2, hfile] at h
  cases hpk : (splitHandlerPath r.handler).packageName with
  | panic m => simp [hpk] at h
  | err m => simp [hpk] at h
  | ok p =>
    simp only [hpk] at h
    split at h
    · simp at h
    · split at h
      · simp at h
      · have hA : ∀ comps, EndsWith (analyse E k file f comps (startRoute E name named { r with pathParams := extractParams r.path }))
            (withEntries es { r with pathParams := extractParams r.path, operationId := if named then E.lowerCamel name else r.operationId, doc := docOf E.prog f r.doc }) := by
          intro comps
          obtain ⟨bb, han⟩ := han
          obtain ⟨comps', out, res, _, hout, hrep, hends⟩ := handler_source_order E.prog f file ctx es bb hctx han comps
            (startRoute E name named { r with pathParams := extractParams r.path })
          have hout' : out = withEntries es { r with pathParams := extractParams r.path, operationId := if named then E.lowerCamel name else r.operationId, doc := docOf E.prog f r.doc } := by
            rw [hout]; cases named <;> rfl
          unfold analyse
          cases hp : parseFunction E.prog k comps (startRoute E name named { r with pathParams := extractParams r.path }) f file with
          | none => exact Or.inl rfl
          | some x =>
            have := ends_unique ⟨k, hp⟩ hends
            subst this
            refine Or.inr ⟨comps', ?_⟩
            rw [← hout']
            rcases reported_cases hrep with rfl | ⟨m, rfl⟩ <;> rfl
        have hd := analyseDecls_one E k file name f named [] { r with pathParams := extractParams r.path } _ (hA [])
          (withEntries_identity es _).1 (E.decls file) hh.only
        rw [hd] at h
        rcases hA [] with e | ⟨c', e⟩
        · rw [e] at h; cases h
        · rw [e] at h; cases h; rfl

/-! ### What the calls contribute -/

theorem documented_unbound {Γ : TypeEnv} {pkg : Str} {args : List ArgView} {m : Str} {e : Entry} (h : Documented Γ pkg args m e) :
    (∀ p ∈ e.queryParams, p.isBound = false → p.field = { type := c!"string" }) ∧
    (∀ p ∈ e.requestHeaders, p.isBound = false → p.field = { type := c!"string" }) ∧
    (∀ p ∈ e.responseHeaders, p.isBound = false → p.field = { type := c!"string" }) ∧
    (∀ p ∈ e.body, p.isBound = false → p.field = { type := c!"string" } ∨ p.field = { type := c!"file" }) := by
  cases h <;> simp

theorem analysed_unbound {P : Prog} {file : FileId} {ctx : Str} {ns : List Node} {es : List Entry} (h : Analysed P file ctx ns es) : ∀ e ∈ es,
    (∀ p ∈ e.queryParams, p.isBound = false → p.field = { type := c!"string" }) ∧
    (∀ p ∈ e.requestHeaders, p.isBound = false → p.field = { type := c!"string" }) ∧
    (∀ p ∈ e.responseHeaders, p.isBound = false → p.field = { type := c!"string" }) ∧
    (∀ p ∈ e.body, p.isBound = false → p.field = { type := c!"string" } ∨ p.field = { type := c!"file" }) := by
  obtain ⟨b, h⟩ := h
  generalize true = b0 at h
  induction h with
  | nil => intro e he; cases he
  | unresolved _ _ _ _ ih | lost _ _ _ _ _ ih | noContext _ _ _ _ _ _ ih => exact ih
  | brokenHelper _ _ _ _ _ _ _ ih0 ih => intro e he; rcases List.mem_append.mp he with he | he; exact ih0 e he; exact ih e he
  | other _ _ ih1 ih2 => intro e he; rcases List.mem_append.mp he with he | he; exact ih1 e he; exact ih2 e he
  | custom _ hs _ _ ih1 ih2 =>
    intro e he
    rcases List.mem_cons.mp he with rfl | he
    · exact ⟨hs.query, hs.header, hs.responseHeader, hs.body⟩
    · rcases List.mem_append.mp he with he | he
      · exact ih1 e he
      · exact ih2 e he
  | helper _ _ _ _ _ _ _ ih0 ih1 ih2 =>
    intro e he
    rcases List.mem_append.mp he with he | he
    · exact ih0 e he
    · rcases List.mem_append.mp he with he | he
      · exact ih1 e he
      · exact ih2 e he
  | plain _ _ _ _ _ ih1 ih2 => intro e he; rcases List.mem_append.mp he with he | he; exact ih1 e he; exact ih2 e he
  | unsupported _ _ _ _ _ _ ih1 ih2 => intro e he; rcases List.mem_append.mp he with he | he; exact ih1 e he; exact ih2 e he
  | context _ _ _ hd _ _ ih1 ih2 =>
    intro e he
    rcases List.mem_cons.mp he with rfl | he
    · exact documented_unbound hd
    · rcases List.mem_append.mp he with he | he
      · exact ih1 e he
      · exact ih2 e he

theorem clean_leaf (m t : Str) (h : aget substituteTypes (qualifiedName { type := t }) = none) : (cleanField m { type := t }).type = t := by
  simp only [cleanField, handleSubstituteTypes, h, renameMain, if_pos]

theorem string_param_schema (E : SchemaEnv) (b : BTag) (p : Param) (hb : p.isBound = false) (hf : p.field.type = c!"string") :
    mapParamToSchema E b p = some (stringSchema p) := by
  have ha : isAcceptedType p.field.type = true := by rw [hf]; decide
  have hm : mapPredefined p.field.type = { type := c!"string" } := by rw [hf]; decide +kernel
  unfold mapParamToSchema stringSchema
  simp only [hb, ha, hm, Bool.false_eq_true, if_false]
  cases p.isArray <;> cases p.isMap <;> simp

/-! ### The operation -/

theorem queryDoc_shape (n : Str) (b : Bool) (s : Schema) : (queryDoc n b s).name = n ∧ (queryDoc n b s).loc = c!"query" ∧ (queryDoc n b s).schema = s := by
  unfold queryDoc
  split <;> exact ⟨rfl, rfl, rfl⟩

/-- The route after `n` analyses of its handler: the contributions of its calls, `n` times; those to the path and the responses once. -/
structure Gathered (es : List Entry) (path : Str) (n : Nat) (R : Route) : Prop where
  responses : 0 < n → ∀ e ∈ es, ∀ rt ∈ e.responses, ∃ y ∈ R.returnTypes, y.statusCode = rt.statusCode ∧ y.contentType = rt.contentType
  source : ∀ y ∈ R.returnTypes, ∃ e ∈ es, y ∈ e.responses
  path : 0 < n → R.pathParams = extractParams path ++ es.flatMap (·.pathParams)
  query : R.queryParams = (List.replicate n (es.flatMap (·.queryParams))).flatten
  header : R.requestHeaders = (List.replicate n (es.flatMap (·.requestHeaders))).flatten
  body : R.body = (List.replicate n (es.flatMap (·.body))).flatten
  rheader : R.responseHeaders = (List.replicate n (es.flatMap (·.responseHeaders))).flatten

theorem mem_copies {α : Type} {n : Nat} {l : List α} {p : α} : p ∈ (List.replicate (n + 1) l).flatten ↔ p ∈ l := by
  simp

theorem Gathered.mem_query {es : List Entry} {path : Str} {n : Nat} {R : Route} (G : Gathered es path (n + 1) R) {p : Param} :
    p ∈ R.queryParams ↔ ∃ e ∈ es, p ∈ e.queryParams := by rw [G.query, mem_copies, List.mem_flatMap]
theorem Gathered.mem_header {es : List Entry} {path : Str} {n : Nat} {R : Route} (G : Gathered es path (n + 1) R) {p : Param} :
    p ∈ R.requestHeaders ↔ ∃ e ∈ es, p ∈ e.requestHeaders := by rw [G.header, mem_copies, List.mem_flatMap]
theorem Gathered.mem_body {es : List Entry} {path : Str} {n : Nat} {R : Route} (G : Gathered es path (n + 1) R) {p : BodyParam} :
    p ∈ R.body ↔ ∃ e ∈ es, p ∈ e.body := by rw [G.body, mem_copies, List.mem_flatMap]
theorem Gathered.mem_rheader {es : List Entry} {path : Str} {n : Nat} {R : Route} (G : Gathered es path (n + 1) R) {p : Param} :
    p ∈ R.responseHeaders ↔ ∃ e ∈ es, p ∈ e.responseHeaders := by rw [G.rheader, mem_copies, List.mem_flatMap]

theorem copies_succ {α : Type} (n : Nat) (l : List α) : (List.replicate n l).flatten ++ l = (List.replicate (n + 1) l).flatten := by
  rw [List.replicate_succ', List.flatten_append]
  simp

theorem withEntries_place (es : List Entry) : ∀ r : Route, (withEntries es r).handler = r.handler ∧ (withEntries es r).file = r.file ∧
    (withEntries es r).path = r.path := by
  induction es with
  | nil => intro r; exact ⟨rfl, rfl, rfl⟩
  | cons e es ih => intro r; exact ih (e.addTo r)

/-- The state of a route after some analyses of the handler, all with the same view of it. -/
structure Stage (handler file : Str) (line : Int) (path comment id : Str) (es : List Entry) (n : Nat) (r : Route) : Prop where
  handler : r.handler = handler
  file : r.file = file
  line : r.lineNo = line
  rpath : r.path = path
  doc : r.doc = comment ∨ n = 0 ∧ r.doc = []
  oid : r.operationId = id ∨ n = 0 ∧ r.operationId = []
  gathered : Gathered es path n r

theorem stage_step {E : RouteEnv} {handler file : Str} {line : Int} {path comment id : Str} {es : List Entry}
    {n k : Nat} {r r' : Route} (S : Stage handler file line path comment id es n r) (hv : HandlerView E handler file line comment id es)
    (h : OwnAnalysis E k r r') : Stage handler file line path comment id es (n + 1) r' := by
  obtain ⟨fileId, name, f, named, ctx, hh, hctx, han, e1, e2⟩ := hv
  have e := own_analysis_of_handler h (by rw [S.handler, S.file, S.line]; exact hh) hctx han
  obtain ⟨w1, w2, w3, w4, w5, w6, w7, w8⟩ := withEntries_identity es
    { r with pathParams := extractParams r.path, operationId := if named then E.lowerCamel name else r.operationId, doc := docOf E.prog f r.doc }
  obtain ⟨x1, x2, x3⟩ := withEntries_responses es
    { r with pathParams := extractParams r.path, operationId := if named then E.lowerCamel name else r.operationId, doc := docOf E.prog f r.doc }
  obtain ⟨p1, p2, p3⟩ := withEntries_place es
    { r with pathParams := extractParams r.path, operationId := if named then E.lowerCamel name else r.operationId, doc := docOf E.prog f r.doc }
  rw [← e] at w1 w2 w3 w4 w5 w6 w7 w8 x1 x2 x3 p1 p2 p3
  have G := S.gathered
  have hd : docOf E.prog f r.doc = comment := by
    rcases S.doc with hd | ⟨_, hd⟩
    · rw [hd, e1]
      unfold docOf
      cases (E.prog.funcs f).doc with
      | none => rfl
      | some d => by_cases hf : commentText d = [] <;> simp [hf]
    · rw [hd, e1]
  have hi : (if named then E.lowerCamel name else r.operationId) = id := by
    cases named with
    | true => exact e2.symm
    | false =>
      simp only [Bool.false_eq_true, if_false] at e2 ⊢
      rcases S.oid with hi | ⟨_, hi⟩
      · exact hi
      · rw [hi, e2]
  refine ⟨p1.trans S.handler, p2.trans S.file, w1.trans S.line, p3.trans S.rpath, Or.inl (w2.trans hd), Or.inl (w3.trans hi), ?_, ?_, ?_, ?_, ?_, ?_, ?_⟩
  · intro _; exact x2
  · intro y hy
    rcases x3 y hy with h | h
    · exact G.source y h
    · exact h
  · intro _; rw [w4, S.rpath]
  · rw [w5, G.query]; exact copies_succ _ _
  · rw [w6, G.header]; exact copies_succ _ _
  · rw [w7, G.body]; exact copies_succ _ _
  · rw [w8, G.rheader]; exact copies_succ _ _

theorem stage_steps {E : Str → RouteEnv} {handler file : Str} {line : Int} {path comment id : Str}
    {es : List Entry} {mains : List Str} {r r' : Route} (h : OwnAnalyses E mains r r') : ∀ n, Stage handler file line path comment id es n r →
    (∀ m ∈ mains, HandlerView (E m) handler file line comment id es) → Stage handler file line path comment id es (n + mains.length) r' := by
  induction h with
  | none => intro n S _; exact S
  | again h1 _ ih =>
    intro n S hv
    have := ih (n + 1) (stage_step S (hv _ (by simp)) h1) (fun m hm => hv m (List.mem_cons_of_mem _ hm))
    rw [List.length_cons, Nat.add_comm _ 1, ← Nat.add_assoc]
    exact this

theorem document_shows (SE : SchemaEnv) (cs : List Field) (ch : RouteChoice) (hch : ValidChoice ch) (m : Str) (es : List Entry) (path : Str)
    (n : Nat) (R : Route) (G : Gathered es path (n + 1) R)
    (hes : ∀ e ∈ es, (∀ p ∈ e.queryParams, p.isBound = false → p.field = { type := c!"string" }) ∧
      (∀ p ∈ e.requestHeaders, p.isBound = false → p.field = { type := c!"string" }) ∧
      (∀ p ∈ e.responseHeaders, p.isBound = false → p.field = { type := c!"string" }) ∧
      (∀ p ∈ e.body, p.isBound = false → p.field = { type := c!"string" } ∨ p.field = { type := c!"file" })) :
    (∀ e ∈ es, Shows (operationOf SE cs ch (cleanRoute m R)) e) ∧
      ShowsOnly (operationOf SE cs ch (cleanRoute m R)) path es := by
  have i4 := G.path (Nat.succ_pos n)
  have i5 := fun p => G.mem_query (p := p)
  have i6 := fun p => G.mem_header (p := p)
  have i7 := fun p => G.mem_body (p := p)
  have i8 := fun p => G.mem_rheader (p := p)
  have w2 := G.responses (Nat.succ_pos n)
  have w3 := G.source
  have codes := (responses_exact_partial SE cs ch (cleanRoute m R)).1
  have params := (parameters_sorted_complete SE cs ch hch (cleanRoute m R)).2
  have headers := responses_carry_headers SE cs ch (cleanRoute m R)
  have body := (request_body_exact SE cs ch (cleanRoute m R))
  have hstr : (cleanField m { type := c!"string" }).type = c!"string" := clean_leaf m _ (by decide)
  have hfile : (cleanField m { type := c!"file" }).type = c!"file" := clean_leaf m _ (by decide)
  constructor
  · intro e he
    obtain ⟨p1, p2, p3, p4⟩ := hes e he
    constructor
    · intro rt hrt
      obtain ⟨y, hy, hc, _⟩ := w2 e he rt hrt
      exact (codes _).2 ⟨_, List.mem_map.mpr ⟨y, hy, rfl⟩, by rw [← hc]⟩
    · intro p hp' hb
      have hf := p1 p hp' hb
      have hmem : { p with field := cleanField m p.field } ∈ (cleanRoute m R).queryParams :=
        List.mem_map.mpr ⟨p, (i5 p).mpr ⟨e, he, hp'⟩, rfl⟩
      have hs := string_param_schema SE .form { p with field := cleanField m p.field } hb (by rw [hf]; exact hstr)
      refine ⟨queryDoc p.name p.isRequired (stringSchema p), params.mem_iff.mpr ?_, queryDoc_shape _ _ _⟩
      refine List.mem_append_right _ (List.mem_flatMap.mpr ⟨_, hmem, ?_⟩)
      rw [hs]
      simp only [hb, Bool.false_eq_true, if_false, List.mem_singleton]
      rfl
    · intro p hp' hb
      have hf := p2 p hp' hb
      have hmem : p ∈ (cleanRoute m R).requestHeaders := by
        show p ∈ R.requestHeaders
        exact (i6 p).mpr ⟨e, he, hp'⟩
      have hs := string_param_schema SE .header p hb (by rw [hf])
      refine ⟨{ name := p.name, loc := c!"header", required := p.isRequired, schema := stringSchema p }, params.mem_iff.mpr ?_, rfl, rfl, rfl⟩
      refine List.mem_append_left _ (List.mem_append_right _ (List.mem_flatMap.mpr ⟨_, hmem, ?_⟩))
      simp only [hs, List.mem_singleton]
    · intro bp hbp hb
      have hmem : { bp with field := cleanField m bp.field } ∈ (cleanRoute m R).body :=
        List.mem_map.mpr ⟨bp, (i7 bp).mpr ⟨e, he, hbp⟩, rfl⟩
      have hsome : ∃ s, bodyParamSchema SE { bp with field := cleanField m bp.field } = some s := by
        have : (cleanField m bp.field).type = c!"string" ∨ (cleanField m bp.field).type = c!"file" := by
          rcases p4 bp hbp hb with h | h
          · exact Or.inl (by rw [h]; exact hstr)
          · exact Or.inr (by rw [h]; exact hfile)
        unfold bodyParamSchema mapFieldToSchema
        rcases this with h | h
        · simp only [h]
          exact ⟨_, by rw [if_neg (by decide), if_neg (by decide), if_neg (by decide)]⟩
        · simp only [h]
          exact ⟨_, by rw [if_neg (by decide), if_neg (by decide), if_neg (by decide)]⟩
      obtain ⟨s, hs⟩ := hsome
      have hb1 := body.1 bp.contentType
      have hl : (lastFor ((cleanRoute m R).body.filterMap (fun bp => (bodyParamSchema SE bp).map (fun s =>
        (bp.contentType, if bp.name = [] then s else { type := c!"object", properties := [(bp.name, s)] })))) bp.contentType).isSome = true :=
        lastFor_some_iff.mpr ⟨_, List.mem_filterMap.mpr ⟨_, hmem, by rw [hs]; rfl⟩⟩
      rw [← hb1] at hl
      cases hc : (operationOf SE cs ch (cleanRoute m R)).requestBody with
      | none => rw [hc] at hl; cases hl
      | some content =>
        rw [hc] at hl
        exact ⟨content, rfl, mget_isSome_iff.mp hl⟩
    · intro p hp' hb code resp hc
      have hf := p3 p hp' hb
      have hmem : p ∈ (cleanRoute m R).responseHeaders := by
        show p ∈ R.responseHeaders
        exact (i8 p).mpr ⟨e, he, hp'⟩
      have hs := string_param_schema SE .header p hb (by rw [hf])
      have hh := headers code resp hc p.name
      have hl : (lastFor (boundHeaders SE (cleanRoute m R).responseHeaders) p.name).isSome = true :=
        lastFor_some_iff.mpr ⟨_, List.mem_filterMap.mpr ⟨p, hmem, by rw [hs]; rfl⟩⟩
      rw [← hh] at hl
      exact mget_isSome_iff.mp hl
  · have hcase : ∀ o ∈ (operationOf SE cs ch (cleanRoute m R)).parameters,
        (o.loc = c!"path" ∧ ∃ p ∈ (cleanRoute m R).pathParams, p.name = o.name) ∨
        (o.loc = c!"header" ∧ ∃ p ∈ (cleanRoute m R).requestHeaders, p.name = o.name) ∨
        (o.loc = c!"query" ∧ ∃ p ∈ (cleanRoute m R).queryParams, p.isBound = true ∨ p.name = o.name) := by
      intro o ho
      rcases List.mem_append.mp (params.mem_iff.mp ho) with ho | ho
      · rcases List.mem_append.mp ho with ho | ho
        · obtain ⟨p, hp', ho⟩ := List.mem_flatMap.mp ho
          split at ho
          · simp only [List.mem_singleton] at ho
            subst ho
            exact Or.inl ⟨rfl, p, hp', rfl⟩
          · cases ho
        · obtain ⟨p, hp', ho⟩ := List.mem_flatMap.mp ho
          split at ho
          · simp only [List.mem_singleton] at ho
            subst ho
            exact Or.inr (Or.inl ⟨rfl, p, hp', rfl⟩)
          · cases ho
      · obtain ⟨p, hp', ho⟩ := List.mem_flatMap.mp ho
        refine Or.inr (Or.inr ?_)
        split at ho
        · cases ho
        · split at ho
          · rename_i hb
            split at ho
            · cases ho
            · split at ho
              · cases ho
              · obtain ⟨x, _, rfl⟩ := List.mem_map.mp ho
                exact ⟨(queryDoc_shape _ _ _).2.1, p, hp', Or.inl hb⟩
          · simp only [List.mem_singleton] at ho
            subst ho
            exact ⟨(queryDoc_shape _ _ _).2.1, p, hp', Or.inr (queryDoc_shape _ _ _).1.symm⟩
    constructor
    · intro code hc
      obtain ⟨rt, hrt, hcode⟩ := (codes code).1 hc
      obtain ⟨y, hy, rfl⟩ := List.mem_map.mp hrt
      obtain ⟨e, he, h⟩ := w3 y hy
      exact ⟨e, he, y, h, hcode⟩
    · intro o ho hl
      rcases hcase o ho with ⟨h, _⟩ | ⟨_, p, hp', hn⟩ | ⟨h, _⟩
      · rw [hl] at h; exact absurd h (by decide)
      · have hp' : p ∈ R.requestHeaders := hp'
        obtain ⟨e, he, hp'⟩ := (i6 p).mp hp'
        exact ⟨e, he, p, hp', hn⟩
      · rw [hl] at h; exact absurd h (by decide)
    · intro o ho hl
      rcases hcase o ho with ⟨_, p, hp', hn⟩ | ⟨h, _⟩ | ⟨h, _⟩
      · obtain ⟨p', hp1, rfl⟩ := List.mem_map.mp hp'
        rw [i4] at hp1
        rcases List.mem_append.mp hp1 with hp1 | hp1
        · rw [extractParams_exact] at hp1
          obtain ⟨w, hw, rfl⟩ := List.mem_map.mp hp1
          exact Or.inl ⟨w, hw, hn⟩
        · obtain ⟨e, he, hp1⟩ := List.mem_flatMap.mp hp1
          exact Or.inr ⟨e, he, p', hp1, hn⟩
      · rw [hl] at h; exact absurd h (by decide)
      · rw [hl] at h; exact absurd h (by decide)
    · intro o ho hl
      rcases hcase o ho with ⟨h, _⟩ | ⟨h, _⟩ | ⟨_, p, hp', hn⟩
      · rw [hl] at h; exact absurd h (by decide)
      · rw [hl] at h; exact absurd h (by decide)
      · obtain ⟨p', hp1, rfl⟩ := List.mem_map.mp hp'
        obtain ⟨e, he, hp1⟩ := (i5 p').mp hp1
        exact ⟨e, he, p', hp1, hn⟩
    · intro o ho
      rcases hcase o ho with ⟨h, _⟩ | ⟨h, _⟩ | ⟨h, _⟩ <;> rw [h] <;> decide
    · intro content hc ct hct
      have hb1 := body.1 ct
      rw [hc, Option.bind_some] at hb1
      have hl := mget_isSome_iff.mpr hct
      rw [hb1] at hl
      obtain ⟨v, hv⟩ := lastFor_some_iff.mp hl
      obtain ⟨bp, hbp, hv⟩ := List.mem_filterMap.mp hv
      cases hs : bodyParamSchema SE bp with
      | none => rw [hs] at hv; cases hv
      | some s =>
        rw [hs] at hv
        obtain ⟨bp', hbp', rfl⟩ := List.mem_map.mp hbp
        obtain ⟨e, he, hbp'⟩ := (i7 bp').mp hbp'
        exact ⟨e, he, bp', hbp', by simpa using congrArg (fun x : Option (Str × Schema) => x.map (·.1)) hv⟩
    · intro code resp hc n hn
      have hh := headers code resp hc n
      have hl := mget_isSome_iff.mpr hn
      rw [hh] at hl
      obtain ⟨v, hv⟩ := lastFor_some_iff.mp hl
      obtain ⟨p, hp', hv⟩ := List.mem_filterMap.mp hv
      cases hs : mapParamToSchema SE .header p with
      | none => rw [hs] at hv; cases hv
      | some s =>
        rw [hs] at hv
        have hp' : p ∈ R.responseHeaders := hp'
        obtain ⟨e, he, hp'⟩ := (i8 p).mp hp'
        exact ⟨e, he, p, hp', by simpa using congrArg (fun x : Option (Str × OHeader) => x.map (·.1)) hv⟩

theorem run_stage (L : Lib) (E : ParseCtx → RouteEnv) (hE : ByModel L E) (U : FPath → Prop) (hL : Tame L U)
    (hch : ∀ n, ValidChoice (L.choices.route n)) (getwd : Str) (φ : Faults)
    (w w' : World Proc) (d : FPath)
    (hd : DirAt w.cwd w.st.svc.workDir d) (hg : resolve w.cwd getwd = some w.cwd) (hnames : ProperNames w.fs) (hc : ∀ x ∈ w.cwd, '/' ∉ x)
    (routers : List (List RouteInfo)) (hin : Each GinInput w.st.svc.inputs routers) (hroutes : w.st.svc.routes = [])
    (hnd : DistinctRoutes (allowed w.st.svc.denyList routers.flatten))
    (before after : List Output) (o : Output) (hout : w.st.svc.outputs = before ++ o :: after) (hown : OwnCells w.st.svc.outputs)
    (hbefore : ∀ b ∈ before, Plain b) (loc : Nat) (ho : o.generate = .openapi loc) (q : FPath) (hq : OutputPlace d w.st.svc o.generate q)
    (hplace : OwnPlace w.cwd d w.st.svc after q) (hU : ¬ U q)
    (h : Astra.parseAll L getwd φ w = (w', .ok ())) :
    ∃ doc text, w'.fs.look q = some (.file text) ∧
      L.render (isYaml (withExtension [c!".json", c!".yaml", c!".yml"] (w.st.svc.cells.getD loc []))) doc = .ok text ∧
      ∀ i ∈ allowed w.st.svc.denyList routers.flatten, i.method ∈ documentedMethods →
        (∀ j ∈ allowed w.st.svc.denyList routers.flatten, openapiPath j.path = openapiPath i.path → j.method = i.method → j = i) →
        ∃ (relative : Str) (mains : List Str), L.rel i.file = .ok relative ∧ mains.length = routers.length ∧ ∀ (comment id : Str) (es : List Entry),
          (∀ main ∈ mains, HandlerView (E { workDir := workDirAfter getwd w.st.svc, mainPkg := main, customFuncs := w.st.svc.customFuncs })
            i.handler relative i.line comment id es) →
            ∃ SE cs ch m r', ValidChoice ch ∧ 0 < routers.length ∧ Stage i.handler relative i.line i.path comment id es routers.length r' ∧
              (∃ E file ctx ns, Analysed E file ctx ns es) ∧
              Document.operation doc (openapiPath i.path) i.method = some (operationOf SE cs ch (cleanRoute m r')) := by
  obtain ⟨m, rs, cs, names, doc, text, _, _, h3, h4, _, h6⟩ := run_documents_router L E hE U hL getwd φ w w' d hd hg hnames hc routers hin
    hroutes hnd before after o hout hown hbefore loc ho q hq hplace hU h
  refine ⟨doc, text, h3, h4, fun i hi hm huniq => ?_⟩
  obtain ⟨r, r', mains, n, ⟨relative, hrel, hr⟩, hlen, hown', hop⟩ := h6 i hi hm huniq
  refine ⟨relative, mains, hrel, hlen, ?_⟩
  intro comment id es hv
  subst hr
  have S := stage_steps hown' 0 (show Stage i.handler relative i.line i.path comment id es 0 _ from
    ⟨rfl, rfl, rfl, rfl, Or.inr ⟨rfl, rfl⟩, Or.inr ⟨rfl, rfl⟩, by simp, by simp, by simp, rfl, rfl, rfl, rfl⟩) hv
  rw [Nat.zero_add, hlen] at S
  have hpos : 0 < routers.length := by
    cases routers with
    | nil => simp [allowed] at hi
    | cons _ _ => exact Nat.succ_pos _
  obtain ⟨main, hmain⟩ := List.exists_mem_of_length_pos (hlen ▸ hpos)
  obtain ⟨_, _, _, _, _, _, _, han, _, _⟩ := hv main hmain
  exact ⟨_, cs, _, m, r', hch n, hpos, S, ⟨_, _, _, _, han⟩, hop⟩

/-- C83: a service with gin routers and an OpenAPI output that comes after no other OpenAPI output; a run that succeeds, whatever faults
it survived. For each allowed entry of the routers with a documented method, whose templated path and method no other entry has, and whose
handler is a function in which every call can be resolved: in the document whose text is in the file, the operation of the entry has the
comment of the handler as description and its name as operation id, shows every context call of the handler and of the helpers it passes
the context to, and shows nothing else. -/
theorem run_documents_handler (L : Lib) (E : ParseCtx → RouteEnv) (hE : ByModel L E) (U : FPath → Prop) (hL : Tame L U)
    (hch : ∀ n, ValidChoice (L.choices.route n)) (getwd : Str) (φ : Faults)
    (w w' : World Proc) (d : FPath)
    (hd : DirAt w.cwd w.st.svc.workDir d) (hg : resolve w.cwd getwd = some w.cwd) (hnames : ProperNames w.fs) (hc : ∀ x ∈ w.cwd, '/' ∉ x)
    (routers : List (List RouteInfo)) (hin : Each GinInput w.st.svc.inputs routers) (hroutes : w.st.svc.routes = [])
    (hnd : DistinctRoutes (allowed w.st.svc.denyList routers.flatten))
    (before after : List Output) (o : Output) (hout : w.st.svc.outputs = before ++ o :: after) (hown : OwnCells w.st.svc.outputs)
    (hbefore : ∀ b ∈ before, Plain b) (loc : Nat) (ho : o.generate = .openapi loc) (q : FPath) (hq : OutputPlace d w.st.svc o.generate q)
    (hplace : OwnPlace w.cwd d w.st.svc after q) (hU : ¬ U q)
    (h : Astra.parseAll L getwd φ w = (w', .ok ())) :
    ∃ doc text, w'.fs.look q = some (.file text) ∧
      L.render (isYaml (withExtension [c!".json", c!".yaml", c!".yml"] (w.st.svc.cells.getD loc []))) doc = .ok text ∧
      ∀ i ∈ allowed w.st.svc.denyList routers.flatten, i.method ∈ documentedMethods →
        (∀ j ∈ allowed w.st.svc.denyList routers.flatten, openapiPath j.path = openapiPath i.path → j.method = i.method → j = i) →
        ∃ (relative : Str) (mains : List Str), L.rel i.file = .ok relative ∧ mains.length = routers.length ∧ ∀ (comment id : Str) (es : List Entry),
          (∀ main ∈ mains, HandlerView (E { workDir := workDirAfter getwd w.st.svc, mainPkg := main, customFuncs := w.st.svc.customFuncs })
            i.handler relative i.line comment id es) →
            ∃ op, Document.operation doc (openapiPath i.path) i.method = some op ∧ op.description = comment ∧ op.operationId = id ∧
              (∀ e ∈ es, Shows op e) ∧ ShowsOnly op i.path es := by
  obtain ⟨doc, text, h3, h4, h6⟩ := run_stage L E hE U hL hch getwd φ w w' d hd hg hnames hc routers hin
    hroutes hnd before after o hout hown hbefore loc ho q hq hplace hU h
  refine ⟨doc, text, h3, h4, fun i hi hm huniq => ?_⟩
  obtain ⟨relative, mains, hrel, hlen, h7⟩ := h6 i hi hm huniq
  refine ⟨relative, mains, hrel, hlen, fun comment id es hv => ?_⟩
  obtain ⟨SE, cs, ch, m, r', hc', hpos, S, ⟨_, _, _, _, han⟩, hop⟩ := h7 comment id es hv
  obtain ⟨n, hn⟩ : ∃ n, routers.length = n + 1 := ⟨routers.length - 1, by omega⟩
  rw [hn] at S
  obtain ⟨s1, s2⟩ := document_shows SE cs ch hc' m es i.path n r' S.gathered (analysed_unbound han)
  exact ⟨_, hop, S.doc.resolve_right (fun h => by cases h.1), S.oid.resolve_right (fun h => by cases h.1), s1, s2⟩

/-! ### Non-vacuity -/

theorem demo_handler_is : HandlerIs demoRoutes c!"example.com/shop.Get" c!"shop.go" 10 0 c!"Get" 0 true :=
  ⟨⟨c!"example.com/shop", ⟨c!"shop", c!"Get", Or.inr ⟨c!"example.com", rfl⟩, by decide, by decide, rfl, by decide, by decide, Or.inl rfl⟩, by decide +kernel⟩,
    by decide +kernel⟩

/-- The router of `routerWorld`, with a comment, a query parameter and a response of a helper in its first handler. -/
example : HandlerIs demoRoutes c!"example.com/shop.Get" c!"shop.go" 10 0 c!"Get" 0 true ∧ ContextParam demoRoutes.prog 0 0 c!"c" ∧
    Analysed demoRoutes.prog 0 c!"c" (demoRoutes.prog.funcs 0).body
      [{ queryParams := [{ name := c!"id", field := { type := c!"string" } }] },
       { responses := [{ statusCode := 200, contentType := c!"application/json", field := { type := c!"string" } }] }] :=
  ⟨demo_handler_is, (context_parameter_found demo 0 0 c!"c" (by decide)).1 rfl, ⟨_, demo_analysed⟩⟩

/-- The operation of the first handler shows the query parameter, the status code of the helper, and the comment. -/
theorem demo_run_documents_handler : ∃ doc text op,
    (Astra.parseAll routerLib c!"/w" noFaults routerWorld).1.fs.look [c!"w", c!"api.yaml"] = some (.file text) ∧
      Document.operation doc c!"/a" c!"GET" = some op ∧ routerLib.render true doc = .ok text ∧
      op.description = c!"Get." ∧ op.operationId = c!"Get" ∧ (∀ code, code ∈ mkeys op.responses ↔ code = c!"200") ∧
      ∃ o ∈ op.parameters, o.name = c!"id" ∧ o.loc = c!"query" ∧ o.schema = { type := c!"string" } := by
  have hok : (Astra.parseAll routerLib c!"/w" noFaults routerWorld).2 = .ok () := by decide +kernel
  have hplace : OwnPlace routerWorld.cwd [c!"w"] routerWorld.st.svc (routerWorld.st.svc.outputs.drop 2) [c!"w", c!"api.yaml"] := by
    refine ⟨by decide, ?_, ?_⟩
    · rintro ⟨h, _⟩
      cases h
    · intro o ho
      have : routerWorld.st.svc.outputs.drop 2 = [_] := rfl
      rw [this, List.mem_singleton] at ho
      subst ho
      show ¬ ([c!"w", c!"api.yaml"] = walk [c!"w"] (segments (withExtension [c!".json"] (routerWorld.st.svc.cells.getD 2 []))))
      decide
  have hnames : ProperNames routerWorld.fs := by
    intro q hq x hx
    by_cases h0 : q = []
    · subst h0; cases hx
    · rw [FS.look, if_neg h0] at hq
      by_cases h1 : q = [c!"w"]
      · subst h1; revert x; decide
      · by_cases h2 : q = [c!"w", c!"main.go"]
        · subst h2; revert x; decide
        · by_cases h3 : q = [c!"w", c!"go.mod"]
          · subst h3; revert x; decide
          · exact absurd (by simp [FS.get, routerWorld, Ne.symm h1, Ne.symm h2, Ne.symm h3]) hq
  have hrun : Astra.parseAll routerLib c!"/w" noFaults routerWorld = ((Astra.parseAll routerLib c!"/w" noFaults routerWorld).1, .ok ()) := by
    rw [← hok]
  obtain ⟨doc, text, h1, h2, h3⟩ := run_documents_handler routerLib (fun _ => demoRoutes) routerLib_byModel (fun _ => False)
    (fun _ _ _ => ⟨fun _ _ => rfl, id, rfl, rfl, rfl, rfl, rfl, rfl, rfl, rfl⟩) (fun _ => someChoice_valid) c!"/w" noFaults routerWorld _ [c!"w"]
    (Or.inr (by decide)) (by decide) hnames (by decide) [routerInfos] (ginInput_one rfl) rfl (by show (List.map _ (allowed _ _)).Nodup; decide +kernel)
    (routerWorld.st.svc.outputs.take 1) (routerWorld.st.svc.outputs.drop 2) _ rfl (options_shape _).2
    (by intro b hb; have : routerWorld.st.svc.outputs.take 1 = [_] := rfl; rw [this, List.mem_singleton] at hb; subst hb; exact Or.inl ⟨_, rfl⟩)
    1 rfl [c!"w", c!"api.yaml"] (show [c!"w", c!"api.yaml"] = _ by decide) hplace id hrun
  have hal : allowed routerWorld.st.svc.denyList [routerInfos].flatten = routerInfos.take 2 := by
    show [routerInfos].flatten.filter _ = _
    rfl
  obtain ⟨relative, mains, hrel, _, h4⟩ := h3 ⟨c!"GET", c!"/a", c!"example.com/shop.Get", c!"shop.go", 10⟩ (by rw [hal]; simp [routerInfos]) (by decide) (by
    rw [hal]
    intro j hj
    simp only [routerInfos, List.take, List.mem_cons, List.not_mem_nil, or_false] at hj
    rcases hj with rfl | rfl
    · intros; rfl
    · intro hp _; exact absurd hp (by decide))
  have hrel' : relative = c!"shop.go" := by cases hrel; rfl
  subst hrel'
  obtain ⟨op, o1, o2, o3, o4, o5⟩ := h4 _ _ _ (fun _ _ => ⟨0, c!"Get", 0, true, c!"c", demo_handler_is,
    (context_parameter_found demo 0 0 c!"c" (by decide)).1 rfl, ⟨_, demo_analysed⟩, rfl, rfl⟩)
  refine ⟨doc, text, op, h1, o1, h2, ?_, o3, ?_, ?_⟩
  · rw [o2]; decide +kernel
  · intro code
    constructor
    · intro hc
      obtain ⟨e, he, rt, hrt, hcode⟩ := o5.responses code hc
      simp only [List.mem_cons, List.not_mem_nil, or_false] at he
      rcases he with rfl | rfl
      · cases hrt
      · simp only [List.mem_singleton] at hrt
        subst hrt
        rw [← hcode]; decide
    · rintro rfl
      have := (o4 { responses := [{ statusCode := 200, contentType := c!"application/json", field := { type := c!"string" } }] } (by simp)).responses
        { statusCode := 200, contentType := c!"application/json", field := { type := c!"string" } } (by simp)
      rw [show c!"200" = itoa 200 by decide]
      exact this
  · obtain ⟨o, ho, e1, e2, e3⟩ := (o4 { queryParams := [{ name := c!"id", field := { type := c!"string" } }] } (by simp)).query { name := c!"id", field := { type := c!"string" } } (by simp) rfl
    exact ⟨o, ho, e1, e2, e3⟩

end Astra.Props
