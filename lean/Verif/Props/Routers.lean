/-
C85: the documentation of a route and the other routers of the service.
-/
import Verif.Spec.Routers
import Verif.Props.HandlerDoc

namespace Astra.Props
open Astra.Spec

theorem filter_copies {α : Type} (f : α → Bool) (l : List α) : ∀ n, ((List.replicate n l).flatten.filter f).length = n * (l.filter f).length
  | 0 => by simp
  | n + 1 => by
    rw [List.replicate_succ, List.flatten_cons, List.filter_append, List.length_append, filter_copies f l n, Nat.succ_mul, Nat.add_comm]

theorem filter_flatMap_one {α β : Type} (f : β → Bool) (g : α → List β) (h : α → Bool) : ∀ l : List α,
    (∀ a ∈ l, ∃ b, g a = [b] ∧ f b = h a) → ((l.flatMap g).filter f).length = (l.filter h).length
  | [], _ => rfl
  | a :: l, hh => by
    obtain ⟨b, e1, e2⟩ := hh a (by simp)
    have ih := filter_flatMap_one f g h l (fun a ha => hh a (List.mem_cons_of_mem _ ha))
    rw [List.flatMap_cons, e1, List.filter_append, List.length_append, ih]
    cases hb : h a <;> simp [e2, hb, Nat.add_comm]

theorem filter_flatMap_none {α β : Type} (f : β → Bool) (g : α → List β) (l : List α) (hh : ∀ a ∈ l, ∀ b ∈ g a, f b = false) :
    ((l.flatMap g).filter f).length = 0 := by
  rw [List.length_eq_zero_iff, List.filter_eq_nil_iff]
  intro b hb
  obtain ⟨a, ha, hb⟩ := List.mem_flatMap.mp hb
  simp [hh a ha b hb]

theorem document_counts (SE : SchemaEnv) (cs : List Field) (ch : RouteChoice) (hch : ValidChoice ch) (m : Str) (es : List Entry) (path : Str)
    (n : Nat) (R : Route) (G : Gathered es path n R) (hes : ∀ e ∈ es, (∀ p ∈ e.queryParams, p.isBound = false ∧ p.field = { type := c!"string" }) ∧
      (∀ p ∈ e.requestHeaders, p.isBound = false ∧ p.field = { type := c!"string" })) (name : Str) :
    timesListed (operationOf SE cs ch (cleanRoute m R)) c!"query" name = n * timesRead (·.queryParams) es name ∧
    timesListed (operationOf SE cs ch (cleanRoute m R)) c!"header" name = n * timesRead (·.requestHeaders) es name := by
  have params := (parameters_sorted_complete SE cs ch hch (cleanRoute m R)).2
  have hstr : (cleanField m { type := c!"string" }).type = c!"string" := clean_leaf m _ (by decide)
  have hq : ∀ p ∈ R.queryParams, p.isBound = false ∧ p.field = { type := c!"string" } := by
    intro p hp
    rw [G.query] at hp
    obtain ⟨l, hl, hp⟩ := List.mem_flatten.mp hp
    obtain ⟨e, he, hp⟩ := List.mem_flatMap.mp ((List.mem_replicate.mp hl).2 ▸ hp)
    exact (hes e he).1 p hp
  have hh : ∀ p ∈ R.requestHeaders, p.isBound = false ∧ p.field = { type := c!"string" } := by
    intro p hp
    rw [G.header] at hp
    obtain ⟨l, hl, hp⟩ := List.mem_flatten.mp hp
    obtain ⟨e, he, hp⟩ := List.mem_flatMap.mp ((List.mem_replicate.mp hl).2 ▸ hp)
    exact (hes e he).2 p hp
  have qs : ∀ p ∈ (cleanRoute m R).queryParams, mapParamToSchema SE .form p = some (stringSchema p) ∧ p.isBound = false := by
    intro p hp
    obtain ⟨p', hp', rfl⟩ := List.mem_map.mp hp
    exact ⟨string_param_schema SE .form _ (hq p' hp').1 (by rw [(hq p' hp').2]; exact hstr), (hq p' hp').1⟩
  have hs : ∀ p ∈ (cleanRoute m R).requestHeaders, mapParamToSchema SE .header p = some (stringSchema p) := by
    intro p hp
    exact string_param_schema SE .header _ (hh p hp).1 (by rw [(hh p hp).2])
  have loc : ∀ (b : BTag) (loc : Str) (ps : List Param), ∀ x ∈ documented SE b loc ps, x.loc = loc := by
    intro b loc ps x hx
    obtain ⟨p, _, hx⟩ := List.mem_flatMap.mp hx
    split at hx
    · simp only [List.mem_singleton] at hx; subst hx; rfl
    · cases hx
  have none_of : ∀ (l : List OParam) (f : OParam → Bool), (∀ x ∈ l, f x = false) → (l.filter f).length = 0 := by
    intro l f hf
    rw [List.length_eq_zero_iff, List.filter_eq_nil_iff]
    intro x hx
    simp [hf x hx]
  have hquery : ((documentedQuery SE cs (cleanRoute m R).queryParams).filter (fun o => o.loc = c!"query" ∧ o.name = name)).length =
      n * timesRead (·.queryParams) es name := by
    unfold documentedQuery
    rw [filter_flatMap_one _ _ (fun p => decide (p.name = name))]
    · show ((R.queryParams.map _).filter _).length = _
      rw [List.filter_map, List.length_map, G.query]
      exact filter_copies _ _ n
    · intro p hp
      obtain ⟨e1, e2⟩ := qs p hp
      refine ⟨queryDoc p.name p.isRequired (stringSchema p), by rw [e1]; simp [e2], ?_⟩
      rw [(queryDoc_shape _ _ _).1, (queryDoc_shape _ _ _).2.1]
      simp
  have hqloc : ∀ x ∈ documentedQuery SE cs (cleanRoute m R).queryParams, x.loc = c!"query" := by
    intro x hx
    obtain ⟨p, hp, hx⟩ := List.mem_flatMap.mp hx
    obtain ⟨e1, e2⟩ := qs p hp
    simp only [e1, e2, Bool.false_eq_true, if_false, List.mem_singleton] at hx
    rw [hx]; exact (queryDoc_shape _ _ _).2.1
  have hheader : ((documented SE .header c!"header" (cleanRoute m R).requestHeaders).filter (fun o => o.loc = c!"header" ∧ o.name = name)).length =
      n * timesRead (·.requestHeaders) es name := by
    unfold documented
    rw [filter_flatMap_one _ _ (fun p => decide (p.name = name))]
    · show (R.requestHeaders.filter _).length = _
      rw [G.header]
      exact filter_copies _ _ n
    · intro p hp
      exact ⟨_, by rw [hs p hp], by simp⟩
  constructor
  · unfold timesListed
    rw [(params.filter _).length_eq, List.filter_append, List.filter_append, List.length_append, List.length_append, hquery,
      none_of _ _ (fun x hx => by simp [loc _ _ _ x hx]), none_of _ _ (fun x hx => by simp [loc _ _ _ x hx])]
    omega
  · unfold timesListed
    rw [(params.filter _).length_eq, List.filter_append, List.filter_append, List.length_append, List.length_append, hheader,
      none_of _ _ (fun x hx => by simp [loc _ _ _ x hx]), none_of _ _ (fun x hx => by simp [hqloc x hx])]
    omega

/-- C85: as C83, for a handler that binds no struct to the query or the headers: each query parameter and header is listed as often as
the handler reads it, times the number of routers of the service. -/
theorem parameters_repeat (L : Lib) (E : ParseCtx → RouteEnv) (hE : ByModel L E) (U : FPath → Prop) (hL : Tame L U)
    (hch : ∀ n, ValidChoice (L.choices.route n)) (getwd : Str) (φ : Faults)
    (w w' : World Proc) (d : FPath)
    (hd : DirAt w.cwd w.st.svc.workDir d) (hg : resolve w.cwd getwd = some w.cwd) (hnames : ProperNames w.fs) (hc : ∀ x ∈ w.cwd, '/' ∉ x)
    (routers : List (List RouteInfo)) (hin : Each GinInput w.st.svc.inputs routers) (hroutes : w.st.svc.routes = [])
    (hnd : DistinctRoutes (allowed w.st.svc.denyList routers.flatten))
    (before after : List Output) (o : Output) (hout : w.st.svc.outputs = before ++ o :: after) (hown : OwnCells w.st.svc.outputs)
    (hbefore : ∀ b ∈ before, Plain b) (loc : Nat) (ho : o.generate = .openapi loc) (q : FPath) (hq : OutputPlace d w.st.svc o.generate q)
    (hplace : OwnPlace w.cwd d w.st.svc after q) (hU : ¬ U q)
    (h : Astra.parseAll L getwd φ w = (w', .ok ())) :
    ∃ doc text, w'.fs.look q = some (.file text) ∧
      L.render (isYaml (withExtension [c!".json", c!".yaml", c!".yml"] (w.st.svc.cells.getD loc []))) doc = .ok text ∧
      ∀ i ∈ allowed w.st.svc.denyList routers.flatten, i.method ∈ documentedMethods →
        (∀ j ∈ allowed w.st.svc.denyList routers.flatten, openapiPath j.path = openapiPath i.path → j.method = i.method → j = i) →
        ∃ (relative : Str) (mains : List Str), L.rel i.file = .ok relative ∧ mains.length = routers.length ∧ ∀ (comment id : Str) (es : List Entry),
          (∀ main ∈ mains, HandlerView (E { workDir := workDirAfter getwd w.st.svc, mainPkg := main, customFuncs := w.st.svc.customFuncs })
            i.handler relative i.line comment id es) →
          (∀ e ∈ es, ∀ p, p ∈ e.queryParams ∨ p ∈ e.requestHeaders → p.isBound = false) →
            ∃ op, Document.operation doc (openapiPath i.path) i.method = some op ∧ ∀ name,
              timesListed op c!"query" name = routers.length * timesRead (·.queryParams) es name ∧
              timesListed op c!"header" name = routers.length * timesRead (·.requestHeaders) es name := by
  obtain ⟨doc, text, h3, h4, h6⟩ := run_stage L E hE U hL hch getwd φ w w' d hd hg hnames hc routers hin
    hroutes hnd before after o hout hown hbefore loc ho q hq hplace hU h
  refine ⟨doc, text, h3, h4, fun i hi hm huniq => ?_⟩
  obtain ⟨relative, mains, hrel, hlen, h7⟩ := h6 i hi hm huniq
  refine ⟨relative, mains, hrel, hlen, fun comment id es hv hb => ?_⟩
  obtain ⟨SE, cs, ch, m, r', hc', hpos, S, ⟨_, _, _, _, han⟩, hop⟩ := h7 comment id es hv
  exact ⟨_, hop, document_counts SE cs ch hc' m es i.path _ r' S.gathered (fun e he => ⟨fun p hp =>
      ⟨hb e he p (Or.inl hp), (analysed_unbound han e he).1 p hp (hb e he p (Or.inl hp))⟩, fun p hp =>
      ⟨hb e he p (Or.inr hp), (analysed_unbound han e he).2.1 p hp (hb e he p (Or.inr hp))⟩⟩)⟩

/-! ### Another router -/

/-- The service of one router with an OpenAPI file, and what else is given to `astra.New`. -/
def withMore (more : List Opt) : World Proc :=
  { fs := [([c!"w"], .dir), ([c!"w", c!"main.go"], .file c!"package main"), ([c!"w", c!"go.mod"], .file c!"module m\n")], cwd := [c!"w"]
    st := { svc := newService ([.workDir c!"/w", .ginInput (some routerInfos), .openApiOutput c!"api.json",
      .deny (.exact c!"/secret"), .config (some { title := c!"t", host := c!"localhost", port := 8000, basePath := c!"/" })] ++ more) } }

/-- The text of the OpenAPI file after the run. -/
def apiText (more : List Opt) : Str :=
  match (Astra.parseAll routerLib c!"/w" noFaults (withMore more)).1.fs.look [c!"w", c!"api.json"] with
  | some (.file t) => t
  | _ => []

/-- C85 is violated: a second router, here one without any route, changes the documentation of the routes of the first. The handler of
`GET /a` reads the query parameter `id` once. With one router the file lists it once, with the second router twice. -/
theorem second_router_changes_first :
    (Astra.parseAll routerLib c!"/w" noFaults (withMore [])).2 = .ok () ∧
    (Astra.parseAll routerLib c!"/w" noFaults (withMore [.ginInput (some [])])).2 = .ok () ∧
    occurrences c!"\"name\": \"id\"" (apiText []) = 1 ∧
    occurrences c!"\"name\": \"id\"" (apiText [.ginInput (some [])]) = 2 ∧
    timesRead (·.queryParams) [{ queryParams := [{ name := c!"id", field := { type := c!"string" } }] },
       { responses := [{ statusCode := 200, contentType := c!"application/json", field := { type := c!"string" } }] }] c!"id" = 1 := by
  refine ⟨?_, ?_, ?_, ?_, ?_⟩ <;> decide +kernel

/-! ### Non-vacuity -/

/-- The service with the second router meets the hypotheses, and the parameter is listed twice. -/
theorem demo_parameters_repeat : ∃ doc op,
    (Astra.parseAll routerLib c!"/w" noFaults (withMore [.ginInput (some [])])).1.fs.look [c!"w", c!"api.json"] = some (.file (docText doc)) ∧
      Document.operation doc c!"/a" c!"GET" = some op ∧ timesListed op c!"query" c!"id" = 2 := by
  have hok : (Astra.parseAll routerLib c!"/w" noFaults (withMore [.ginInput (some [])])).2 = .ok () := second_router_changes_first.2.1
  have hplace : OwnPlace [c!"w"] [c!"w"] (withMore [.ginInput (some [])]).st.svc [] [c!"w", c!"api.json"] :=
    ⟨by decide, (by rintro ⟨h, _⟩; cases h), (by intro o ho; cases ho)⟩
  have hnames : ProperNames (withMore [.ginInput (some [])]).fs := by
    intro q hq x hx
    by_cases h0 : q = []
    · subst h0; cases hx
    · rw [FS.look, if_neg h0] at hq
      by_cases h1 : q = [c!"w"]
      · subst h1; revert x; decide
      · by_cases h2 : q = [c!"w", c!"main.go"]
        · subst h2; revert x; decide
        · by_cases h3 : q = [c!"w", c!"go.mod"]
          · subst h3; revert x; decide
          · exact absurd (by simp [FS.get, withMore, Ne.symm h1, Ne.symm h2, Ne.symm h3]) hq
  have hrun : Astra.parseAll routerLib c!"/w" noFaults (withMore [.ginInput (some [])]) =
      ((Astra.parseAll routerLib c!"/w" noFaults (withMore [.ginInput (some [])])).1, .ok ()) := by rw [← hok]
  obtain ⟨doc, text, h1, h2, h3⟩ := parameters_repeat routerLib (fun _ => demoRoutes) routerLib_byModel (fun _ => False)
    (fun _ _ _ => ⟨fun _ _ => rfl, id, rfl, rfl, rfl, rfl, rfl, rfl, rfl, rfl⟩) (fun _ => someChoice_valid) c!"/w" noFaults
    (withMore [.ginInput (some [])]) _ [c!"w"] (Or.inr (by decide)) (by decide) hnames (by decide) [routerInfos, []]
    (.cons ⟨rfl, rfl⟩ (.cons ⟨rfl, rfl⟩ .nil)) rfl (by show (List.map _ (allowed _ _)).Nodup; decide +kernel)
    [] [] _ rfl (options_shape _).2 (by intro b hb; cases hb) 0 rfl [c!"w", c!"api.json"] (show [c!"w", c!"api.json"] = _ by decide) hplace id hrun
  have hal : allowed (withMore [.ginInput (some [])]).st.svc.denyList [routerInfos, []].flatten = routerInfos.take 2 := by
    show [routerInfos, []].flatten.filter _ = _
    rfl
  obtain ⟨relative, mains, hrel, _, h4⟩ := h3 ⟨c!"GET", c!"/a", c!"example.com/shop.Get", c!"shop.go", 10⟩ (by rw [hal]; simp [routerInfos]) (by decide) (by
    rw [hal]
    intro j hj
    simp only [routerInfos, List.take, List.mem_cons, List.not_mem_nil, or_false] at hj
    rcases hj with rfl | rfl
    · intros; rfl
    · intro hp _; exact absurd hp (by decide))
  have hrel' : relative = c!"shop.go" := by cases hrel; rfl
  subst hrel'
  obtain ⟨op, o1, o2⟩ := h4 _ _ _ (fun _ _ => ⟨0, c!"Get", 0, true, c!"c", demo_handler_is,
    (context_parameter_found demo 0 0 c!"c" (by decide)).1 rfl, ⟨_, demo_analysed⟩, rfl, rfl⟩) (by
      intro e he p hp
      simp only [List.mem_cons, List.not_mem_nil, or_false] at he
      rcases he with rfl | rfl
      · rcases hp with hp | hp
        · simp only [List.mem_singleton] at hp; subst hp; rfl
        · cases hp
      · rcases hp with hp | hp <;> cases hp)
  refine ⟨doc, op, ?_, o1, ?_⟩
  · rw [h1]
    have : Except.ok (docText doc) = Except.ok text := h2
    cases this
    rfl
  · rw [(o2 _).1, show timesRead _ _ c!"id" = 1 from second_router_changes_first.2.2.2.2]
    rfl

end Astra.Props
