/-
C105: handlers that are methods, literals in methods or instances of generic functions.
-/
import Verif.Spec.OtherHandlers
import Verif.Props.HandlerDoc
import Verif.Props.Again
import Verif.Props.Routers
import Verif.Props.RelPath

namespace Astra.Props
open Astra.Spec

/-! ### The name that the analysis looks for -/

theorem goFunctionName_of {pkg name tail : Str} (hp : PackagePath pkg) (ht : '/' ∉ tail) (hn : '.' ∉ name)
    (h : tail = name ∨ ∃ more, tail = name ++ '.' :: more) : GoFunctionName (pkg ++ '.' :: tail) pkg name := by
  obtain ⟨base, h1, h2, h3⟩ := hp
  exact ⟨base, tail, h1, h2, h3, rfl, ht, hn, h⟩

theorem functionsAt_nil_of_names {name : Str} {line : Int} {ds : List FuncDecl} (h : ∀ d ∈ ds, d.name ≠ name) : functionsAt name line ds = [] := by
  unfold functionsAt
  rw [List.flatMap_eq_nil_iff]
  intro d hd
  rw [if_neg (h d hd)]

/-- The function that is looked for in the file is not there. -/
theorem other_handler_not_found {E : RouteEnv} {handler file : Str} {line : Int} (h : OtherHandler E handler file line) :
    ∃ pkg name fileId, GoFunctionName handler pkg name ∧ E.fileOf pkg file = some fileId ∧ functionsAt name line (E.decls fileId) = [] := by
  obtain ⟨pkg, fileId, hp, hf, ⟨hn, hd⟩ | ⟨first, hn, hat⟩⟩ := h
  · cases hn with
    | pointerMethod T more hT hm =>
      refine ⟨pkg, c!"(*" ++ T ++ c!")", fileId, ?_, hf, functionsAt_nil_of_names fun d hdm e => (hd d hdm).2.1 (by rw [e]; simp)⟩
      have := goFunctionName_of (name := c!"(*" ++ T ++ c!")") (tail := c!"(*" ++ T ++ c!")." ++ more) hp (by simp [hT.2.2.2.2, hm]) (by simp [hT.2.2.2.1])
        (Or.inr ⟨more, by simp⟩)
      simpa using this
    | «instance» F more hF hm =>
      refine ⟨pkg, F ++ c!"[", fileId, ?_, hf, functionsAt_nil_of_names fun d hdm e => (hd d hdm).2.2.1 (by rw [e]; simp)⟩
      have := goFunctionName_of (name := F ++ c!"[") (tail := F ++ c!"[...]" ++ more) hp (by simp [hF.2.2.2.2, hm]) (by simp [hF.2.2.2.1])
        (Or.inr ⟨c!"..]" ++ more, by simp⟩)
      simpa using this
  · cases hn with
    | dotted more hF hm =>
      refine ⟨pkg, first, fileId, ?_, hf, hat⟩
      have := goFunctionName_of (name := first) (tail := first ++ '.' :: more) hp (by simp [hF.2.2.2.2, hm]) hF.2.2.2.1 (Or.inr ⟨more, rfl⟩)
      simpa using this
    | plain hF =>
      refine ⟨pkg, first, fileId, ?_, hf, hat⟩
      have := goFunctionName_of (name := first) (tail := first) hp hF.2.2.2.2 hF.2.2.2.1 (Or.inl rfl)
      simpa using this

/-- The analysis of such a handler only fills in the parameters of the path. -/
theorem other_handler_analysis {E : RouteEnv} {k : Nat} {r r' : Route} (h : OwnAnalysis E k r r') (ho : OtherHandler E r.handler r.file r.lineNo) :
    r' = { r with pathParams := extractParams r.path } := by
  obtain ⟨c, h⟩ := h
  obtain ⟨pkg, name, fileId, hname, hfile, hat⟩ := other_handler_not_found ho
  obtain ⟨hn1, hn2⟩ := split_function_name hname
  rw [← hn1] at hfile
  have := analyseDecls_none E k fileId name (E.decls fileId) [] { r with pathParams := extractParams r.path } hat
  simp only [parseRoute, hn2, hfile, this] at h
  cases hpk : (splitHandlerPath r.handler).packageName with
  | panic m => simp [hpk] at h
  | err m => simp [hpk] at h
  | ok p =>
    simp only [hpk] at h
    split at h
    · simp at h
    · split at h
      · simp at h
      · cases h; rfl

theorem other_handler_analyses {E : Str → RouteEnv} {mains : List Str} {r r' : Route} (h : OwnAnalyses E mains r r') :
    (∀ m ∈ mains, OtherHandler (E m) r.handler r.file r.lineNo) → mains ≠ [] → r' = { r with pathParams := extractParams r.path } := by
  induction h with
  | none => intro _ h; exact absurd rfl h
  | again h1 h2 ih =>
    intro ho _
    have e := other_handler_analysis h1 (ho _ List.mem_cons_self)
    subst e
    cases h2 with
    | none => rfl
    | again h3 h4 => exact ih (fun m hm => ho m (List.mem_cons_of_mem _ hm)) (by simp)

theorem only_the_path {rel : Str → Except Str Str} {i : RouteInfo} {r : Route} (hf : Found rel i r) (SE : SchemaEnv) (cs : List Field)
    {ch : RouteChoice} (hch : ValidChoice ch) (m : Str) :
    OnlyThePath (operationOf SE cs ch (cleanRoute m { r with pathParams := extractParams r.path })) i.path := by
  obtain ⟨p, _, rfl⟩ := hf
  have e : pathParameters SE (cleanRoute m { ({ handler := i.handler, file := p, lineNo := i.line, path := i.path, method := i.method } : Route) with
      pathParams := extractParams i.path }).pathParams = parametersOfPath i.path := by
    show List.filterMap _ (List.map _ (extractParams i.path)) = _
    rw [extractParams_exact, List.map_map, List.filterMap_map, parametersOfPath, ← List.filterMap_eq_map]
    congr 1
  constructor
  · refine ((hch.1 _).1).trans ?_
    rw [e]
    simp [headerParameters, queryParameters, cleanRoute]
  · rfl

/-- C105 is false of the program: a service with gin routers and an OpenAPI output that comes after no other OpenAPI output; a run that succeeds, whatever faults
it survived. If the handler of an allowed entry is a method, a literal in a method, an instance of a generic function or a literal that stands in no function
with the name that comes first in its own, then its operation in the document shows the parameters of the path, and nothing about the handler: no
description, no operation id, no body, no response. -/
theorem other_handlers_not_documented (L : Lib) (E : ParseCtx → RouteEnv) (hE : ByModel L E) (U : FPath → Prop) (hL : Tame L U)
    (hch : ∀ n, ValidChoice (L.choices.route n)) (getwd : Str) (φ : Faults)
    (w w' : World Proc) (d : FPath)
    (hd : DirAt w.cwd w.st.svc.workDir d) (hg : resolve w.cwd getwd = some w.cwd) (hnames : ProperNames w.fs) (hc : ∀ x ∈ w.cwd, '/' ∉ x)
    (routers : List (List RouteInfo)) (hin : Each GinInput w.st.svc.inputs routers) (hroutes : w.st.svc.routes = [])
    (hnd : DistinctRoutes (allowed w.st.svc.denyList routers.flatten))
    (before after : List Output) (o : Output) (hout : w.st.svc.outputs = before ++ o :: after) (hown : OwnCells w.st.svc.outputs)
    (hbefore : ∀ b ∈ before, Plain b) (loc : Nat) (ho : o.generate = .openapi loc) (q : FPath) (hq : OutputPlace d w.st.svc o.generate q)
    (hplace : OwnPlace w.cwd d w.st.svc after q) (hU : ¬ U q)
    (h : Astra.parseAll L getwd φ w = (w', .ok ())) :
    ∃ doc text, w'.fs.look q = some (.file text) ∧
      L.render (isYaml (withExtension [c!".json", c!".yaml", c!".yml"] (w.st.svc.cells.getD loc []))) doc = .ok text ∧
      ∀ i ∈ allowed w.st.svc.denyList routers.flatten, i.method ∈ documentedMethods →
        (∀ j ∈ allowed w.st.svc.denyList routers.flatten, openapiPath j.path = openapiPath i.path → j.method = i.method → j = i) →
        ∃ (relative : Str) (mains : List Str), L.rel i.file = .ok relative ∧ mains.length = routers.length ∧
          ((∀ main ∈ mains, OtherHandler (E { workDir := workDirAfter getwd w.st.svc, mainPkg := main, customFuncs := w.st.svc.customFuncs })
            i.handler relative i.line) →
            ∃ op, Document.operation doc (openapiPath i.path) i.method = some op ∧ OnlyThePath op i.path) := by
  obtain ⟨m, rs, cs, names, doc, text, _, _, h3, h4, _, h6⟩ := run_documents_router L E hE U hL getwd φ w w' d hd hg hnames hc routers hin
    hroutes hnd before after o hout hown hbefore loc ho q hq hplace hU h
  refine ⟨doc, text, h3, h4, fun i hi hm huniq => ?_⟩
  obtain ⟨r, r', mains, n, hf, hlen, hown', hop⟩ := h6 i hi hm huniq
  have hf' := hf
  obtain ⟨relative, hrel, hr⟩ := hf'
  refine ⟨relative, mains, hrel, hlen, fun hoth => ?_⟩
  have hne : mains ≠ [] := by
    rintro rfl
    cases routers with
    | nil => simp [allowed] at hi
    | cons _ _ => simp at hlen
  have e := other_handler_analyses hown' (by rw [hr]; exact hoth) hne
  subst e
  exact ⟨_, hop, only_the_path hf _ _ (hch n) m⟩

/-- C105: if the source position of a handler has no absolute path, as with the wrappers that Go makes for method values, whose file is `<autogenerated>`, then
no routes are created from there on, and the creation reports an error. -/
theorem method_value_ends_creation {cwd : FPath} (hc : ∀ x ∈ cwd, FileName x) (deny : List (Str → Bool)) (infos : List RouteInfo) (rs : List Route)
    (i : RouteInfo) (hi : i ∈ allowed deny infos) (hf : i.file = c!"<autogenerated>") : (createRoutes deny (routeFile cwd) infos rs).2 ≠ none := by
  intro h
  have := (routes_created_iff hc deny infos rs).mp h i hi
  rw [hf] at this
  exact absurd this (by decide)

/-! ### Non-vacuity -/

/-- A router with the handler `Get`, the same handler code as a literal in a method, and an instance of a generic function. -/
def methodInfos : List RouteInfo :=
  [⟨c!"GET", c!"/a", c!"example.com/shop.Get", c!"shop.go", 10⟩, ⟨c!"GET", c!"/items/:item", c!"example.com/shop.(*Shop).routes.func1", c!"shop.go", 40⟩,
    ⟨c!"GET", c!"/generic", c!"example.com/shop.Get[...]", c!"shop.go", 10⟩, ⟨c!"GET", c!"/value", c!"example.com/shop.Shop.Get-fm", c!"shop.go", 50⟩]

def methodWorld : World Proc :=
  { fs := [([c!"w"], .dir), ([c!"w", c!"main.go"], .file c!"package main"), ([c!"w", c!"go.mod"], .file c!"module m\n")], cwd := [c!"w"]
    st := { svc := newService [.workDir c!"/w", .ginInput (some methodInfos), .openApiOutput c!"api.json",
      .config (some { title := c!"t", host := c!"localhost", port := 8000, basePath := c!"/" })] } }

def methodText : Str :=
  match (Astra.parseAll routerLib c!"/w" noFaults methodWorld).1.fs.look [c!"w", c!"api.json"] with
  | some (.file t) => t
  | _ => []

/-- The run succeeds and names one of the four handlers in the file. -/
theorem method_handlers_witness :
    (Astra.parseAll routerLib c!"/w" noFaults methodWorld).2 = .ok () ∧
    occurrences c!"\"operationId\"" methodText = 1 ∧ occurrences c!"\"operationId\": \"Get\"" methodText = 1 ∧
    occurrences c!"\"description\": \"Get.\"" methodText = 1 ∧ occurrences c!"\"name\": \"id\"" methodText = 1 ∧
    occurrences c!"\"name\": \"item\"" methodText = 1 ∧ occurrences c!"\"get\"" methodText = 4 := by
  refine ⟨?_, ?_, ?_, ?_, ?_, ?_, ?_⟩ <;> decide +kernel

theorem shop_identifiers : DeclaresIdentifiers demoRoutes 0 := by
  intro d hd
  simp only [demoRoutes, List.mem_cons, List.not_mem_nil, or_false] at hd
  rcases hd with rfl | rfl | rfl <;> exact ⟨by decide, by decide, by decide, by decide, by decide⟩

theorem shop_package : PackagePath c!"example.com/shop" := ⟨c!"shop", Or.inr ⟨c!"example.com", rfl⟩, by decide, by decide⟩

/-- The three other handlers are of the kinds that are not found. -/
example : OtherHandler demoRoutes c!"example.com/shop.(*Shop).routes.func1" c!"shop.go" 40 ∧
    OtherHandler demoRoutes c!"example.com/shop.Get[...]" c!"shop.go" 10 ∧ OtherHandler demoRoutes c!"example.com/shop.Shop.Get-fm" c!"shop.go" 50 ∧
    ¬ OtherHandler demoRoutes c!"example.com/shop.Get" c!"shop.go" 10 := by
  refine ⟨⟨_, 0, shop_package, rfl, Or.inl ⟨.pointerMethod c!"Shop" c!"routes.func1" ⟨by decide, by decide, by decide, by decide, by decide⟩ (by decide), shop_identifiers⟩⟩,
    ⟨_, 0, shop_package, rfl, Or.inl ⟨.instance c!"Get" [] ⟨by decide, by decide, by decide, by decide, by decide⟩ (by decide), shop_identifiers⟩⟩,
    ⟨_, 0, shop_package, rfl, Or.inr ⟨c!"Shop", .dotted c!"Get-fm" ⟨by decide, by decide, by decide, by decide, by decide⟩ (by decide), by decide +kernel⟩⟩, ?_⟩
  intro h
  obtain ⟨pkg, name, f, h1, h2, h3⟩ := other_handler_not_found h
  obtain ⟨_, e⟩ := split_function_name h1
  have e0 : (splitHandlerPath c!"example.com/shop.Get").funcName = .ok c!"Get" := by decide +kernel
  rw [e0] at e
  cases e
  exact absurd (show functionsAt c!"Get" 10 (demoRoutes.decls 0) = [] from h3) (by decide +kernel)

/-- The operation of the literal in a method has the parameter of its path and nothing else. -/
theorem demo_method_handler : ∃ doc op,
    (Astra.parseAll routerLib c!"/w" noFaults methodWorld).1.fs.look [c!"w", c!"api.json"] = some (.file (docText doc)) ∧
      Document.operation doc c!"/items/{item}" c!"GET" = some op ∧
      op = { parameters := [{ name := c!"item", loc := c!"path", required := true, schema := { type := c!"string" } }] } := by
  have hplace : OwnPlace [c!"w"] [c!"w"] methodWorld.st.svc [] [c!"w", c!"api.json"] :=
    ⟨by decide, (by rintro ⟨h, _⟩; cases h), (by intro o ho; cases ho)⟩
  obtain ⟨doc, text, h1, h2, h3⟩ := other_handlers_not_documented routerLib (fun _ => demoRoutes) routerLib_byModel (fun _ => False)
    (fun _ _ _ => ⟨fun _ _ => rfl, id, rfl, rfl, rfl, rfl, rfl, rfl, rfl, rfl⟩) (fun _ => someChoice_valid) c!"/w" noFaults
    methodWorld _ [c!"w"] (Or.inr (by decide)) (by decide) (properNames_of (by decide)) (by decide) [methodInfos] (ginInput_one rfl) rfl
    (by show (List.map _ (allowed _ _)).Nodup; decide +kernel)
    [] [] _ rfl (options_shape _).2 (by intro b hb; cases hb) 0 rfl [c!"w", c!"api.json"] (show [c!"w", c!"api.json"] = _ by decide) hplace id
    (pair_ok method_handlers_witness.1)
  have hal : allowed methodWorld.st.svc.denyList [methodInfos].flatten = methodInfos := by
    show [methodInfos].flatten.filter _ = _
    rfl
  obtain ⟨relative, mains, hrel, _, h4⟩ := h3 ⟨c!"GET", c!"/items/:item", c!"example.com/shop.(*Shop).routes.func1", c!"shop.go", 40⟩
    (by rw [hal]; simp [methodInfos]) (by decide) (by
      rw [hal]
      intro j hj
      simp only [methodInfos, List.mem_cons, List.not_mem_nil, or_false] at hj
      rcases hj with rfl | rfl | rfl | rfl
      · intro hp _; exact absurd hp (by decide)
      · intros; rfl
      · intro hp _; exact absurd hp (by decide)
      · intro hp _; exact absurd hp (by decide))
  have hrel' : relative = c!"shop.go" := by cases hrel; rfl
  subst hrel'
  obtain ⟨op, h5, h6, h7⟩ := h4 (fun _ _ => ⟨_, 0, shop_package, rfl, Or.inl ⟨.pointerMethod c!"Shop" c!"routes.func1"
    ⟨by decide, by decide, by decide, by decide, by decide⟩ (by decide), shop_identifiers⟩⟩)
  refine ⟨doc, op, ?_, h5, ?_⟩
  · rw [h1]
    have : Except.ok (docText doc) = Except.ok text := h2
    cases this
    rfl
  · have e : parametersOfPath c!"/items/:item" = [{ name := c!"item", loc := c!"path", required := true, schema := { type := c!"string" } }] := by decide +kernel
    rw [e] at h6
    have h8 := List.perm_singleton.mp h6
    obtain ⟨_, _, _, _, _⟩ := op
    simp only [Operation.blank, Operation.mk.injEq] at h7
    obtain ⟨rfl, rfl, _, rfl, rfl⟩ := h7
    simp only at h8
    subst h8
    rfl

/-- A method value after an ordinary handler: the creation ends with an error. -/
example : (createRoutes [] (routeFile [c!"w"]) [⟨c!"GET", c!"/a", c!"example.com/shop.Get", c!"/w/shop.go", 10⟩,
    ⟨c!"GET", c!"/b", c!"example.com/shop.(*Shop).Get-fm", c!"<autogenerated>", 1⟩] []).2 ≠ none :=
  method_value_ends_creation (by intro x hx; cases List.mem_singleton.mp hx; exact ⟨by decide, by decide, by decide, by decide⟩) [] _ [] ⟨c!"GET", c!"/b", c!"example.com/shop.(*Shop).Get-fm", c!"<autogenerated>", 1⟩
    (by simp [allowed]) rfl

end Astra.Props
