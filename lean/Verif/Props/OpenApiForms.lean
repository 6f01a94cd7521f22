/-
C86: the YAML form of the OpenAPI document, and when it has the same content as the JSON form.
-/
import Verif.Spec.OpenApiForms
import Verif.Props.OpenApiFile
import Verif.Props.Standard

namespace Astra.Props
open Astra.Spec Astra.Run

/-! ### The YAML file -/

/-- C86: when the generator of an OpenAPI output with a YAML file name succeeds, the file it has written is what the YAML library prints
for a tree of values that is the generated document, key by key. -/
theorem yaml_file_shows_document {L : Lib} {φ : Faults} {w w' : World Proc} {loc : Nat}
    (hy : isYaml (withExtension [c!".json", c!".yaml", c!".yml"] (w.st.svc.cells.getD loc [])) = true)
    (h : openApiGenerate L loc φ w = (w', .ok ())) :
    ∃ q doc text j,
      resolve w.cwd (pathJoin [w.st.svc.workDir, withExtension [c!".json", c!".yaml", c!".yml"] (w.st.svc.cells.getD loc [])]) = some q ∧
      w'.fs = w.fs.put q (.file text) ∧ L.yamlText j = .ok text ∧
      generateDoc L.choices w.st.names { config := w.st.svc.config, routes := w.st.svc.routes, components := w.st.svc.components, types := w.st.svc.maps.merged } = .ok doc ∧
      ShowsDocument true doc j := by
  obtain ⟨q, doc, text, h1, h2, h3, h4, h5, _⟩ := openApiGenerate_inv h
  rw [openApiExt_spec] at h2 h3
  rw [hy] at h2
  exact ⟨q, doc, text, encDocument true doc, h3, h5, h2, h1, shows_document true doc⟩

/-- C86, for a whole run: a service with gin routers and an OpenAPI output with a YAML file name, which comes after no other OpenAPI
output. If the run succeeds, whatever faults it survived, the file of the output is what the YAML library prints for a tree of values that is
the document for the result of the routers, key by key. -/
theorem run_writes_yaml (L : Lib) (hkey : KeepsKeys L)
    (U : FPath → Prop) (hL : Tame L U) (getwd : Str) (φ : Faults) (w w' : World Proc) (d : FPath)
    (hd : DirAt w.cwd w.st.svc.workDir d) (hg : resolve w.cwd getwd = some w.cwd) (hnames : ProperNames w.fs) (hc : ∀ x ∈ w.cwd, '/' ∉ x)
    (routers : List (List RouteInfo)) (hin : Each GinInput w.st.svc.inputs routers) (hroutes : w.st.svc.routes = [])
    (hnd : DistinctRoutes (allowed w.st.svc.denyList routers.flatten))
    (before after : List Output) (o : Output) (hout : w.st.svc.outputs = before ++ o :: after) (hown : OwnCells w.st.svc.outputs)
    (hbefore : ∀ b ∈ before, Plain b) (loc : Nat) (ho : o.generate = .openapi loc)
    (hy : isYaml (withExtension [c!".json", c!".yaml", c!".yml"] (w.st.svc.cells.getD loc [])) = true)
    (q : FPath) (hq : OutputPlace d w.st.svc o.generate q)
    (hplace : OwnPlace w.cwd d w.st.svc after q) (hU : ¬ U q)
    (h : Astra.parseAll L getwd φ w = (w', .ok ())) :
    ∃ m rs cs doc text j, RunResult L w.st.svc (workDirAfter getwd w.st.svc) routers m rs cs ∧
      generateDoc L.choices w.st.names { config := w.st.svc.config, routes := rs, components := cs, types := w.st.svc.maps.merged } = .ok doc ∧
      w'.fs.look q = some (.file text) ∧ L.yamlText j = .ok text ∧ ShowsDocument true doc j := by
  obtain ⟨m, rs, cs, doc, text, hres, h1, h2, h3⟩ := openapi_file_of_run L hkey U hL getwd φ w w' d hd hg hnames hc routers hin hroutes hnd
    before after o hout hown hbefore loc ho q hq hplace hU h
  rw [hy] at h2
  exact ⟨m, rs, cs, doc, text, encDocument true doc, hres, h1, h3, h2, shows_document true doc⟩

/-! ### When the two forms agree -/

theorem each_both {α β : Type} {P Q : α → β → Prop} {l : List α} {js : List β} (hp : Each P l js) (hq : Each Q l js) {a : α} (ha : a ∈ l) :
    ∃ j, P a j ∧ Q a j := by
  induction hp with
  | nil => cases ha
  | cons h1 _ ih =>
    cases hq with
    | cons k1 k2 =>
      rcases List.mem_cons.mp ha with rfl | ha
      · exact ⟨_, h1, k1⟩
      · exact ih k2 ha

theorem each_mono {α β : Type} {P Q : α → β → Prop} {l : List α} {js : List β} (hp : Each P l js) (h : ∀ a ∈ l, ∀ j, P a j → Q a j) : Each Q l js := by
  induction hp with
  | nil => exact .nil
  | cons h1 _ ih => exact .cons (h _ (by simp) _ h1) (ih fun a ha => h a (by simp [ha]))

theorem list_mono {α : Type} {P Q : α → Json → Prop} {l : List α} {v : Option Json} (h : ∀ a ∈ l, ∀ j, P a j → Q a j) (hp : ShowsList P l v) : ShowsList Q l v := by
  rcases hp with hp | ⟨h1, js, h2, h3⟩
  · exact Or.inl hp
  · exact Or.inr ⟨h1, js, h2, each_mono h3 h⟩

theorem map_mono {α : Type} {P Q : α → Json → Prop} {l : List (Str × α)} {v : Option Json} (h : ∀ e ∈ l, ∀ j, P e.2 j → Q e.2 j) (hp : ShowsMap P l v) : ShowsMap Q l v := by
  rcases hp with hp | ⟨h1, js, h2, h3⟩
  · exact Or.inl hp
  · exact Or.inr ⟨h1, js, h2, each_mono h3 fun e he j hj => ⟨hj.1, h e he _ hj.2⟩⟩

theorem optional_mono {α : Type} {P Q : α → Json → Prop} {x : Option α} {v : Option Json} (h : ∀ a, x = some a → ∀ j, P a j → Q a j) (hp : ShowsOptional P x v) : ShowsOptional Q x v := by
  cases x with
  | none => exact hp
  | some a => obtain ⟨j, h1, h2⟩ := hp; exact ⟨j, h1, h a rfl j h2⟩

theorem list_both {α : Type} {P Q : α → Json → Prop} {l : List α} {v : Option Json} (hp : ShowsList P l v) (hq : ShowsList Q l v) {a : α} (ha : a ∈ l) : ∃ j, P a j ∧ Q a j := by
  rcases hp with ⟨rfl, _⟩ | ⟨_, js, h2, h3⟩
  · cases ha
  rcases hq with ⟨rfl, _⟩ | ⟨_, js', h2', h3'⟩
  · cases ha
  rw [h2] at h2'; cases h2'
  exact each_both h3 h3' ha

theorem map_both {α : Type} {P Q : α → Json → Prop} {l : List (Str × α)} {v : Option Json} (hp : ShowsMap P l v) (hq : ShowsMap Q l v) {e : Str × α} (he : e ∈ l) :
    ∃ j, P e.2 j ∧ Q e.2 j := by
  rcases hp with ⟨rfl, _⟩ | ⟨_, js, h2, h3⟩
  · cases he
  rcases hq with ⟨rfl, _⟩ | ⟨_, js', h2', h3'⟩
  · cases he
  rw [h2] at h2'; cases h2'
  obtain ⟨j, k1, k2⟩ := each_both h3 h3' he
  exact ⟨j.2, k1.2, k2.2⟩

theorem optional_both {α : Type} {P Q : α → Json → Prop} {x : Option α} {v : Option Json} (hp : ShowsOptional P x v) (hq : ShowsOptional Q x v) {a : α} (ha : x = some a) :
    ∃ j, P a j ∧ Q a j := by
  subst ha
  obtain ⟨j, h1, h2⟩ := hp
  obtain ⟨j', h1', h2'⟩ := hq
  rw [h1] at h1'; cases h1'
  exact ⟨j, h2, h2'⟩

theorem held_change {s : Schema} (h : s ≠ {}) {a b : Bool} {v : Option Json} (hv : ShowsHeldSchema a s v) : ShowsHeldSchema b s v := by
  rcases hv with ⟨_, e, _⟩ | ⟨_, hv⟩
  · exact absurd e h
  · exact Or.inr ⟨fun e => h e.2, hv⟩

theorem held_both {s : Schema} {v : Option Json} (ht : ShowsHeldSchema true s v) (hf : ShowsHeldSchema false s v) : s ≠ {} := by
  rintro rfl
  rcases hf with ⟨e, _⟩ | ⟨_, j, h1, _⟩
  · cases e
  rcases ht with ⟨_, _, e⟩ | ⟨h, _⟩
  · rw [h1] at e; cases e
  · exact h ⟨rfl, rfl⟩

theorem operation_change {op : Operation} (h : ∀ s, InOperation op s → s ≠ {}) {a b : Bool} {j : Json} (hj : ShowsOperation a op j) : ShowsOperation b op j := by
  obtain ⟨h1, h2, h3, h4, h5, h6⟩ := hj
  refine ⟨h1, h2, h3, list_mono (fun p hp j hj => ?_) h4, optional_mono (fun c hc j hj => ?_) h5, map_mono (fun e he j hj => ?_) h6⟩
  · obtain ⟨k1, k2, k3, k4, k5, k6, k7⟩ := hj
    exact ⟨k1, k2, k3, k4, k5, k6, held_change (h _ (.parameter hp)) k7⟩
  · exact ⟨hj.1, map_mono (fun e he j hj => ⟨hj.1, held_change (h _ (.body hc he)) hj.2⟩) hj.2⟩
  · obtain ⟨k1, k2, k3, k4⟩ := hj
    exact ⟨k1, k2, map_mono (fun x hx j hj => ⟨hj.1, hj.2.1, held_change (h _ (.header he hx)) hj.2.2⟩) k3,
      map_mono (fun x hx j hj => ⟨hj.1, held_change (h _ (.response he hx)) hj.2⟩) k4⟩

theorem operation_both {op : Operation} {j : Json} (ht : ShowsOperation true op j) (hf : ShowsOperation false op j) {s : Schema} (hs : InOperation op s) : s ≠ {} := by
  obtain ⟨_, _, _, t4, t5, t6⟩ := ht
  obtain ⟨_, _, _, f4, f5, f6⟩ := hf
  cases hs with
  | parameter hp =>
    obtain ⟨j, ⟨_, _, _, _, _, _, k⟩, ⟨_, _, _, _, _, _, k'⟩⟩ := list_both t4 f4 hp
    exact held_both k k'
  | body hc he =>
    obtain ⟨j, k, k'⟩ := optional_both t5 f5 hc
    obtain ⟨j, l, l'⟩ := map_both k.2 k'.2 he
    exact held_both l.2 l'.2
  | response hr he =>
    obtain ⟨j, k, k'⟩ := map_both t6 f6 hr
    obtain ⟨j, l, l'⟩ := map_both k.2.2.2 k'.2.2.2 he
    exact held_both l.2 l'.2
  | header hr he =>
    obtain ⟨j, k, k'⟩ := map_both t6 f6 hr
    obtain ⟨j, l, l'⟩ := map_both k.2.2.1 k'.2.2.1 he
    exact held_both l.2.2 l'.2.2

theorem document_change {d : Document} (h : NothingEmpty d) {a b : Bool} {j : Json} (hj : ShowsDocument a d j) : ShowsDocument b d j := by
  obtain ⟨h1, h2, h3, h4, h5, h6⟩ := hj
  refine ⟨h1, h2, h3, h4, map_mono (fun e he j hj => ?_) h5, ?_⟩
  · obtain ⟨k, k1, k2, k3, k4, k5, k6, k7⟩ := hj
    have key : ∀ o, OfItem e.2 o → ∀ j, ShowsOperation a o j → ShowsOperation b o j := fun o ho j hj => operation_change (fun s => h.1 e.1 e.2 o s he ho) hj
    exact ⟨k, optional_mono (fun o ho => key o (by simp [OfItem, ho])) k1, optional_mono (fun o ho => key o (by simp [OfItem, ho])) k2,
      optional_mono (fun o ho => key o (by simp [OfItem, ho])) k3, optional_mono (fun o ho => key o (by simp [OfItem, ho])) k4,
      optional_mono (fun o ho => key o (by simp [OfItem, ho])) k5, optional_mono (fun o ho => key o (by simp [OfItem, ho])) k6,
      optional_mono (fun o ho => key o (by simp [OfItem, ho])) k7⟩
  · rcases h6 with ⟨_, e, _⟩ | ⟨_, h6⟩
    · exact absurd e h.2
    · exact Or.inr ⟨fun e => h.2 e.2, h6⟩

/-- C86: a tree of values can be the document in its JSON form and in its YAML form at once if and only if nothing in the document is empty
that the YAML form leaves out, and then the two forms are the same trees. Missing: the other documents, for which it is false (`not_forms_agree`). -/
theorem forms_agree_partial (d : Document) :
    ((∃ j, ShowsDocument true d j ∧ ShowsDocument false d j) ↔ NothingEmpty d) ∧ (NothingEmpty d → ∀ j, ShowsDocument true d j ↔ ShowsDocument false d j) := by
  refine ⟨⟨?_, fun h => ⟨_, shows_document true d, document_change h (shows_document true d)⟩⟩, fun h j => ⟨document_change h, document_change h⟩⟩
  rintro ⟨j, ⟨_, _, _, _, t5, t6⟩, ⟨_, _, _, _, f5, f6⟩⟩
  refine ⟨fun path i op s hi ho hs => ?_, ?_⟩
  · obtain ⟨j, ⟨_, t1, t2, t3, t4, t5, t6, t7⟩, ⟨_, f1, f2, f3, f4, f5, f6, f7⟩⟩ := map_both t5 f5 hi
    rcases ho with h | h | h | h | h | h | h
    · obtain ⟨j, k, k'⟩ := optional_both t1 f1 h; exact operation_both k k' hs
    · obtain ⟨j, k, k'⟩ := optional_both t3 f3 h; exact operation_both k k' hs
    · obtain ⟨j, k, k'⟩ := optional_both t2 f2 h; exact operation_both k k' hs
    · obtain ⟨j, k, k'⟩ := optional_both t7 f7 h; exact operation_both k k' hs
    · obtain ⟨j, k, k'⟩ := optional_both t4 f4 h; exact operation_both k k' hs
    · obtain ⟨j, k, k'⟩ := optional_both t6 f6 h; exact operation_both k k' hs
    · obtain ⟨j, k, k'⟩ := optional_both t5 f5 h; exact operation_both k k' hs
  · intro e
    rcases f6 with ⟨e', _⟩ | ⟨_, j, h1, _⟩
    · cases e'
    rcases t6 with ⟨_, _, e'⟩ | ⟨h, _⟩
    · rw [h1] at e'; cases e'
    · exact h ⟨rfl, e⟩

/-! ### Where they differ -/

/-- A handler that binds a struct with a field of the type `any` to the query. -/
def anyService : OpenApiInput :=
  { refService with
    routes := [{ method := c!"GET", path := c!"/find", queryParams := [{ isBound := true, field := { type := c!"F", package := c!"p" } }], returnTypes := [okReturn] }]
    components := [{ name := c!"F", package := c!"p", type := c!"struct", structFields := [(c!"Value", { type := c!"any", bindingTags := [(.form, { name := c!"value" })] })] }] }

/-- The only parameter of an operation in a tree of values. -/
def parameterIn (j : Json) (path method : Str) : Option Json :=
  match ((keyOf j c!"paths").bind (keyOf · path)).bind (fun p => (keyOf p method).bind (keyOf · c!"parameters")) with
  | some (.arr [p]) => some p
  | _ => none

/-- C86, negation: a parameter without a restriction on its value has a schema in the JSON form and none in the YAML form, although the
OpenAPI standard demands `schema` or `content`. No tree of values is both forms. -/
theorem not_forms_agree : generateDoc someChoices [] anyService = .ok (docOf anyService) ∧
    (parameterIn (encDocument false (docOf anyService)) c!"/find" c!"get").map (fun p => (keyOf p c!"schema").isSome) = some true ∧
    (parameterIn (encDocument true (docOf anyService)) c!"/find" c!"get").map (fun p => (keyOf p c!"schema").isSome || (keyOf p c!"content").isSome) = some false ∧
    ¬ ∃ j, ShowsDocument true (docOf anyService) j ∧ ShowsDocument false (docOf anyService) j := by
  refine ⟨by decide +kernel, by decide +kernel, by decide +kernel, fun h => ?_⟩
  have hn := (forms_agree_partial _).1.mp h
  have hm : (c!"/find", ({ get := some { parameters := [{ name := c!"value", loc := c!"query", style := c!"form" }], responses := [(c!"200", {})] } } : PathItem)) ∈
      (docOf anyService).paths := by decide +kernel
  exact hn.1 _ _ _ _ hm (Or.inl rfl) (.parameter (List.mem_singleton.mpr rfl)) rfl

/-- C86, negation: without components the JSON form has an empty object for them and the YAML form has nothing. -/
theorem not_forms_agree_components :
    let svc : OpenApiInput := { withRoute { method := c!"GET", path := c!"/a", returnTypes := [okReturn] } with components := [] }
    generateDoc someChoices [] svc = .ok (docOf svc) ∧
    (keyOf (encDocument false (docOf svc)) c!"components").isSome = true ∧ (keyOf (encDocument true (docOf svc)) c!"components").isSome = false := by
  decide +kernel

/-! ### Non-vacuity -/

/-- The schemas of an operation, as a list. -/
def schemasOf (op : Operation) : List Schema :=
  op.parameters.map (·.schema) ++ (op.requestBody.getD []).map (·.2) ++ op.responses.flatMap (fun r => r.2.content.map (·.2) ++ r.2.headers.map (·.2.schema))

theorem schemasOf_mem {op : Operation} {s : Schema} (h : InOperation op s) : s ∈ schemasOf op := by
  unfold schemasOf
  cases h with
  | parameter hp => simp only [List.mem_append]; exact .inl (.inl (List.mem_map.mpr ⟨_, hp, rfl⟩))
  | body hc he => simp only [List.mem_append, hc, Option.getD_some]; exact .inl (.inr (List.mem_map.mpr ⟨_, he, rfl⟩))
  | response hr he => simp only [List.mem_append, List.mem_flatMap]; exact .inr ⟨_, hr, .inl (List.mem_map.mpr ⟨_, he, rfl⟩)⟩
  | header hr he => simp only [List.mem_append, List.mem_flatMap]; exact .inr ⟨_, hr, .inr (List.mem_map.mpr ⟨_, he, rfl⟩)⟩

/-- The document of the shop has nothing empty. -/
example : NothingEmpty (docOf shopService) := by
  refine ⟨fun path i op s hi ho hs => ?_, by decide +kernel⟩
  have h : (docOf shopService).paths.all (fun e => ([e.2.get, e.2.post, e.2.put, e.2.patch, e.2.delete, e.2.head, e.2.options].filterMap id).all
    (fun o => (schemasOf o).all (· ≠ {}))) = true := by decide +kernel
  rw [List.all_eq_true] at h
  have h := h _ hi
  rw [List.all_eq_true] at h
  have h := h op (List.mem_filterMap.mpr ⟨some op, by
    rcases ho with e | e | e | e | e | e | e <;> simp [e], rfl⟩)
  rw [List.all_eq_true] at h
  simpa using h s (schemasOf_mem hs)

/-- The world of the example of C80, with a YAML file. -/
def yamlWorld : World Proc :=
  { routerWorld with
    st := { svc := newService [.workDir c!"/w", .ginInput (some routerInfos), .jsonOutput c!"routes", .openApiOutput c!"api.yml", .jsonOutput c!"again",
      .deny (.exact c!"/secret"), .config (some { title := c!"t", host := c!"localhost", port := 8000, basePath := c!"/" })] } }

/-- A library that prints a tree of values as JSON, which is YAML. -/
def yamlLib : Lib := { fileLib with yamlText := fun j => .ok (marshalIndent j) }

/-- The run of the example succeeds, and the operation of the second entry is in the file. -/
example : (Astra.parseAll yamlLib c!"/w" noFaults yamlWorld).2 = .ok () ∧
    isYaml (withExtension [c!".json", c!".yaml", c!".yml"] (yamlWorld.st.svc.cells.getD 1 [])) = true ∧
    ((Astra.parseAll yamlLib c!"/w" noFaults yamlWorld).1.fs.look [c!"w", c!"api.yml"]).bind (fun n => match n with
      | .file text => (decodeText text).bind (fun j => ((keyOf j c!"paths").bind (keyOf · c!"/b")).bind (fun p => (keyOf p c!"get").bind (fun o =>
          match keyOf o c!"operationId" with
          | some (.str s) => some s
          | _ => none)))
      | .dir => none) = some c!"get" := by
  refine ⟨?_, ?_, ?_⟩ <;> decide +kernel

end Astra.Props
