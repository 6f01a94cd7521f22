/-
C89, C90, C91 for a whole run.
-/
import Verif.Props.Sent

namespace Astra.Props
open Astra.Spec

theorem typed_rooted {E : ParseCtx → RouteEnv} {Γ : TypeEnv} {D : TName → Prop} (h : TypedProgram E Γ D) (hD : OwnTypes Γ D) (ctx : ParseCtx) :
    ProgKeeps (E ctx).prog (Rooted Γ D) := by
  refine ⟨h.plain ctx, ?_⟩
  intro file id name hf a ha t ht k st pkg st' r hr hI
  rw [h.types ctx] at hr
  exact typeResult_rooted hD k t (fun x hx => h.args ctx file id name a t x hf ha ht hx) _ _ _ _ _ hr hI

/-- The arguments of the calls of a handler are among those of the program. -/
theorem calls_args {P : Prog} {file : FileId} {ctx : Str} {nodes : List Node} {pkg m : Str} {args : List ArgView}
    (h : Calls P file ctx nodes pkg m args) : ∃ file id, (P.view file id).func = .ok (true, m) ∧ args = (P.view file id).args := by
  induction h with
  | here _ h => exact ⟨_, _, h, rfl⟩
  | helper _ _ _ _ ih => exact ih
  | inside _ _ ih => exact ih
  | under _ ih => exact ih
  | later _ ih => exact ih

/-- The types of a translated argument are recorded. -/
theorem translated_recorded {Γ : TypeEnv} {D : TName → Prop} (hD : OwnTypes Γ D) {t : GoType} (ht : ∀ x, Occurs t x → D x) {cs : List Field}
    (hcs : Rooted Γ D cs) (h : Translated Γ t cs) : ∀ x, Occurs t x → Recorded Γ D cs x := by
  obtain ⟨pkg, c, c', r, h1, h2⟩ := h
  intro x hx
  have hn := hD.names x (ht x hx)
  have hc := components_closed_partial Γ c (some pkg) t c' r h1 x (.direct hx) hn.1 hn.2 (hD.own x (ht x hx))
  exact ⟨ht x hx, raw_of_component hD hcs (ht x hx) (hc.mono h2)⟩

theorem sends_recorded {E : ParseCtx → RouteEnv} {Γ : TypeEnv} {D : TName → Prop} (hT : TypedProgram E Γ D) (hD : OwnTypes Γ D) {ctx : ParseCtx}
    {cs : List Field} (hcs : Rooted Γ D cs) {file : FileId} {c : Str} {nodes : List Node}
    (h : TranslatedAll (E ctx).prog file c nodes cs) :
    (∀ code t, SendsJson (E ctx).prog file c nodes code t → ∀ x, Occurs t x → Recorded Γ D cs x) ∧
    (∀ t, BindsJson (E ctx).prog file c nodes t → ∀ x, Occurs t x → Recorded Γ D cs x) := by
  have key : ∀ pkg m args (i : Nat) a t cc, Calls (E ctx).prog file c nodes pkg m args → ctxCase m = some cc →
      cc.ops[i]? = some .expressionResult → args[i]? = some a → a.type = .ok t → ∀ x, Occurs t x → Recorded Γ D cs x := by
    intro pkg m args i a t cc hC hm hi ha hat
    have h1 := h pkg m args cc i a t hC hm hi ha hat
    rw [hT.types ctx] at h1
    obtain ⟨file', id, hf, rfl⟩ := calls_args hC
    exact translated_recorded hD (fun x hx => hT.args ctx file' id m a t x hf (List.mem_of_getElem? ha) hat hx) hcs h1
  refine ⟨?_, ?_⟩
  · rintro code t ⟨pkg, m, args, a, hC, hm, _, ha, hat⟩
    simp only [List.mem_cons, List.not_mem_nil, or_false] at hm
    rcases hm with rfl | rfl
    · exact key _ _ _ 1 a t _ hC rfl rfl ha hat
    · exact key _ _ _ 1 a t _ hC rfl rfl ha hat
  · rintro t ⟨pkg, m, args, a, hC, hm, ha, hat⟩
    simp only [List.mem_cons, List.not_mem_nil, or_false] at hm
    rcases hm with rfl | rfl | rfl | rfl
    · exact key _ _ _ 0 a t _ hC rfl rfl ha hat
    · exact key _ _ _ 0 a t _ hC rfl rfl ha hat
    · exact key _ _ _ 0 a t _ hC rfl rfl ha hat
    · exact key _ _ _ 0 a t _ hC rfl rfl ha hat

/-- What is known about an allowed entry after the run. -/
structure EntryAfter (E : Str → RouteEnv) (Γ : TypeEnv) (R : TName → Prop) (names : List (Str × Str)) (types : List (Str × TypeFormat)) (m : Str)
    (doc : Document) (i : RouteInfo) (relative : Str) (mains : List Str) (comment id : Str) (es : List Entry) (n : Nat) : Prop where
  operation : ∃ cs ch r', Stage i.handler relative i.line i.path comment id es n r' ∧
    Document.operation doc (openapiPath i.path) i.method = some (operationOf { types := types, names := names } cs ch (cleanRoute m r'))
  sends : ∀ main ∈ mains, ∀ code t, HandlerSends (E main) i.handler relative i.line code t → ∀ x, Occurs t x → R x
  binds : ∀ main ∈ mains, ∀ t, HandlerBinds (E main) i.handler relative i.line t → ∀ x, Occurs t x → R x

/-- What is known about the components and the operations after a run. -/
theorem run_components (L : Lib) (E : ParseCtx → RouteEnv) (hE : ByModel L E) (U : FPath → Prop) (hL : Tame L U) (getwd : Str) (φ : Faults)
    (w w' : World Proc) (d : FPath)
    (hd : DirAt w.cwd w.st.svc.workDir d) (hg : resolve w.cwd getwd = some w.cwd) (hnames : ProperNames w.fs) (hc : ∀ x ∈ w.cwd, '/' ∉ x)
    (routers : List (List RouteInfo)) (hin : Each GinInput w.st.svc.inputs routers) (hroutes : w.st.svc.routes = [])
    (hnd : DistinctRoutes (allowed w.st.svc.denyList routers.flatten))
    (before after : List Output) (o : Output) (hout : w.st.svc.outputs = before ++ o :: after) (hown : OwnCells w.st.svc.outputs)
    (hbefore : ∀ b ∈ before, Plain b) (loc : Nat) (ho : o.generate = .openapi loc) (q : FPath) (hq : OutputPlace d w.st.svc o.generate q)
    (hplace : OwnPlace w.cwd d w.st.svc after q) (hU : ¬ U q)
    (hcomp : w.st.svc.components = []) (hnm : w.st.names = [])
    (Γ : TypeEnv) (D : TName → Prop) (hT : TypedProgram E Γ D)
    (h : Astra.parseAll L getwd φ w = (w', .ok ())) :
    ∃ m rs cs1 doc text names, RunResult L w.st.svc (workDirAfter getwd w.st.svc) routers m rs (cs1.map (cleanField m)) ∧ w'.fs.look q = some (.file text) ∧
      L.render (isYaml (withExtension [c!".json", c!".yaml", c!".yml"] (w.st.svc.cells.getD loc []))) doc = .ok text ∧
      generateDoc L.choices [] { config := w.st.svc.config, routes := rs, components := cs1.map (cleanField m), types := w.st.svc.maps.merged } = .ok doc ∧
      makeNames L.choices.groups (cs1.map (cleanField m)) [] = .ok names ∧
      (OwnTypes Γ D → Rooted Γ D cs1) ∧
      ∀ i ∈ allowed w.st.svc.denyList routers.flatten, i.method ∈ documentedMethods →
        (∀ j ∈ allowed w.st.svc.denyList routers.flatten, openapiPath j.path = openapiPath i.path → j.method = i.method → j = i) →
        ∃ (relative : Str) (mains : List Str), L.rel i.file = .ok relative ∧ mains.length = routers.length ∧ 0 < routers.length ∧ ∀ comment id es,
          (∀ main ∈ mains, HandlerView (E { workDir := workDirAfter getwd w.st.svc, mainPkg := main, customFuncs := w.st.svc.customFuncs })
            i.handler relative i.line comment id es) →
          (∃ n r', Stage i.handler relative i.line i.path comment id es routers.length r' ∧
            Document.operation doc (openapiPath i.path) i.method =
              some (operationOf { types := w.st.svc.maps.merged, names := names } (cs1.map (cleanField m)) (L.choices.route n) (cleanRoute m r'))) ∧
          ∀ main ∈ mains, ∀ fileId name f named ctx, HandlerIs (E { workDir := workDirAfter getwd w.st.svc, mainPkg := main, customFuncs := w.st.svc.customFuncs })
            i.handler relative i.line fileId name f named →
            ContextParam (E { workDir := workDirAfter getwd w.st.svc, mainPkg := main, customFuncs := w.st.svc.customFuncs }).prog f fileId ctx →
            TranslatedAll (E { workDir := workDirAfter getwd w.st.svc, mainPkg := main, customFuncs := w.st.svc.customFuncs }).prog fileId ctx
              ((E { workDir := workDirAfter getwd w.st.svc, mainPkg := main, customFuncs := w.st.svc.customFuncs }).prog.funcs f).body cs1 := by
  obtain ⟨m, rs, cs, doc, text, hres, h1, h2, h3⟩ := openapi_file_of_run L hE.keeps U hL getwd φ w w' d hd hg hnames hc routers hin hroutes hnd
    before after o hout hown hbefore loc ho q hq hplace hU h
  have hk : rs.map (fun r => (r.path, r.method)) = (allowed w.st.svc.denyList routers.flatten).map (fun i => (i.path, i.method)) :=
    result_keys hE.keeps hres
  obtain ⟨found, m1, cs1, rs1, b1, b2, _, b4, b5⟩ := id hres
  rw [hcomp] at b2
  rw [hnm] at h1
  subst b5
  obtain ⟨names, hn', hops⟩ := route_operation _ _ _ _ h1
  refine ⟨m, rs, cs1, doc, text, names, hres, h3, h2, h1, hn', fun hown' => passes_keep hE (fun ctx => typed_rooted hT hown' ctx) b2 (rooted_nil Γ D), ?_⟩
  intro i hi hm huniq
  obtain ⟨pre, post, epp⟩ := List.append_of_mem hi
  rw [epp] at b1
  obtain ⟨pre', r, post', rfl, p1, p2, p3⟩ := each_split b1
  obtain ⟨pre'', r', post'', mains, rfl, q0, q1, q2, q3, q4, q5⟩ := passes_split_all hE hT.plain rfl b2
  obtain ⟨relative, hrel, hr⟩ := id p2
  have hpath : r'.path = i.path := by rw [q1, hr]
  have hmeth : r'.method = i.method := by rw [q2, hr]
  have op := hops (pre''.map (cleanRoute m)) (post''.map (cleanRoute m)) (cleanRoute m r') (by simp [b4]) (by
      show r'.method ∈ _; rw [hmeth]; exact hm) (by
    rintro x hx ⟨hx1, hx2⟩
    have hx1 : openapiPath x.path = openapiPath r'.path := hx1
    have hx2 : x.method = r'.method := hx2
    have e : (post''.map (cleanRoute m)).map (fun r => (r.path, r.method)) = post.map (fun i => (i.path, i.method)) := by
      rw [map_paths_clean, q4, found_keys p3]
    have : (x.path, x.method) ∈ (post''.map (cleanRoute m)).map (fun r => (r.path, r.method)) := List.mem_map.mpr ⟨x, hx, rfl⟩
    rw [e] at this
    obtain ⟨j, hj, ej⟩ := List.mem_map.mp this
    have ej1 : j.path = x.path := congrArg Prod.fst ej
    have ej2 : j.method = x.method := congrArg Prod.snd ej
    have hji := huniq j (by rw [epp]; simp [hj]) (by rw [ej1, hx1, hpath]) (by rw [ej2, hx2, hmeth])
    subst hji
    unfold DistinctRoutes at hnd
    rw [epp, List.map_append, List.map_cons, List.nodup_append] at hnd
    exact (List.nodup_cons.mp hnd.2.1).1 (List.mem_map.mpr ⟨j, hj, rfl⟩))
  have op : Document.operation doc (openapiPath r'.path) r'.method = _ := op
  rw [hpath, hmeth] at op
  have hpos : 0 < routers.length := by
    cases routers with
    | nil => simp [allowed] at hi
    | cons _ _ => exact Nat.succ_pos _
  refine ⟨relative, mains, hrel, q0, hpos, ?_⟩
  intro comment id es hv
  have S := stage_steps q3 0 (show Stage i.handler relative i.line i.path comment id es 0 r from by
    subst hr
    exact ⟨rfl, rfl, rfl, rfl, Or.inr ⟨rfl, rfl⟩, Or.inr ⟨rfl, rfl⟩, by simp, by simp, by simp, rfl, rfl, rfl, rfl⟩) hv
  rw [Nat.zero_add, q0] at S
  have key : ∀ main ∈ mains, ∀ fileId name f named ctx, HandlerIs (E { workDir := workDirAfter getwd w.st.svc, mainPkg := main, customFuncs := w.st.svc.customFuncs })
      i.handler relative i.line fileId name f named →
      ContextParam (E { workDir := workDirAfter getwd w.st.svc, mainPkg := main, customFuncs := w.st.svc.customFuncs }).prog f fileId ctx →
      TranslatedAll (E { workDir := workDirAfter getwd w.st.svc, mainPkg := main, customFuncs := w.st.svc.customFuncs }).prog fileId ctx
        ((E { workDir := workDirAfter getwd w.st.svc, mainPkg := main, customFuncs := w.st.svc.customFuncs }).prog.funcs f).body cs1 := by
    intro main hmain fileId name f named ctx hh hctx
    obtain ⟨fileId', name', f', named', ctx', hh', hctx', han, _⟩ := hv main hmain
    obtain ⟨rfl, rfl, rfl⟩ := handler_unique hh hh'
    have := contextParam_unique hctx hctx'
    subst this
    obtain ⟨k, c1, c2, r0, r1, t1, t2, t3⟩ := q5 main hmain
    have hid : r0.handler = i.handler ∧ r0.file = relative ∧ r0.lineNo = i.line := by
      subst hr
      exact ⟨t2.1, t2.2.1, t2.2.2.1⟩
    have ht := route_translates t1 (hT.plain _) (by rw [hid.1, hid.2.1, hid.2.2]; exact hh') hctx' han
    exact ht.mono t3
  exact ⟨⟨_, r', S, op⟩, key⟩

theorem run_types (L : Lib) (E : ParseCtx → RouteEnv) (hE : ByModel L E) (U : FPath → Prop) (hL : Tame L U) (getwd : Str) (φ : Faults)
    (w w' : World Proc) (d : FPath)
    (hd : DirAt w.cwd w.st.svc.workDir d) (hg : resolve w.cwd getwd = some w.cwd) (hnames : ProperNames w.fs) (hc : ∀ x ∈ w.cwd, '/' ∉ x)
    (routers : List (List RouteInfo)) (hin : Each GinInput w.st.svc.inputs routers) (hroutes : w.st.svc.routes = [])
    (hnd : DistinctRoutes (allowed w.st.svc.denyList routers.flatten))
    (before after : List Output) (o : Output) (hout : w.st.svc.outputs = before ++ o :: after) (hown : OwnCells w.st.svc.outputs)
    (hbefore : ∀ b ∈ before, Plain b) (loc : Nat) (ho : o.generate = .openapi loc) (q : FPath) (hq : OutputPlace d w.st.svc o.generate q)
    (hplace : OwnPlace w.cwd d w.st.svc after q) (hU : ¬ U q)
    (hcomp : w.st.svc.components = []) (hnm : w.st.names = []) (hord : AnyOrder L.choices.groups)
    (Γ : TypeEnv) (marshal : Str → Str → Option (Json → Prop)) (D : TName → Prop) (hT : TypedProgram E Γ D)
    (h : Astra.parseAll L getwd φ w = (w', .ok ())) :
    ∃ m rs cs doc text, RunResult L w.st.svc (workDirAfter getwd w.st.svc) routers m rs cs ∧ w'.fs.look q = some (.file text) ∧
      L.render (isYaml (withExtension [c!".json", c!".yaml", c!".yml"] (w.st.svc.cells.getD loc []))) doc = .ok text ∧
      (Documentable Γ marshal w.st.svc.maps.merged m D → ∃ names R, (∀ x, R x → D x) ∧
        Describing Γ marshal doc.schemas (targetOf names m .json) R ∧
        (∀ n e, (n, e) ∈ doc.schemas → ∃ x, R x ∧ targetOf names m .json x.1 x.2.1 = some n ∧ e.description = typeDoc Γ x.1 x.2.1) ∧
        (∀ x y, R x → R y → targetOf names m .json x.1 x.2.1 = targetOf names m .json y.1 y.2.1 → x = y) ∧
        ∀ i ∈ allowed w.st.svc.denyList routers.flatten, i.method ∈ documentedMethods →
          (∀ j ∈ allowed w.st.svc.denyList routers.flatten, openapiPath j.path = openapiPath i.path → j.method = i.method → j = i) →
          ∃ relative mains, L.rel i.file = .ok relative ∧ mains.length = routers.length ∧ 0 < routers.length ∧ ∀ comment id es,
            (∀ main ∈ mains, HandlerView (E { workDir := workDirAfter getwd w.st.svc, mainPkg := main, customFuncs := w.st.svc.customFuncs })
              i.handler relative i.line comment id es) →
            EntryAfter (fun main => E { workDir := workDirAfter getwd w.st.svc, mainPkg := main, customFuncs := w.st.svc.customFuncs }) Γ R names
              w.st.svc.maps.merged m doc i relative mains comment id es routers.length) := by
  obtain ⟨m, rs, cs1, doc, text, names, hres, h3, h2, h1, hn', hrt, hall⟩ := run_components L E hE U hL getwd φ w w' d hd hg hnames hc routers hin hroutes hnd
    before after o hout hown hbefore loc ho q hq hplace hU hcomp hnm Γ D hT h
  refine ⟨m, rs, _, doc, text, hres, h3, h2, fun hdoc => ?_⟩
  have hown' := Documentable.ownTypes hdoc
  have hroot := hrt hown'
  have hdoc' := Documentable.recorded hdoc hroot
  obtain ⟨names', n1, n2, n3, n4⟩ := document_describes_core hdoc' (s := { config := w.st.svc.config, routes := rs, components := cs1.map (cleanField m), types := w.st.svc.maps.merged })
    rfl (rooted_made hroot m) L.choices hord h1
  rw [hn'] at n1
  cases n1
  refine ⟨names, Recorded Γ D cs1, fun x hx => hx.1, ?_, ?_, n4, ?_⟩
  · intro x hx
    obtain ⟨n, e, k1, k2⟩ := n2 x hx
    obtain ⟨x', k3, k4, k5, _⟩ := n3 n e k2
    have : x = x' := n4 x x' hx k3 (k1.trans k4.symm)
    subst this
    exact ⟨n, e, k1, k2, k5⟩
  · intro n e he
    obtain ⟨x, k1, k2, _, k3⟩ := n3 n e he
    exact ⟨x, k1, k2, k3⟩
  · intro i hi hm huniq
    obtain ⟨relative, mains, hrel, q0, hpos, hE'⟩ := hall i hi hm huniq
    refine ⟨relative, mains, hrel, q0, hpos, fun comment id es hv => ?_⟩
    obtain ⟨⟨n, r', S, op⟩, key⟩ := hE' comment id es hv
    refine ⟨⟨_, _, r', S, op⟩, ?_, ?_⟩
    · rintro main hmain code t ⟨fileId, name, f, named, ctx, hh, hctx, hs⟩
      exact (sends_recorded hT hown' hroot (key main hmain fileId name f named ctx hh hctx)).1 code t hs
    · rintro main hmain t ⟨fileId, name, f, named, ctx, hh, hctx, hs⟩
      exact (sends_recorded hT hown' hroot (key main hmain fileId name f named ctx hh hctx)).2 t hs

/-- C89: the schemas of the document a successful run writes. There is a set of defined types, all of them types of the program and among
them every type that occurs in a type that a handler sends or reads as JSON, such that the types of the set and the schemas of the document
correspond one to one, and the schema of a type describes it: it is the registered format of a type that has one, an object with exactly
the members that encoding/json encodes a struct as, or the schema of the definition; and the types its members refer to are in the set
again. -/
theorem run_describes_types_partial (L : Lib) (E : ParseCtx → RouteEnv) (hE : ByModel L E) (U : FPath → Prop) (hL : Tame L U) (getwd : Str) (φ : Faults)
    (w w' : World Proc) (d : FPath)
    (hd : DirAt w.cwd w.st.svc.workDir d) (hg : resolve w.cwd getwd = some w.cwd) (hnames : ProperNames w.fs) (hc : ∀ x ∈ w.cwd, '/' ∉ x)
    (routers : List (List RouteInfo)) (hin : Each GinInput w.st.svc.inputs routers) (hroutes : w.st.svc.routes = [])
    (hnd : DistinctRoutes (allowed w.st.svc.denyList routers.flatten))
    (before after : List Output) (o : Output) (hout : w.st.svc.outputs = before ++ o :: after) (hown : OwnCells w.st.svc.outputs)
    (hbefore : ∀ b ∈ before, Plain b) (loc : Nat) (ho : o.generate = .openapi loc) (q : FPath) (hq : OutputPlace d w.st.svc o.generate q)
    (hplace : OwnPlace w.cwd d w.st.svc after q) (hU : ¬ U q)
    (hcomp : w.st.svc.components = []) (hnm : w.st.names = []) (hord : AnyOrder L.choices.groups)
    (Γ : TypeEnv) (marshal : Str → Str → Option (Json → Prop)) (D : TName → Prop) (hT : TypedProgram E Γ D)
    (h : Astra.parseAll L getwd φ w = (w', .ok ())) :
    ∃ m rs cs doc text, RunResult L w.st.svc (workDirAfter getwd w.st.svc) routers m rs cs ∧ w'.fs.look q = some (.file text) ∧
      L.render (isYaml (withExtension [c!".json", c!".yaml", c!".yml"] (w.st.svc.cells.getD loc []))) doc = .ok text ∧
      (Documentable Γ marshal w.st.svc.maps.merged m D → ∃ (R : TName → Prop) (target : Str → Str → Option Str),
        (∀ x, R x → D x) ∧
        (∀ x, R x → ∃ n e, target x.1 x.2.1 = some n ∧ (n, e) ∈ doc.schemas ∧ Describes Γ marshal target R x e) ∧
        (∀ n e, (n, e) ∈ doc.schemas → ∃ x, R x ∧ target x.1 x.2.1 = some n) ∧
        (∀ x y, R x → R y → target x.1 x.2.1 = target y.1 y.2.1 → x = y) ∧
        ∀ i ∈ allowed w.st.svc.denyList routers.flatten, i.method ∈ documentedMethods →
          (∀ j ∈ allowed w.st.svc.denyList routers.flatten, openapiPath j.path = openapiPath i.path → j.method = i.method → j = i) →
          ∃ (relative : Str) (mains : List Str), L.rel i.file = .ok relative ∧ mains.length = routers.length ∧ ∀ (comment id : Str) (es : List Entry),
            (∀ main ∈ mains, HandlerView (E { workDir := workDirAfter getwd w.st.svc, mainPkg := main, customFuncs := w.st.svc.customFuncs })
              i.handler relative i.line comment id es) →
            ∀ main ∈ mains, ∀ t, ((∃ code, HandlerSends (E { workDir := workDirAfter getwd w.st.svc, mainPkg := main, customFuncs := w.st.svc.customFuncs }) i.handler relative i.line code t) ∨
                HandlerBinds (E { workDir := workDirAfter getwd w.st.svc, mainPkg := main, customFuncs := w.st.svc.customFuncs }) i.handler relative i.line t) →
              ∀ x, Occurs t x → R x) := by
  obtain ⟨m, rs, cs, doc, text, h1, h2, h3, h4⟩ := run_types L E hE U hL getwd φ w w' d hd hg hnames hc routers hin
    hroutes hnd before after o hout hown hbefore loc ho q hq hplace hU hcomp hnm hord Γ marshal D hT h
  refine ⟨m, rs, cs, doc, text, h1, h2, h3, fun hdoc => ?_⟩
  obtain ⟨names, R, k1, k2, k3, k4, k5⟩ := h4 hdoc
  refine ⟨R, targetOf names m .json, k1, k2, fun n e he => (k3 n e he).imp (fun _ hx => ⟨hx.1, hx.2.1⟩), k4, fun i hi hm hu => ?_⟩
  obtain ⟨relative, mains, e1, e2, _, e3⟩ := k5 i hi hm hu
  refine ⟨relative, mains, e1, e2, fun comment id es hv main hmain t ht => ?_⟩
  have A := e3 comment id es hv
  rcases ht with ⟨code, ht⟩ | ht
  · exact A.sends main hmain code t ht
  · exact A.binds main hmain t ht

/-- C90: what a handler sends, the document of a successful run admits. If every JSON response a handler sends with a status code is made
of values of one type, the response of that code is documented with a JSON schema that admits the encoding of every value of the type
(that contains no nil); only for interface types, of which nothing is known, the content may be left open. -/
theorem run_admits_sent_json_partial (L : Lib) (E : ParseCtx → RouteEnv) (hE : ByModel L E) (U : FPath → Prop) (hL : Tame L U) (getwd : Str) (φ : Faults)
    (w w' : World Proc) (d : FPath)
    (hd : DirAt w.cwd w.st.svc.workDir d) (hg : resolve w.cwd getwd = some w.cwd) (hnames : ProperNames w.fs) (hc : ∀ x ∈ w.cwd, '/' ∉ x)
    (routers : List (List RouteInfo)) (hin : Each GinInput w.st.svc.inputs routers) (hroutes : w.st.svc.routes = [])
    (hnd : DistinctRoutes (allowed w.st.svc.denyList routers.flatten))
    (before after : List Output) (o : Output) (hout : w.st.svc.outputs = before ++ o :: after) (hown : OwnCells w.st.svc.outputs)
    (hbefore : ∀ b ∈ before, Plain b) (loc : Nat) (ho : o.generate = .openapi loc) (q : FPath) (hq : OutputPlace d w.st.svc o.generate q)
    (hplace : OwnPlace w.cwd d w.st.svc after q) (hU : ¬ U q)
    (hcomp : w.st.svc.components = []) (hnm : w.st.names = []) (hord : AnyOrder L.choices.groups)
    (Γ : TypeEnv) (marshal : Str → Str → Option (Json → Prop)) (D : TName → Prop) (hT : TypedProgram E Γ D)
    (h : Astra.parseAll L getwd φ w = (w', .ok ())) :
    ∃ m rs cs doc text, RunResult L w.st.svc (workDirAfter getwd w.st.svc) routers m rs cs ∧ w'.fs.look q = some (.file text) ∧
      L.render (isYaml (withExtension [c!".json", c!".yaml", c!".yml"] (w.st.svc.cells.getD loc []))) doc = .ok text ∧
      (Documentable Γ marshal w.st.svc.maps.merged m D →
        ∀ i ∈ allowed w.st.svc.denyList routers.flatten, i.method ∈ documentedMethods →
          (∀ j ∈ allowed w.st.svc.denyList routers.flatten, openapiPath j.path = openapiPath i.path → j.method = i.method → j = i) →
          ∃ (relative : Str) (mains : List Str), L.rel i.file = .ok relative ∧ mains.length = routers.length ∧ ∀ (comment id : Str) (es : List Entry),
            (∀ main ∈ mains, HandlerView (E { workDir := workDirAfter getwd w.st.svc, mainPkg := main, customFuncs := w.st.svc.customFuncs })
              i.handler relative i.line comment id es) →
            ∀ code t v, (∃ main ∈ mains, HandlerSends (E { workDir := workDirAfter getwd w.st.svc, mainPkg := main, customFuncs := w.st.svc.customFuncs }) i.handler relative i.line code t) →
              (∀ main ∈ mains, ∀ t', HandlerSends (E { workDir := workDirAfter getwd w.st.svc, mainPkg := main, customFuncs := w.st.svc.customFuncs }) i.handler relative i.line code t' → t' = t) →
              Describable Γ t → ¬ IsArray t → Encodes Γ marshal false t v →
              ∃ op resp, Document.operation doc (openapiPath i.path) i.method = some op ∧ mget op.responses (itoa code) = some resp ∧
                ((∃ s, mget resp.content c!"application/json" = some s ∧ Admits doc.schemas s v) ∨ IsInterface t)) := by
  obtain ⟨m, rs, cs, doc, text, h1, h2, h3, h4⟩ := run_types L E hE U hL getwd φ w w' d hd hg hnames hc routers hin
    hroutes hnd before after o hout hown hbefore loc ho q hq hplace hU hcomp hnm hord Γ marshal D hT h
  refine ⟨m, rs, cs, doc, text, h1, h2, h3, fun hdoc => ?_⟩
  obtain ⟨names, R, _, k2, _, _, k5⟩ := h4 hdoc
  intro i hi hm hu
  obtain ⟨relative, mains, e1, e2, e0, e3⟩ := k5 i hi hm hu
  refine ⟨relative, mains, e1, e2, fun comment id es hv code t v ⟨main, hmain, hs⟩ hone hd ha hen => ?_⟩
  have A := e3 comment id es hv
  have hocc := A.sends main hmain code t hs
  obtain ⟨cs', ch, r', S, hop⟩ := A.operation
  obtain ⟨fileId, name, f, named, ctx, hh, hctx, han, _, _⟩ := hv main hmain
  obtain ⟨n, hn⟩ : ∃ n, routers.length = n + 1 := ⟨routers.length - 1, by omega⟩
  rw [hn] at S
  have J := analysed_json (hT.plain _) han
  rw [hT.types] at J
  obtain ⟨fileId', name', f', named', ctx', hh', hctx', pkg, mm, args, a, c1, c2, c3, c4, c5⟩ := hs
  obtain ⟨rfl, rfl, rfl⟩ := handler_unique hh hh'
  have := contextParam_unique hctx hctx'
  subst this
  obtain ⟨resp, r1, r2⟩ := sent_documented (SE := { types := w.st.svc.maps.merged, names := names }) (cs := cs') (ch := ch)
    S.gathered J k2 hd ha hocc ⟨pkg, mm, args, c1, c2, c3⟩
    (fun pkg mm args a t' d1 d2 d3 d4 d5 => hone main hmain t' ⟨_, _, _, _, _, hh, hctx, pkg, mm, args, a, d1, d2, d3, d4, d5⟩) hen
  exact ⟨_, resp, hop, r1, r2⟩

/-- C91: what a handler reads, the document of a successful run admits. If every JSON body a handler reads goes into a value of one type,
the request body is documented with a JSON schema that admits the encoding of every value of the type (that contains no nil). -/
theorem run_admits_bound_json_partial (L : Lib) (E : ParseCtx → RouteEnv) (hE : ByModel L E) (U : FPath → Prop) (hL : Tame L U) (getwd : Str) (φ : Faults)
    (w w' : World Proc) (d : FPath)
    (hd : DirAt w.cwd w.st.svc.workDir d) (hg : resolve w.cwd getwd = some w.cwd) (hnames : ProperNames w.fs) (hc : ∀ x ∈ w.cwd, '/' ∉ x)
    (routers : List (List RouteInfo)) (hin : Each GinInput w.st.svc.inputs routers) (hroutes : w.st.svc.routes = [])
    (hnd : DistinctRoutes (allowed w.st.svc.denyList routers.flatten))
    (before after : List Output) (o : Output) (hout : w.st.svc.outputs = before ++ o :: after) (hown : OwnCells w.st.svc.outputs)
    (hbefore : ∀ b ∈ before, Plain b) (loc : Nat) (ho : o.generate = .openapi loc) (q : FPath) (hq : OutputPlace d w.st.svc o.generate q)
    (hplace : OwnPlace w.cwd d w.st.svc after q) (hU : ¬ U q)
    (hcomp : w.st.svc.components = []) (hnm : w.st.names = []) (hord : AnyOrder L.choices.groups)
    (Γ : TypeEnv) (marshal : Str → Str → Option (Json → Prop)) (D : TName → Prop) (hT : TypedProgram E Γ D)
    (h : Astra.parseAll L getwd φ w = (w', .ok ())) :
    ∃ m rs cs doc text, RunResult L w.st.svc (workDirAfter getwd w.st.svc) routers m rs cs ∧ w'.fs.look q = some (.file text) ∧
      L.render (isYaml (withExtension [c!".json", c!".yaml", c!".yml"] (w.st.svc.cells.getD loc []))) doc = .ok text ∧
      (Documentable Γ marshal w.st.svc.maps.merged m D →
        ∀ i ∈ allowed w.st.svc.denyList routers.flatten, i.method ∈ documentedMethods →
          (∀ j ∈ allowed w.st.svc.denyList routers.flatten, openapiPath j.path = openapiPath i.path → j.method = i.method → j = i) →
          ∃ (relative : Str) (mains : List Str), L.rel i.file = .ok relative ∧ mains.length = routers.length ∧ ∀ (comment id : Str) (es : List Entry),
            (∀ main ∈ mains, HandlerView (E { workDir := workDirAfter getwd w.st.svc, mainPkg := main, customFuncs := w.st.svc.customFuncs })
              i.handler relative i.line comment id es) →
            ∀ t v, (∃ main ∈ mains, HandlerBinds (E { workDir := workDirAfter getwd w.st.svc, mainPkg := main, customFuncs := w.st.svc.customFuncs }) i.handler relative i.line t) →
              (∀ main ∈ mains, ∀ t', HandlerBinds (E { workDir := workDirAfter getwd w.st.svc, mainPkg := main, customFuncs := w.st.svc.customFuncs }) i.handler relative i.line t' → t' = t) →
              Describable Γ t → ¬ IsArray t → Encodes Γ marshal false t v →
              ∃ op content s, Document.operation doc (openapiPath i.path) i.method = some op ∧ op.requestBody = some content ∧
                mget content c!"application/json" = some s ∧ Admits doc.schemas s v) := by
  obtain ⟨m, rs, cs, doc, text, h1, h2, h3, h4⟩ := run_types L E hE U hL getwd φ w w' d hd hg hnames hc routers hin
    hroutes hnd before after o hout hown hbefore loc ho q hq hplace hU hcomp hnm hord Γ marshal D hT h
  refine ⟨m, rs, cs, doc, text, h1, h2, h3, fun hdoc => ?_⟩
  obtain ⟨names, R, _, k2, _, _, k5⟩ := h4 hdoc
  intro i hi hm hu
  obtain ⟨relative, mains, e1, e2, e0, e3⟩ := k5 i hi hm hu
  refine ⟨relative, mains, e1, e2, fun comment id es hv t v ⟨main, hmain, hs⟩ hone hd ha hen => ?_⟩
  have A := e3 comment id es hv
  have hocc := A.binds main hmain t hs
  obtain ⟨cs', ch, r', S, hop⟩ := A.operation
  obtain ⟨fileId, name, f, named, ctx, hh, hctx, han, _, _⟩ := hv main hmain
  obtain ⟨n, hn⟩ : ∃ n, routers.length = n + 1 := ⟨routers.length - 1, by omega⟩
  rw [hn] at S
  have J := analysed_json (hT.plain _) han
  rw [hT.types] at J
  obtain ⟨fileId', name', f', named', ctx', hh', hctx', pkg, mm, args, a, c1, c2, c4, c5⟩ := hs
  obtain ⟨rfl, rfl, rfl⟩ := handler_unique hh hh'
  have := contextParam_unique hctx hctx'
  subst this
  obtain ⟨content, s, r1, r2, r3⟩ := bound_documented (SE := { types := w.st.svc.maps.merged, names := names }) (cs := cs') (ch := ch)
    S.gathered J k2 hd ha hocc ⟨pkg, mm, args, c1, c2⟩
    (fun pkg mm args a t' d1 d2 d4 d5 => hone main hmain t' ⟨_, _, _, _, _, hh, hctx, pkg, mm, args, a, d1, d2, d4, d5⟩) hen
  exact ⟨_, content, s, hop, r1, r2, r3⟩

end Astra.Props
