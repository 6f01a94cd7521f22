/-
C99: the addresses that the document gives for its operations.
-/
import Verif.Spec.Address
import Verif.Props.PathsExact
import Verif.Props.EndToEnd
import Verif.Props.Config

namespace Astra.Props
open Astra.Spec

theorem expand_skip (v : Str → Str) (s rest : Str) (h : '{' ∉ s) : expandAux v none (s ++ rest) = s ++ expandAux v none rest := by
  induction s with
  | nil => rfl
  | cons c s ih =>
    simp only [List.mem_cons, not_or] at h
    simp only [List.cons_append, expandAux]
    rw [if_neg (fun e => h.1 e.symm), ih h.2]

theorem expand_some (v : Str → Str) (cur s rest : Str) (h : '}' ∉ s) :
    expandAux v (some cur) (s ++ '}' :: rest) = v (cur.reverse ++ s) ++ expandAux v none rest := by
  induction s generalizing cur with
  | nil => simp [expandAux]
  | cons c s ih =>
    simp only [List.mem_cons, not_or] at h
    simp only [List.cons_append, expandAux]
    rw [if_neg (fun e => h.1 e.symm), ih _ h.2]
    simp

theorem not_mem_of_join {c : Char} {l : List Str} (h : c ∉ join ['/'] l) : ∀ seg ∈ l, c ∉ seg := by
  induction l with
  | nil => intro s hs; simp at hs
  | cons x l ih =>
    cases l with
    | nil => intro s hs; simp at hs; subst hs; exact h
    | cons y r =>
      intro s hs
      rw [join_cons (by simp)] at h
      simp only [List.mem_append, not_or] at h
      rcases List.mem_cons.mp hs with rfl | hs
      · exact h.1.1
      · exact ih h.2 s hs

theorem expand_segment (v : Str → Str) (s rest : Str) (hs : '{' ∉ s ∧ '}' ∉ s) :
    expandAux v none (mapSeg (fun m n => openapiRepl (m :: n)) s ++ rest) =
      mapSeg (fun m n => v (templateVar (m, n))) s ++ expandAux v none rest := by
  unfold mapSeg
  cases hw : segWild s with
  | none => exact expand_skip v s rest hs.1
  | some x =>
    obtain ⟨b, m, n⟩ := x
    obtain ⟨h1, _⟩ := segWild_sound hw
    simp only [h1, List.mem_append, List.mem_cons, not_or] at hs
    have hv : '}' ∉ templateVar (m, n) := by
      unfold templateVar
      split
      · exact hs.2.2.2
      · simp only [List.mem_append, not_or]; exact ⟨hs.2.2.2, by simp⟩
    simp only [openapiRepl_eq, List.append_assoc, List.cons_append, List.nil_append]
    rw [expand_skip v b _ hs.1.1, expandAux, if_pos rfl, expand_some v [] _ _ hv]
    simp

/-- The template of a router path, filled with values. -/
theorem expand_openapiPath (v : Str → Str) (path : Str) (hb : '{' ∉ path ∧ '}' ∉ path) :
    expand v (openapiPath path) = mapPath (fun m n => v (templateVar (m, n))) path := by
  have hsub : ∀ seg ∈ split '/' path, '{' ∉ seg ∧ '}' ∉ seg := fun seg hseg =>
    ⟨not_mem_of_join (by rw [join_split]; exact hb.1) seg hseg, not_mem_of_join (by rw [join_split]; exact hb.2) seg hseg⟩
  unfold expand openapiPath
  rw [mapPathParams_eq]
  unfold mapPath
  generalize split '/' path = l at hsub
  induction l with
  | nil => rfl
  | cons s l ih =>
    cases l with
    | nil =>
      have := expand_segment v s [] (hsub s (by simp))
      simpa [join, expandAux] using this
    | cons t r =>
      have ih := ih (fun x hx => hsub x (by simp [hx]))
      rw [List.map_cons, join_cons (by simp), List.append_assoc, expand_segment v s _ (hsub s (by simp)), List.cons_append, List.nil_append,
        expandAux, if_neg (by decide), ih, List.map_cons (l := t :: r), join_cons (by simp)]
      simp

theorem wild_cases {path : Str} {w : Char × Str} (h : w ∈ wildcards path) : w.1 = ':' ∨ w.1 = '*' := by
  obtain ⟨seg, _, hs⟩ := List.mem_filterMap.mp h
  cases hw : segWild seg with
  | none => rw [hw] at hs; cases hs
  | some x =>
    rw [hw] at hs
    simp only [Option.map_some, Option.some.injEq] at hs
    subst hs
    exact (segWild_iff.mp hw).2.2.1

theorem mapPath_congr {f g : Char → Str → Str} {path : Str} (h : ∀ w ∈ wildcards path, f w.1 w.2 = g w.1 w.2) : mapPath f path = mapPath g path := by
  unfold mapPath
  congr 1
  refine List.map_congr_left fun seg hseg => ?_
  unfold mapSeg
  cases hw : segWild seg with
  | none => rfl
  | some x => exact congrArg (x.1 ++ ·) (h x.2 (List.mem_filterMap.mpr ⟨seg, hseg, by rw [hw]; rfl⟩))

theorem join_lengths {l : List Str} {f g : Str → Str} (h : ∀ s ∈ l, (g s).length ≤ (f s).length)
    (e : (join ['/'] (l.map f)).length = (join ['/'] (l.map g)).length) : ∀ s ∈ l, (f s).length = (g s).length := by
  have hle : ∀ l : List Str, (∀ s ∈ l, (g s).length ≤ (f s).length) → (join ['/'] (l.map g)).length ≤ (join ['/'] (l.map f)).length := by
    intro l
    induction l with
    | nil => intro _; exact Nat.le_refl _
    | cons x l ih =>
      intro h
      have h1 := h x (by simp)
      have h2 := ih (fun s hs => h s (by simp [hs]))
      cases l with
      | nil => simpa [join] using h1
      | cons y r =>
        rw [List.map_cons, join_cons (by simp), List.map_cons (f := f), join_cons (by simp)]
        simp only [List.length_append]
        omega
  induction l with
  | nil => intro s hs; cases hs
  | cons x l ih =>
    have h1 := h x (by simp)
    have h2 := hle l (fun s hs => h s (by simp [hs]))
    cases l with
    | nil =>
      intro s hs
      rw [List.mem_singleton] at hs
      subst hs
      simpa [join] using e
    | cons y r =>
      rw [List.map_cons, join_cons (by simp), List.map_cons (f := g), join_cons (by simp)] at e
      simp only [List.length_append] at e
      intro s hs
      rcases List.mem_cons.mp hs with rfl | hs
      · omega
      · exact ih (fun s hs => h s (by simp [hs])) (by omega) s hs

theorem split_parts {parts : List Str} (h : ∀ s ∈ parts, s ≠ [] ∧ '/' ∉ s) :
    (split '/' (parts.flatMap (fun s => '/' :: s))).filter (fun s => s ≠ []) = parts := by
  have e : ∀ l : List Str, l.flatMap (fun s => '/' :: s) = join ['/'] ([] :: l) := by
    intro l
    induction l with
    | nil => rfl
    | cons x l ih =>
      rw [List.flatMap_cons, ih]
      cases l <;> simp [join]
  rw [e, split_join (by simp) (by intro s hs; rcases List.mem_cons.mp hs with rfl | hs; · simp
                                  · exact (h s hs).2)]
  simp only [ne_eq, not_true_eq_false, decide_false, Bool.false_eq_true, not_false_eq_true, List.filter_cons_of_neg]
  exact List.filter_eq_self.mpr (fun s hs => by simpa using (h s hs).1)

theorem cleanBase_iff (b : Str) : CleanBase b ↔ b = basePrefix b := by
  constructor
  · rintro ⟨parts, h, rfl⟩
    unfold basePrefix
    rw [split_parts h]
  · intro h
    refine ⟨(split '/' b).filter (fun s => s ≠ []), fun s hs => ?_, h⟩
    obtain ⟨h1, h2⟩ := List.mem_filter.mp hs
    exact ⟨by simpa using h2, split_no_sep s h1⟩

/-- C99, exactly: the address that the document gives for an entry of the router is right for all values of the parameters if and only if
the base path is a clean one and the path of the entry has no catch-all. -/
theorem address_right_iff (c : Config) (path : Str) (hb : '{' ∉ path ∧ '}' ∉ path) :
    (∀ v, documentedAt (serverUrl c) (expand v (openapiPath path)) = servedAt c (requestPath v path)) ↔
      CleanBase c.basePath ∧ ∀ w ∈ wildcards path, w.1 = ':' := by
  have hurl : serverUrl c = originOf c ++ c.basePath := by
    unfold serverUrl originOf
    cases c.secure <;> simp
  unfold documentedAt servedAt requestPath
  simp only [hurl, List.append_assoc, List.append_cancel_left_eq, expand_openapiPath _ path hb]
  rw [cleanBase_iff]
  constructor
  · intro h
    have h0 := h (fun _ => [])
    have e : c.basePath = basePrefix c.basePath := List.append_cancel_right h0
    refine ⟨e, fun w hw => ?_⟩
    have h1 := h id
    rw [← e, List.append_cancel_left_eq] at h1
    unfold mapPath at h1
    obtain ⟨seg, hseg, hs⟩ := List.mem_filterMap.mp hw
    cases hsw : segWild seg with
    | none => rw [hsw] at hs; cases hs
    | some x =>
      rw [hsw] at hs
      simp only [Option.map_some, Option.some.injEq] at hs
      have := join_lengths (l := split '/' path) (f := mapSeg fun m n => id (templateVar (m, n))) (g := mapSeg fun _ n => id n) (by
        intro s _
        unfold mapSeg
        split
        · simp only [id, templateVar, List.length_append]
          split <;> simp
        · exact Nat.le_refl _) (congrArg List.length h1) seg hseg
      simp only [mapSeg, hsw, id, templateVar, List.length_append] at this
      rw [← hs]
      split at this
      · assumption
      · simp at this
  · rintro ⟨h1, h2⟩ v
    rw [← h1]
    congr 1
    refine mapPath_congr fun w hw => ?_
    simp [templateVar, h2 w hw]

/-- The address that is given in any case. -/
theorem documented_address (c : Config) (path : Str) (v : Str → Str) :
    documentedAt (serverUrl c) (expand v (openapiPath path)) = originOf c ++ c.basePath ++ expand v (openapiPath path) := by
  unfold documentedAt serverUrl originOf
  cases c.secure <;> simp

/-- C99 (partial): a service with gin routers and an OpenAPI output that comes after no other OpenAPI output; a run that succeeds, whatever
faults it survived. The document in the file has one server, and every entry of the routers whose method is documented has an operation; its
address is right, whatever the values of the parameters, if and only if the base path of the configuration is a clean one and the path has
no catch-all. Missing: the other base paths and paths, where this is false; paths with braces. -/
theorem run_addresses_partial (L : Lib) (hkey : KeepsKeys L) (U : FPath → Prop) (hL : Tame L U) (getwd : Str) (φ : Faults) (w w' : World Proc) (d : FPath)
    (hd : DirAt w.cwd w.st.svc.workDir d) (hg : resolve w.cwd getwd = some w.cwd) (hnames : ProperNames w.fs) (hc : ∀ x ∈ w.cwd, '/' ∉ x)
    (routers : List (List RouteInfo)) (hin : Each GinInput w.st.svc.inputs routers) (hroutes : w.st.svc.routes = [])
    (hnd : DistinctRoutes (allowed w.st.svc.denyList routers.flatten))
    (before after : List Output) (o : Output) (hout : w.st.svc.outputs = before ++ o :: after) (hown : OwnCells w.st.svc.outputs)
    (hbefore : ∀ b ∈ before, Plain b) (loc : Nat) (ho : o.generate = .openapi loc) (q : FPath) (hq : OutputPlace d w.st.svc o.generate q)
    (hplace : OwnPlace w.cwd d w.st.svc after q) (hU : ¬ U q)
    (h : Astra.parseAll L getwd φ w = (w', .ok ())) :
    ∃ cfg doc text server, w.st.svc.config = some cfg ∧ w'.fs.look q = some (.file text) ∧
      L.render (isYaml (withExtension [c!".json", c!".yaml", c!".yml"] (w.st.svc.cells.getD loc []))) doc = .ok text ∧ doc.servers = [server] ∧
      ∀ i ∈ allowed w.st.svc.denyList routers.flatten, ∃ path, path ∈ mkeys doc.paths ∧
        (i.method ∈ documentedMethods → ∃ op, Document.operation doc path i.method = some op) ∧
        ('{' ∉ i.path ∧ '}' ∉ i.path →
          ((∀ v, documentedAt server (expand v path) = servedAt cfg (requestPath v i.path)) ↔
            CleanBase cfg.basePath ∧ ∀ x ∈ wildcards i.path, x.1 = ':')) := by
  obtain ⟨m, rs, cs, doc, text, hres, h1, h2, h3⟩ := openapi_file_of_run L hkey U hL getwd φ w w' d hd hg hnames hc routers hin hroutes hnd
    before after o hout hown hbefore loc ho q hq hplace hU h
  have hk := result_keys hkey hres
  cases hcfg : w.st.svc.config with
  | none =>
    obtain ⟨e, he⟩ := (server_and_info L.choices w.st.names
      { config := w.st.svc.config, routes := rs, components := cs, types := w.st.svc.maps.merged }).1 hcfg
    rw [he] at h1
    cases h1
  | some cfg =>
    obtain ⟨_, hsrv⟩ := server_and_info L.choices w.st.names
      { config := w.st.svc.config, routes := rs, components := cs, types := w.st.svc.maps.merged }
    obtain ⟨hs1, hs2, _⟩ := hsrv cfg doc hcfg h1
    have hserver : doc.servers = [serverUrl cfg] := by
      cases hsec : cfg.secure with
      | true => rw [hs1 hsec]; simp [serverUrl, hsec]
      | false => rw [hs2 hsec]; simp [serverUrl, hsec]
    refine ⟨cfg, doc, text, serverUrl cfg, rfl, h3, h2, hserver, fun i hi => ?_⟩
    obtain ⟨names, _, hops, hpaths⟩ := operation_of_last_route _ _ _ _ h1
    have hkey : (i.path, i.method) ∈ rs.map (fun r => (r.path, r.method)) := by
      rw [hk]
      exact List.mem_map.mpr ⟨i, hi, rfl⟩
    obtain ⟨r, hr, er⟩ := List.mem_map.mp hkey
    have e1 : r.path = i.path := congrArg Prod.fst er
    have e2 : r.method = i.method := congrArg Prod.snd er
    refine ⟨openapiPath i.path, (hpaths _).mpr ⟨r, hr, by rw [e1]⟩, fun hm => ?_, fun hb => address_right_iff cfg i.path hb⟩
    rw [hops _ _ hm]
    obtain ⟨k, hk, rfl⟩ := List.mem_iff_getElem.mp hr
    cases hf : List.find? (fun x : Route × Nat => decide (openapiPath x.1.path = openapiPath i.path ∧ x.1.method = i.method)) rs.zipIdx.reverse with
    | some x => exact ⟨_, rfl⟩
    | none =>
      rw [List.find?_eq_none] at hf
      exact absurd (by simp [e1, e2]) (hf (rs[k], k) (List.mem_reverse.mpr (List.mem_zipIdx_iff_getElem?.mpr (by simp [hk]))))

/-- C99: which chains of calls of the configuration builder give a clean base path: those that set one. -/
theorem builder_base_clean_iff (setters : List Setter) (c : Config) (h : runBuilder setters = .ok c) :
    CleanBase c.basePath ↔ ∃ b, lastSet setBasePath setters = some b ∧ b ≠ [] ∧ CleanBase b := by
  rw [builder_result] at h
  split at h
  · cases h
  have h := Except.ok.inj h
  subst h
  simp only [orDefault]
  have hs : ¬ CleanBase c!"/" := by rw [cleanBase_iff]; decide
  cases hl : lastSet setBasePath setters with
  | none => simp [hs]
  | some b =>
    simp only [Option.getD_some, Option.some.injEq, exists_eq_left']
    by_cases hb : b = []
    · simp [hb, hs]
    · simp [hb]

/-- C99 is false for every service whose configuration was built without a base path: the addresses of all its operations have two slashes
after the port, whatever the values of the parameters. -/
theorem builder_default_address (setters : List Setter) (c : Config) (h : runBuilder setters = .ok c) (hd : ∀ b, lastSet setBasePath setters = some b → b = [])
    (path : Str) (v : Str → Str) : documentedAt (serverUrl c) (expand v (openapiPath ('/' :: path))) = originOf c ++ c!"//" ++ expand v (openapiPath path) := by
  have hbase : c.basePath = c!"/" := by
    rw [builder_result] at h
    split at h
    · cases h
    have h := Except.ok.inj h
    subst h
    simp only [orDefault]
    cases hl : lastSet setBasePath setters with
    | none => rfl
    | some b => simp [hd b hl]
  rw [documented_address, hbase]
  have e : openapiPath ('/' :: path) = '/' :: openapiPath path := by
    unfold openapiPath
    rw [mapPathParams_eq, mapPathParams_eq]
    unfold mapPath
    rw [split, if_pos rfl, List.map_cons, join_cons (by simp [split_ne_nil])]
    rfl
  rw [e]
  simp [expand, expandAux]

/-- A configuration of the builder, a route and a value: the service answers at another address than the documented one. -/
theorem address_witness :
    ∃ c, runBuilder [.title c!"Shop", .host c!"shop.example", .port 8000] = .ok c ∧
      documentedAt (serverUrl c) (expand (fun _ => c!"7") (openapiPath c!"/orders/:id")) = c!"http://shop.example:8000//orders/7" ∧
      servedAt c (requestPath (fun _ => c!"7") c!"/orders/:id") = c!"http://shop.example:8000/orders/7" :=
  ⟨_, rfl, by decide +kernel, by decide +kernel⟩

/-- Clean base paths do exist: with the base path `/api`, all is right. -/
example : CleanBase c!"/api/v1" ∧ CleanBase [] ∧ ¬ CleanBase c!"/" ∧ ¬ CleanBase c!"api" ∧ ¬ CleanBase c!"/api/" := by
  simp only [cleanBase_iff]
  decide

example : documentedAt (serverUrl { host := c!"h", port := 80, basePath := c!"/api" }) (expand (fun _ => c!"7") (openapiPath c!"/orders/:id")) =
    c!"http://h:80/api/orders/7" := by decide +kernel

end Astra.Props
