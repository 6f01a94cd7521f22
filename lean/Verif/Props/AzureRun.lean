/-
C113, for a run: which requests the functions in the output directory are called for.
-/
import Verif.Props.AzureRequests
import Verif.Props.Recovery

namespace Astra.Props
open Astra.Spec

/-! ### The route of the function -/

theorem convertLoop_append (s : Str) (ps qs : List Param) : convertRouteLoop s (ps ++ qs) = convertRouteLoop (convertRouteLoop s ps) qs := by
  induction ps generalizing s with
  | nil => rfl
  | cons p ps ih =>
    rw [List.cons_append, convertRouteLoop, convertRouteLoop]
    cases h : aget azureTypeMap p.field.type with
    | none => exact ih s
    | some t =>
      have ht : t ≠ [] := (by decide : ∀ e ∈ azureTypeMap, e.2 ≠ []) _ (aget_some_mem h)
      simp only [if_neg ht]
      split
      · exact ih _
      · exact ih _

theorem replaceFirst_absent {c : Char} {new : Str} : ∀ {s : Str}, c ∉ s → replaceFirst s [c] new = s
  | [], _ => rfl
  | d :: s, h => by
    simp only [List.mem_cons, not_or] at h
    rw [replaceFirst, hasPrefix, decide_eq_false (fun e => h.1 e.symm)]
    simp only [Bool.false_and, Bool.false_eq_true, if_false]
    rw [replaceFirst_absent h.2]

/-- The parameters that a bound struct adds have no name, and change nothing in a route without catch-all marks. -/
theorem convertLoop_nameless {s : Str} (hs : '*' ∉ s) : ∀ {qs : List Param}, (∀ q ∈ qs, q.name = [] ∧ q.isRequired = false) → convertRouteLoop s qs = s
  | [], _ => rfl
  | q :: qs, h => by
    obtain ⟨h1, h2⟩ := h q List.mem_cons_self
    have ih := convertLoop_nameless hs (qs := qs) (fun x hx => h x (List.mem_cons_of_mem _ hx))
    rw [convertRouteLoop]
    cases ht : aget azureTypeMap q.field.type with
    | none => exact ih
    | some t =>
      have : t ≠ [] := (by decide : ∀ e ∈ azureTypeMap, e.2 ≠ []) _ (aget_some_mem ht)
      simp only [if_neg this, h1, h2, Bool.false_eq_true, if_false, replaceFirst_absent hs, ih]

/-- The parameters of the path, cleaned, are still texts. -/
theorem convertLoop_cleaned (m : Str) (path s : Str) :
    convertRouteLoop s ((extractParams path).map (fun p => { p with field := cleanField m p.field })) = convertRouteLoop s (extractParams path) := by
  have key : ∀ ps : List Param, (∀ p ∈ ps, p.field = { type := c!"string" }) → ∀ s,
      convertRouteLoop s (ps.map (fun p => { p with field := cleanField m p.field })) = convertRouteLoop s ps := by
    intro ps
    induction ps with
    | nil => intro _ _; rfl
    | cons p ps ih =>
      intro h s
      have hp := h p List.mem_cons_self
      have hstr : (cleanField m p.field).type = p.field.type := by rw [hp]; exact clean_leaf m _ (by decide)
      have ih := ih (fun x hx => h x (List.mem_cons_of_mem _ hx))
      rw [List.map_cons, convertRouteLoop, convertRouteLoop]
      simp only [hstr]
      split
      · exact ih s
      · split
        · rfl
        · split
          · exact ih _
          · exact ih _
  refine key _ ?_ s
  intro p hp
  rw [extractParams_exact] at hp
  obtain ⟨w, _, rfl⟩ := List.mem_map.mp hp
  rfl

theorem star_gone {path : Str} (hg : GinPath path) : '*' ∉ mapPath azureVar path := by
  unfold mapPath
  have key : ∀ l : List Str, (∀ x ∈ l, '*' ∉ x) → '*' ∉ join ['/'] l := by
    intro l
    induction l with
    | nil => intro _; simp [join]
    | cons a l ih =>
      intro h
      cases l with
      | nil => exact h a List.mem_cons_self
      | cons b l =>
        rw [join_cons (r := b :: l) (by simp)]
        have h1 := h a List.mem_cons_self
        have h2 := ih (fun x hx => h x (List.mem_cons_of_mem _ hx))
        simp only [List.mem_append, List.mem_cons, not_or]
        exact ⟨⟨h1, by decide, by simp⟩, h2⟩
  refine key _ fun x hx => ?_
  obtain ⟨seg, hseg, rfl⟩ := List.mem_map.mp hx
  rcases hg seg hseg with ⟨h1, h2⟩ | ⟨b, m, n, hw, _, hn⟩
  · have : mapSeg azureVar seg = seg := mapSeg_text (by
      intro b m n hw
      rcases hw.2.2.1 with rfl | rfl
      · exact absurd (hw.1 ▸ by simp : ':' ∈ seg) h1
      · exact absurd (hw.1 ▸ by simp : '*' ∈ seg) h2)
    rw [this]
    exact h2
  · rw [mapSeg_wild hw]
    have hb := hw.2.2.2.2
    unfold azureVar
    split <;> simp [hb, hn]

/-- The route of the function of an analysed entry is its path with each wildcard rewritten in place. -/
theorem analysed_route {es : List Entry} {path : Str} {n : Nat} {R : Route} (m : Str) (G : Gathered es path (n + 1) R) (hR : R.path = path)
    (hes : ∀ e ∈ es, ∀ p ∈ e.pathParams, p.name = [] ∧ p.isRequired = false) (hg : GinPath path)
    (hsafe : ∀ w ∈ (wildcards path).tail, w.1 = ':' → AzureSafe w.2) : convertRoute (cleanRoute m R) = mapPath azureVar path := by
  have hf := convertRoute_faithful_partial { path := path, pathParams := extractParams path } hg rfl hsafe
  show convertRouteLoop R.path (R.pathParams.map (fun p => { p with field := cleanField m p.field })) = _
  rw [G.path (Nat.succ_pos n), hR, List.map_append, convertLoop_append, convertLoop_cleaned]
  have hf : convertRouteLoop path (extractParams path) = mapPath azureVar path := hf
  rw [hf]
  refine convertLoop_nameless (star_gone hg) fun q hq => ?_
  obtain ⟨p, hp, rfl⟩ := List.mem_map.mp hq
  obtain ⟨e, he, hp⟩ := List.mem_flatMap.mp hp
  exact hes e he p hp

theorem bound_path_entry {Γ : TypeEnv} {pkg m : Str} {args : List ArgView} {e : Entry} (hd : Documented Γ pkg args m e) {p : Param}
    (hp : p ∈ e.pathParams) : p.name = [] ∧ p.isRequired = false := by
  cases hd with
  | bind => simp only [List.mem_singleton] at hp; rw [hp]; exact ⟨rfl, rfl⟩
  | _ => cases hp

theorem mapPath_nonempty {f : Char → Str → Str} {path : Str} (h : '/' ∈ path) : mapPath f path ≠ [] := by
  unfold mapPath
  cases hs : split '/' path with
  | nil => exact absurd hs (split_ne_nil '/' path)
  | cons a l =>
    cases l with
    | nil =>
      have := join_split '/' path
      rw [hs] at this
      have e : a = path := this
      have := split_no_sep (s := path) (sep := '/') a (by rw [hs]; simp)
      rw [e] at this
      exact absurd h this
    | cons b l =>
      rw [List.map_cons, join_cons (r := (b :: l).map _) (by simp)]
      simp

theorem azure_triggered {r : Route} (h : convertRoute r ≠ []) :
    TriggeredBy (azureDocument r) [r.method.map Char.toLower, c!"options"] (convertRoute r) := by
  have hz : isZeroJson (.str (convertRoute r)) = false := by
    cases hc : convertRoute r with
    | nil => exact absurd hc h
    | cons _ _ => rfl
  have hz' : isZeroJson (.arr [.str (r.method.map Char.toLower), .str c!"options"]) = false := rfl
  unfold azureDocument
  simp only [members, hz, hz', Bool.and_false, Bool.false_and, Bool.false_eq_true, if_false]
  refine ⟨_, _, rfl, ?_, ?_, ?_, ?_, ?_⟩
  · simp
  · simp
  · simp
  · simp
  · show [c!"type", c!"direction", c!"name", c!"methods", c!"route"].Nodup
    decide

/-! ### A run -/

/-- C113, exact for the requests of a route, in a run (partial): a service as in C77, without custom functions, an output for Azure Functions in the
directory `D`, and an entry of the routers whose path is one that gin accepts, has no braces and none of the parameter names of C06. After the
run, the directory has the file of its function; the function is triggered by the method of the entry, and by requests for options; and of the
requests that the gin route takes it is called for exactly those with letters only for each parameter. Without a catch-all the function gets
the parameters that the handler would get. Missing: all other values, for which it is false, and those other paths. -/
theorem run_function_requests_partial (L : Lib) (E : ParseCtx → RouteEnv) (hE : ByModel L E) (hno : ∀ ctx, (E ctx).prog.customs = []) (getwd : Str)
    (w : World Proc) (routers : List (List RouteInfo)) (d : FPath)
    (hF : Feasible L getwd w.st.svc routers) (hk : ∀ q, CachePlace w.cwd w.st.svc q → ¬ OutputPlaces d w.st.svc q)
    (hl : Spaced d (placesOf w.cwd d w.st.svc)) (hd : DirAt w.cwd w.st.svc.workDir d) (hg : resolve w.cwd getwd = some w.cwd)
    (hc : ∀ x ∈ w.cwd, '/' ∉ x) (ho : Orderly w.fs d (placesOf w.cwd d w.st.svc)) (hn : NoLeftover w.fs d (placesOf w.cwd d w.st.svc))
    (D : FPath) (hD : FunctionDirs d w.st.svc D) (i : RouteInfo) (hi : i ∈ allowed w.st.svc.denyList routers.flatten)
    (hpath : GinPath i.path) (hslash : '/' ∈ i.path) (hb : '{' ∉ i.path) (hsafe : ∀ w ∈ (wildcards i.path).tail, w.1 = ':' → AzureSafe w.2) :
    (Astra.parseAll L getwd noFaults w).2 = .ok () ∧
      ∃ (relative : Str) (mains : List Str), L.rel i.file = .ok relative ∧ mains.length = routers.length ∧ ∀ (comment id : Str) (es : List Entry),
        (∀ main ∈ mains, HandlerView (E { workDir := workDirAfter getwd w.st.svc, mainPkg := main, customFuncs := w.st.svc.customFuncs })
            i.handler relative i.line comment id es) →
          ∃ name j route, FunctionName i.handler name ∧
            (Astra.parseAll L getwd noFaults w).1.fs.look (D ++ [name, c!"function.json"]) = some (.file (marshalIndent j)) ∧
            TriggeredBy j [i.method.map Char.toLower, c!"options"] route ∧
            (∀ request params, GinMatch (split '/' i.path) request params → Segments request →
              ((∃ vs, AzureTakes (split '/' route) request vs) ↔ ∀ e ∈ params, AzureValue e.2)) ∧
            ((∀ w ∈ wildcards i.path, w.1 = ':') → ∀ request params vs, GinMatch (split '/' i.path) request params →
              AzureTakes (split '/' route) request vs → vs = params) := by
  obtain ⟨h1, _, m, rs, cs, hres, htree⟩ := run_succeeds_partial L getwd w routers d hF hk hl hd hg hc ho hn
  refine ⟨h1, ?_⟩
  obtain ⟨found, m1, cs1, rs1, b1, b2, _, b4, b5⟩ := id hres
  obtain ⟨pre, post, epp⟩ := List.append_of_mem hi
  rw [epp] at b1
  obtain ⟨pre', r, post', rfl, p1, p2, p3⟩ := each_split b1
  obtain ⟨pre'', r', post'', mains, rfl, q0, q1, q2, q3, q4⟩ := passes_split hE rfl b2
  obtain ⟨relative, hrel, hr⟩ := id p2
  subst hr
  refine ⟨relative, mains, hrel, q0, fun comment id es hv => ?_⟩
  have S := stage_steps q3 0 (show Stage i.handler relative i.line i.path comment id es 0 _ from
    ⟨rfl, rfl, rfl, rfl, Or.inr ⟨rfl, rfl⟩, Or.inr ⟨rfl, rfl⟩, by simp, by simp, by simp, rfl, rfl, rfl, rfl⟩) hv
  rw [Nat.zero_add, q0] at S
  have hpos : 0 < routers.length := by
    cases routers with
    | nil => simp [allowed] at hi
    | cons _ _ => exact Nat.succ_pos _
  obtain ⟨k, hk'⟩ : ∃ k, routers.length = k + 1 := ⟨routers.length - 1, by omega⟩
  rw [hk'] at S
  obtain ⟨main, hmain⟩ := List.exists_mem_of_length_pos (q0 ▸ hpos)
  obtain ⟨_, _, _, _, _, _, _, han, _, _⟩ := hv main hmain
  have hroute : convertRoute (cleanRoute m r') = mapPath azureVar i.path := by
    refine analysed_route m S.gathered S.rpath ?_ hpath hsafe
    intro e he p hp
    obtain ⟨_, _, _, _, hdoc⟩ := entries_from_calls (hno _) han e he
    exact bound_path_entry hdoc hp
  have hmem : cleanRoute m r' ∈ rs := by rw [b4]; simp
  have hname := (functionName_iff (cleanRoute m r') (azureName (cleanRoute m r'))).mpr rfl
  have hh : (cleanRoute m r').handler = i.handler := S.handler
  have hmeth : (cleanRoute m r').method = i.method := q2
  refine ⟨azureName (cleanRoute m r'), azureDocument (cleanRoute m r'), mapPath azureVar i.path, hh ▸ hname, ?_, ?_, ?_, ?_⟩
  · exact (htree D hD _ _).mpr (Or.inr ⟨_, hmem, _, hname, Or.inr ⟨rfl, rfl⟩⟩)
  · have := azure_triggered (r := cleanRoute m r') (by rw [hroute]; exact mapPath_nonempty hslash)
    rw [hroute, hmeth] at this
    exact this
  · intro request params hm hr
    exact azure_request_exact hpath hb hm hr
  · intro hs request params vs hm h
    exact azure_request_values hpath hb hs hm h

end Astra.Props
