/-
C113: a run with an output for Azure Functions, for a route with parameters in its path.
-/
import Verif.Props.AzureRun
import Verif.Props.PathParamsDemo

namespace Astra.Props
open Astra.Spec

def cloudWorld : World Proc :=
  { fs := itemWorld.fs, cwd := [c!"w"]
    st := { svc := newService [.workDir c!"/w", .ginInput (some [userInfo]), .azureOutput c!"functions"] } }

theorem cloud_allowed : allowed cloudWorld.st.svc.denyList [[userInfo]].flatten = [userInfo] := by
  show [[userInfo]].flatten.filter _ = _
  rfl

theorem cloud_outputs {o : Output} (ho : o ∈ cloudWorld.st.svc.outputs) : o.generate = .azure c!"functions" := by
  have h : cloudWorld.st.svc.outputs = [_] := rfl
  rw [h] at ho
  rw [List.mem_singleton.mp ho]

/-- The analysis of the handler succeeds. -/
def analyses (cs : List Field) (r : Route) : Bool :=
  match (parseRoute loginRoutes 3 cs r).map (fun x => x.2) with
  | some (Res.ok _) => true
  | _ => false

theorem analyses_indep (cs : List Field) (r : Route) : analyses cs r = analyses [] r := by
  unfold analyses
  rw [parseRoute_indep loginRoutes (fun f hf => by cases hf) 3 cs [] r]

theorem analyses_parse {cs : List Field} {r : Route} (ctx : ParseCtx) (h : analyses cs r = true) : ∃ cs' r', loginLib.parse ctx cs r = (cs', .ok r') := by
  show ∃ cs' r', (match parseRoute loginRoutes 3 cs r with | some x => x | none => (cs, .err [])) = (cs', .ok r')
  unfold analyses at h
  cases hp : parseRoute loginRoutes 3 cs r with
  | none => rw [hp] at h; cases h
  | some x =>
    obtain ⟨c, y⟩ := x
    rw [hp] at h
    cases y with
    | ok r' => exact ⟨c, r', rfl⟩
    | err _ => cases h
    | panic _ => cases h

theorem cloud_handlers {wd m : Str} {rs : List Route} {cs : List Field} (h : RunResult loginLib cloudWorld.st.svc wd [[userInfo]] m rs cs) :
    rs.map (·.handler) = [c!"example.com/shop.Login"] := by
  obtain ⟨found, m1, cs1, rs1, b1, b2, _, b4, _⟩ := h
  rw [cloud_allowed] at b1
  have hk := passes_keys loginLib_byModel.keeps b2
  cases b1 with
  | cons h1 h2 =>
    cases h2
    obtain ⟨relative, hrel, rfl⟩ := h1
    cases hrel
    obtain ⟨pre, r', post, mains, rfl, _, _, _, q3, _⟩ := passes_split (pre := []) (post := []) loginLib_byModel rfl b2
    have S := stage_steps q3 0 (show Stage userInfo.handler _ userInfo.line userInfo.path _ _ _ 0 _ from
      ⟨rfl, rfl, rfl, rfl, Or.inr ⟨rfl, rfl⟩, Or.inr ⟨rfl, rfl⟩, by simp, by simp, by simp, rfl, rfl, rfl, rfl⟩) (fun _ _ => login_view)
    have hlen := congrArg List.length hk
    simp only [List.map_append, List.map_cons, List.length_append, List.length_cons, List.length_map, List.map_nil, List.length_nil] at hlen
    have e1 : pre = [] := List.length_eq_zero_iff.mp (by omega)
    have e2 : post = [] := List.length_eq_zero_iff.mp (by omega)
    subst e1 e2
    rw [b4]
    show [r'.handler] = _
    rw [S.handler]
    rfl

theorem cloud_feasible : Feasible loginLib c!"/w" cloudWorld.st.svc [[userInfo]] where
  some_input := by decide
  input := ginInput_one rfl
  fresh := rfl
  distinct := by rw [cloud_allowed]; unfold DistinctRoutes; decide
  keys := loginLib_byModel.keeps
  located := fun i _ => ⟨_, rfl⟩
  analysed := by
    intro i hi n hn r hr m cs
    rw [cloud_allowed] at hi
    obtain rfl := List.mem_singleton.mp hi
    cases hr with
    | found hf =>
      obtain ⟨relative, hrel, rfl⟩ := hf
      cases hrel
      refine analyses_parse _ ?_
      rw [analyses_indep]
      decide +kernel
    | again => simp at hn
  some_output := by decide
  kinds := fun o ho => Or.inr ⟨_, cloud_outputs ho⟩
  own := (options_shape _).2
  cache := by intro h; cases h
  config := by
    rintro ⟨o, ho, loc, e⟩
    rw [cloud_outputs ho] at e
    cases e
  order := fun l => .refl l
  named := by
    rintro ⟨o, ho, loc, e⟩
    rw [cloud_outputs ho] at e
    cases e
  texts := fun _ => ⟨_, rfl⟩
  functions := fun _ m rs cs h => ownFunctions_of_names (cloud_handlers h) (ns := [c!"Login"]) (by decide +kernel) (by decide) (by decide)
  elsewhere := by
    intro o ho dir e
    rw [cloud_outputs ho] at e
    obtain rfl : _ = dir := Action.azure.inj e
    decide

theorem cloud_dirs (D : FPath) : FunctionDirs [c!"w"] cloudWorld.st.svc D ↔ D = [c!"w", c!"functions"] := by
  constructor
  · rintro ⟨o, ho, dir, e, rfl⟩
    rw [cloud_outputs ho] at e
    obtain rfl : _ = dir := Action.azure.inj e
    decide
  · rintro rfl
    exact ⟨cloudWorld.st.svc.outputs[0]'(by decide), List.getElem_mem _, _, rfl, by decide⟩

theorem cloud_files (q : FPath) : ¬ (placesOf cloudWorld.cwd [c!"w"] cloudWorld.st.svc).file q := by
  rintro (⟨o, ho, hf, _⟩ | ⟨h, _⟩)
  · rcases hf with ⟨_, e⟩ | ⟨_, e⟩
    all_goals
      rw [cloud_outputs ho] at e
      cases e
  · cases h

theorem cloud_orderly : Orderly cloudWorld.fs [c!"w"] (placesOf cloudWorld.cwd [c!"w"] cloudWorld.st.svc) := by
  refine ⟨?_, item_names, by decide, Or.inl (by decide), ?_, fun q hq => absurd hq (cloud_files q), ?_⟩
  · intro q hq hl
    rw [FS.look, if_neg hq, FS.get_mem_iff] at hl
    obtain ⟨e, he, rfl⟩ := hl
    exact (by decide : ∀ e ∈ itemWorld.fs, itemWorld.fs.look e.1.dropLast = some .dir) e he
  · intro n _ h
    have hn : [c!"w"] ++ [n] ≠ [] := by simp
    have h' : FS.get itemWorld.fs ([c!"w"] ++ [n]) = some .dir := by rw [FS.look, if_neg hn] at h; exact h
    simp only [itemWorld, FS.get] at h'
    repeat' split at h'
    · rename_i e; simp at e
    all_goals cases h'
  · intro D hD
    obtain rfl := (cloud_dirs D).mp hD
    decide

theorem cloud_spaced : Spaced [c!"w"] (placesOf cloudWorld.cwd [c!"w"] cloudWorld.st.svc) where
  astra D hD := by
    obtain rfl := (cloud_dirs D).mp hD
    exact ⟨by decide, by decide⟩
  sources D hD n hn e := by
    obtain rfl := (cloud_dirs D).mp hD
    obtain rfl : c!"functions" = n := by simpa using e
    exact absurd hn (by simp only [GoFile, ModFile]; decide)
  files D hD q hq := absurd hq (cloud_files q)
  dirs D D' hD hD' := Or.inl (((cloud_dirs D).mp hD).trans ((cloud_dirs D').mp hD').symm)

/-- A request that gin takes for the route, with these values. -/
theorem cloud_request {id version : Str} (h1 : id ≠ []) (h2 : version ≠ []) :
    GinMatch (split '/' userInfo.path) [[], c!"users", id, 'v' :: version] [(c!"id", id), (c!"version", version)] := by
  have hs : split '/' userInfo.path = [[], c!"users", c!":id", c!"v:version"] := rfl
  rw [hs]
  have none : ∀ s : Str, ':' ∉ s → '*' ∉ s → ∀ b m n, ¬ WildcardOf s b m n := by
    intro s k1 k2 b m n hw
    rcases hw.2.2.1 with rfl | rfl
    · exact k1 (hw.1 ▸ by simp)
    · exact k2 (hw.1 ▸ by simp)
  refine .text (none _ (by decide) (by decide)) (.text (none _ (by decide) (by decide)) ?_)
  refine .param (before := []) ⟨rfl, by decide, by decide, by decide, by decide⟩ h1 ?_
  exact .param (before := c!"v") ⟨rfl, by decide, by decide, by decide, by decide⟩ h2 .done

/-- The run succeeds and meets all hypotheses. The function is called for GET /users/bob/vnew, with the parameters that the handler would get. C113,
violated: it is not called for GET /users/42/v1, which the gin route takes. -/
theorem cloud_run : ∃ j route, (Astra.parseAll loginLib c!"/w" noFaults cloudWorld).1.fs.look [c!"w", c!"functions", c!"Login", c!"function.json"] =
      some (.file (marshalIndent j)) ∧ TriggeredBy j [c!"get", c!"options"] route ∧
    AzureTakes (split '/' route) (split '/' c!"/users/bob/vnew") [(c!"id", c!"bob"), (c!"version", c!"new")] ∧
    GinMatch (split '/' c!"/users/:id/v:version") (split '/' c!"/users/42/v1") [(c!"id", c!"42"), (c!"version", c!"1")] ∧
    ∀ vs, ¬ AzureTakes (split '/' route) (split '/' c!"/users/42/v1") vs := by
  obtain ⟨_, relative, mains, hrel, _, h⟩ := run_function_requests_partial loginLib (fun _ => loginRoutes) loginLib_byModel (fun _ => rfl) c!"/w" cloudWorld
    [[userInfo]] [c!"w"] cloud_feasible (by rintro q ⟨h, _⟩; cases h) cloud_spaced (Or.inr (by decide)) (by decide) (by decide) cloud_orderly
    (fun _ => by decide) [c!"w", c!"functions"] ((cloud_dirs _).mpr rfl) userInfo (by rw [cloud_allowed]; simp) user_path (by decide) (by decide)
    (by decide)
  cases hrel
  obtain ⟨name, j, route, hname, hfile, htrig, hreq, hval⟩ := h _ _ _ (fun _ _ => login_view)
  have hname : name = c!"Login" := by
    have := (functionName_iff { handler := userInfo.handler } name).mp hname
    rw [← this]
    decide +kernel
  subst hname
  refine ⟨j, route, hfile, htrig, ?_, cloud_request (id := c!"42") (version := c!"1") (by decide) (by decide), ?_⟩
  · have hm := cloud_request (id := c!"bob") (version := c!"new") (by decide) (by decide)
    obtain ⟨vs, hvs⟩ := (hreq _ _ hm (by unfold Segments; decide)).mpr (by
      intro e he
      have he : e = (c!"id", c!"bob") ∨ e = (c!"version", c!"new") := by simpa using he
      rcases he with rfl | rfl <;> exact Or.inl ⟨by decide, by decide⟩)
    have := hval (by decide) _ _ _ hm hvs
    subst this
    exact hvs
  · intro vs hvs
    have hm := cloud_request (id := c!"42") (version := c!"1") (by decide) (by decide)
    have := (hreq _ _ hm (by unfold Segments; decide)).mp ⟨vs, hvs⟩ (c!"id", c!"42") (by simp)
    rw [azureValue_iff (by decide)] at this
    exact absurd this.2 (by decide)

/-- What the run writes. -/
theorem cloud_text : (Astra.parseAll loginLib c!"/w" noFaults cloudWorld).1.fs.look [c!"w", c!"functions", c!"Login", c!"function.json"] =
    some (.file (marshalIndent (azureDocument { path := c!"/users/:id/v:version", method := c!"GET", pathParams := extractParams c!"/users/:id/v:version" }))) := by
  decide +kernel

theorem match_plain {pattern request : List Str} {params : List (Str × Str)} (h : GinMatch pattern request params) :
    (∀ seg ∈ pattern, ∀ before marker name, ¬ WildcardOf seg before marker name) → request = pattern := by
  induction h with
  | done => intro _; rfl
  | text _ _ ih => intro hn; rw [ih (fun s hs => hn s (List.mem_cons_of_mem _ hs))]
  | param hw => intro hn; exact absurd hw (hn _ List.mem_cons_self _ _ _)
  | catchAll hw => intro hn; exact absurd hw (hn _ List.mem_cons_self _ _ _)

/-- C113, violated in the other direction: a path that is written in other letters belongs to the function, but not to the gin route. -/
theorem azure_ignores_case : AzureTakes (split '/' (mapPath azureVar c!"/users")) (split '/' c!"/Users") [] ∧
    ∀ params, ¬ GinMatch (split '/' c!"/users") (split '/' c!"/Users") params := by
  have hs : split '/' (mapPath azureVar c!"/users") = [[], c!"users"] := by decide
  rw [hs]
  refine ⟨.text (by decide) rfl (.text (by decide) (by unfold SameText; decide) .done), fun params h => ?_⟩
  refine absurd (match_plain h ?_) (by decide)
  intro seg hseg b m n hw
  have := (by decide : ∀ seg ∈ split '/' c!"/users", ':' ∉ seg ∧ '*' ∉ seg) seg hseg
  rcases hw.2.2.1 with rfl | rfl
  · exact this.1 (hw.1 ▸ by simp)
  · exact this.2 (hw.1 ▸ by simp)

end Astra.Props
