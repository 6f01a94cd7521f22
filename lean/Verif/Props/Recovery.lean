/-
C77–C79: a run succeeds in every orderly project; it also does so after any failed, interrupted or finished runs, and with the same
output; the output depends on the service and the module files only.
-/
import Verif.Props.Success

namespace Astra.Props
open Astra.Spec Astra.Run

/-- C77 (partial): in an orderly project nothing inside Astra stops the run of a feasible service; afterwards every output file exists, and every
directory of an Azure output is complete. Missing: services with a cache that is not a JSON file or is inside .astra or at the place
of an output. -/
theorem run_succeeds_partial (L : Lib) (getwd : Str) (w : World Proc) (routers : List (List RouteInfo)) (d : FPath)
    (hF : Feasible L getwd w.st.svc routers) (hk : ∀ q, CachePlace w.cwd w.st.svc q → ¬ OutputPlaces d w.st.svc q)
    (hl : Spaced d (placesOf w.cwd d w.st.svc)) (hd : DirAt w.cwd w.st.svc.workDir d) (hg : resolve w.cwd getwd = some w.cwd)
    (hc : ∀ x ∈ w.cwd, '/' ∉ x) (ho : Orderly w.fs d (placesOf w.cwd d w.st.svc)) (hn : NoLeftover w.fs d (placesOf w.cwd d w.st.svc)) :
    (Astra.parseAll L getwd noFaults w).2 = .ok () ∧
      (∀ q, OutputPlaces d w.st.svc q → ∃ t, (Astra.parseAll L getwd noFaults w).1.fs.look q = some (.file t)) ∧
      ∃ m rs cs, RunResult L w.st.svc (if w.st.svc.workDir = [] then getwd else w.st.svc.workDir) routers m rs cs ∧
        ∀ D, FunctionDirs d w.st.svc D → AzureTree functionText rs (Astra.parseAll L getwd noFaults w).1.fs D := by
  obtain ⟨W, m, rs, cs, h0, h1, h2⟩ := run_outcome hF hk hl hd hg hc w.fs
  obtain ⟨k1, k2, k3⟩ := h2 w rfl rfl ho (fun _ _ => rfl) hn
  exact ⟨k1, fun q hq => (h1 q hq).imp fun t ht => (k2 q hq).trans ht, m, rs, cs, h0, k3⟩

/-- Removing the leftover of an Azure output keeps a project orderly. -/
theorem tidy_keeps_order {fs0 fs : FS} {d : FPath} {Q : Places} (hm : NotModules d Q) (h : Neat d Q fs0 fs) : Neat d Q fs0 (fs.del (d ++ [c!".astra", c!"azure"])) := by
  refine h.inside hm (.del (fun r hr => List.IsPrefix.trans ⟨[c!"azure"], by simp⟩ hr)) ?_ (h.1.tree.del _) (ProperNames.del h.1.names _)
  rw [FS.look_del]
  split
  · exact Or.inl rfl
  · exact h.1.astra

/-- The attempts leave an orderly project with the same module files. -/
theorem attempts_keep_order {getwd : Str} {w w' : World Proc} (h : AfterAttempts getwd w w') {d : FPath} (hd : DirAt w.cwd w.st.svc.workDir d)
    (hg : resolve w.cwd getwd = some w.cwd) (hc : ∀ x ∈ w.cwd, '/' ∉ x)
    (hin : ∀ i ∈ w.st.svc.inputs, GinFunction i.createRoutes ∧ GinFunction i.parseRoutes)
    (hkinds : ∀ o ∈ w.st.svc.outputs, FileOutput o ∨ AzureOutput o) (hown : OwnCells w.st.svc.outputs) (hj : JsonCache w.st.svc)
    (hl : Spaced d (placesOf w.cwd d w.st.svc)) (ho : Orderly w.fs d (placesOf w.cwd d w.st.svc)) :
    w'.cwd = w.cwd ∧ w'.st = w.st ∧ Orderly w'.fs d (placesOf w.cwd d w.st.svc) ∧ SameModules d w.fs w'.fs := by
  induction h with
  | none => exact ⟨rfl, rfl, ho, fun _ _ => rfl⟩
  | @again w1 w2 L φ _ e1 e2 e3 ih =>
    obtain ⟨i1, i2, i3, i4⟩ := ih
    obtain ⟨k1, k2⟩ := run_keeps_order L getwd φ w1 d (by rw [i1, i2]; exact hd) (by rw [i1]; exact hg) (by rw [i1]; exact hc)
      (by rw [i2]; exact hin) (by rw [i2]; exact hkinds) (by rw [i2]; exact hown) (by rw [i2]; exact hj) (by rw [i1, i2]; exact hl)
      (by rw [i1, i2]; exact i3)
    rw [i1, i2] at k1
    refine ⟨e2, e3, e1 ▸ k1, fun n hn => ?_⟩
    rw [e1, k2 n hn, i4 n hn]
  | @tidied w1 w2 d' _ hd' e1 e2 e3 ih =>
    obtain ⟨i1, i2, i3, i4⟩ := ih
    obtain rfl : d' = d := (dirAt_iff.mp hd').symm.trans (dirAt_iff.mp hd)
    have k := tidy_keeps_order (places_not_modules w.cwd d' w.st.svc hj hl) ⟨i3, i4⟩
    rw [← e1] at k
    exact ⟨e2, e3, k.1, k.2⟩

/-- C78 (partial): after any number of runs that failed, were cut off at any point or finished, the next run succeeds, every output file is
the one that the run in the original project writes, and so is every directory of an Azure output. Missing: as in C77, and the leftover
of an Azure output, which is a true exception (`azure_blocked`): it stops the next run until the user removes it. -/
theorem run_after_attempts_partial (L : Lib) (getwd : Str) (w w' : World Proc) (routers : List (List RouteInfo)) (d : FPath)
    (hF : Feasible L getwd w.st.svc routers) (hk : ∀ q, CachePlace w.cwd w.st.svc q → ¬ OutputPlaces d w.st.svc q)
    (hl : Spaced d (placesOf w.cwd d w.st.svc)) (hd : DirAt w.cwd w.st.svc.workDir d) (hg : resolve w.cwd getwd = some w.cwd)
    (hc : ∀ x ∈ w.cwd, '/' ∉ x) (ho : Orderly w.fs d (placesOf w.cwd d w.st.svc)) (hn : NoLeftover w.fs d (placesOf w.cwd d w.st.svc))
    (h : AfterAttempts getwd w w') (hn' : NoLeftover w'.fs d (placesOf w.cwd d w.st.svc)) :
    (Astra.parseAll L getwd noFaults w').2 = .ok () ∧
    (∀ q, OutputPlaces d w.st.svc q →
      (Astra.parseAll L getwd noFaults w').1.fs.look q = (Astra.parseAll L getwd noFaults w).1.fs.look q ∧
      ∃ t, (Astra.parseAll L getwd noFaults w').1.fs.look q = some (.file t)) ∧
    ∃ m rs cs, RunResult L w.st.svc (if w.st.svc.workDir = [] then getwd else w.st.svc.workDir) routers m rs cs ∧
      ∀ D, FunctionDirs d w.st.svc D → AzureTree functionText rs (Astra.parseAll L getwd noFaults w').1.fs D ∧
        AzureTree functionText rs (Astra.parseAll L getwd noFaults w).1.fs D := by
  obtain ⟨k1, k2, k3, k4⟩ := attempts_keep_order h hd hg hc
    (fun i hi => by obtain ⟨infos, h1, h2⟩ := each_mem hF.input i hi; exact ⟨Or.inl ⟨_, h1⟩, Or.inr h2⟩) hF.kinds hF.own hF.cache hl ho
  obtain ⟨W, m, rs, cs, h0, h1, h2⟩ := run_outcome hF hk hl hd hg hc w.fs
  obtain ⟨a1, a2, a3⟩ := h2 w rfl rfl ho (fun _ _ => rfl) hn
  obtain ⟨b1, b2, b3⟩ := h2 w' k1 k2 k3 k4 hn'
  exact ⟨b1, fun q hq => ⟨(b2 q hq).trans (a2 q hq).symm, (h1 q hq).imp fun t ht => (b2 q hq).trans ht⟩, m, rs, cs, h0, fun D hD => ⟨b3 D hD, a3 D hD⟩⟩

/-- C79 (partial): two projects with the same module files get the same output files and the same Azure outputs, whatever else lies in them.
Missing: as in C77. -/
theorem same_outputs_partial (L : Lib) (getwd : Str) (w w' : World Proc) (routers : List (List RouteInfo)) (d : FPath)
    (hF : Feasible L getwd w.st.svc routers) (hk : ∀ q, CachePlace w.cwd w.st.svc q → ¬ OutputPlaces d w.st.svc q)
    (hl : Spaced d (placesOf w.cwd d w.st.svc)) (hd : DirAt w.cwd w.st.svc.workDir d) (hg : resolve w.cwd getwd = some w.cwd)
    (hc : ∀ x ∈ w.cwd, '/' ∉ x) (hcwd : w'.cwd = w.cwd) (hst : w'.st = w.st)
    (ho : Orderly w.fs d (placesOf w.cwd d w.st.svc)) (ho' : Orderly w'.fs d (placesOf w.cwd d w.st.svc)) (hm : SameModules d w.fs w'.fs)
    (hn : NoLeftover w.fs d (placesOf w.cwd d w.st.svc)) (hn' : NoLeftover w'.fs d (placesOf w.cwd d w.st.svc)) :
    (∀ q, OutputPlaces d w.st.svc q →
      (Astra.parseAll L getwd noFaults w').1.fs.look q = (Astra.parseAll L getwd noFaults w).1.fs.look q) ∧
    ∀ D, FunctionDirs d w.st.svc D → Untouched D (Astra.parseAll L getwd noFaults w).1.fs (Astra.parseAll L getwd noFaults w').1.fs := by
  obtain ⟨W, m, rs, cs, h0, _, h2⟩ := run_outcome hF hk hl hd hg hc w.fs
  obtain ⟨_, a2, a3⟩ := h2 w rfl rfl ho (fun _ _ => rfl) hn
  obtain ⟨_, b2, b3⟩ := h2 w' hcwd hst ho' hm hn'
  refine ⟨fun q hq => by rw [a2 q hq, b2 q hq], fun D hD q hq => ?_⟩
  have hown : OwnFunctions rs := by
    obtain ⟨o, ho, dir, e, _⟩ := hD
    exact hF.functions ⟨o, ho, dir, e⟩ _ _ _ h0
  obtain ⟨rest, rfl⟩ := hq
  rw [functionLook_of_tree hown (a3 D hD), functionLook_of_tree hown (b3 D hD)]

/-! ### The theorems are not vacuous -/

def recoverField : Field := { name := c!"Item", type := c!"struct", package := c!"example.com/shop" }

/-- An analysis that adds a component for each route. -/
def recoverLib : Lib :=
  { exampleLib with
    usesMain := fun _ => true
    parse := fun _ cs r => (cs ++ [recoverField], .ok { r with doc := c!"documented" })
    choices := someChoices
    yamlText := fun j => .ok ((entriesAt j c!"paths").flatMap (·.1)) }

theorem recoverLib_components {wd : Str} {fs : List CustomFunc} {m m' : Str} {cs cs' : List Field} {rs rs' : List Route}
    (h : AnalysedInOrder recoverLib wd fs m cs rs m' cs' rs') (hcs : ∀ f ∈ cs, f = recoverField) :
    ∀ f ∈ cs', f = recoverField := by
  induction h with
  | done => exact hcs
  | step _ h _ ih =>
    obtain ⟨rfl, rfl⟩ : _ ∧ _ := by simpa [recoverLib] using h
    refine ih fun f hf => ?_
    rcases List.mem_append.mp hf with hf | hf
    · exact hcs f hf
    · rw [List.mem_singleton] at hf
      subst hf
      rfl

theorem recoverLib_passes {wd : Str} {fs : List CustomFunc} {n : Nat} {m m' : Str} {cs cs' : List Field} {rs rs' : List Route}
    (h : AnalysedPasses recoverLib wd fs n m cs rs m' cs' rs') (hcs : ∀ f ∈ cs, f = recoverField) : ∀ f ∈ cs', f = recoverField := by
  induction h with
  | done => exact hcs
  | pass h _ ih => exact ih (recoverLib_components h hcs)

theorem recoverLib_handlers {wd : Str} {fs : List CustomFunc} {m m' : Str} {cs cs' : List Field} {rs rs' : List Route}
    (h : AnalysedInOrder recoverLib wd fs m cs rs m' cs' rs') : rs'.map (·.handler) = rs.map (·.handler) := by
  induction h with
  | done => rfl
  | step _ h _ ih =>
    obtain ⟨_, rfl⟩ : _ ∧ _ := by simpa [recoverLib] using h
    simp [ih]

theorem recoverLib_all_handlers {wd : Str} {fs : List CustomFunc} {n : Nat} {m m' : Str} {cs cs' : List Field} {rs rs' : List Route}
    (h : AnalysedPasses recoverLib wd fs n m cs rs m' cs' rs') : rs'.map (·.handler) = rs.map (·.handler) := by
  induction h with
  | done => rfl
  | pass h _ ih => exact ih.trans (recoverLib_handlers h)

theorem found_handlers {rel : Str → Except Str Str} {infos : List RouteInfo} {rs : List Route} (h : Each (Found rel) infos rs) :
    rs.map (·.handler) = infos.map (·.handler) := by
  induction h with
  | nil => rfl
  | cons h _ ih =>
    obtain ⟨_, _, rfl⟩ := h
    simp [ih]

theorem ownFunctions_of_names {rs : List Route} {hs ns : List Str} (e : rs.map (·.handler) = hs)
    (en : hs.map (fun h => (split '.' h).getLast?.getD []) = ns) (h1 : ∀ n ∈ ns, n ≠ [] ∧ '/' ∉ n) (h2 : ns.Nodup) : OwnFunctions rs := by
  have e' : rs.map azureName = ns := by
    rw [← en, ← e, List.map_map]
    rfl
  constructor
  · intro r hr n hn
    rw [functionName_iff] at hn
    exact h1 n (e' ▸ List.mem_map.mpr ⟨r, hr, hn⟩)
  · rw [← e', List.Nodup, List.pairwise_map] at h2
    refine h2.imp fun h n hn hn' => ?_
    rw [functionName_iff] at hn hn'
    exact h (hn.trans hn'.symm)

/-- A second router. -/
def moreInfos : List RouteInfo := [⟨c!"POST", c!"/a", c!"example.com/shop.Put", c!"shop.go", 10⟩, ⟨c!"GET", c!"/c", c!"example.com/shop.All", c!"shop.go", 20⟩]

/-- A service with two routers, four outputs, one of them for Azure Functions, and a cache with a path of its own. -/
def recoverWorld : World Proc :=
  { routerWorld with
    st := { svc := newService [.workDir c!"/w", .ginInput (some routerInfos), .ginInput (some moreInfos), .jsonOutput c!"routes", .openApiOutput c!"api.yaml",
      .azureOutput c!"functions", .jsonOutput c!"again", .cachePath c!"own.json",
      .deny (.exact c!"/secret"), .config (some { title := c!"t", host := c!"localhost", port := 8000, basePath := c!"/" })] } }

/-- The service of the example is feasible. -/
theorem recover_feasible : Feasible recoverLib c!"/w" recoverWorld.st.svc [routerInfos, moreInfos] where
  some_input := by decide
  input := .cons ⟨rfl, rfl⟩ (.cons ⟨rfl, rfl⟩ .nil)
  fresh := rfl
  distinct := by
    show (List.map _ (allowed _ _)).Nodup
    decide +kernel
  keys := by
    intro ctx cs r cs' r' h
    obtain ⟨_, rfl⟩ : _ ∧ _ := by simpa [recoverLib] using h
    exact ⟨rfl, rfl⟩
  located := fun i _ => ⟨_, rfl⟩
  analysed := fun i _ n _ r _ m cs => ⟨_, _, rfl⟩
  some_output := by decide
  kinds := by
    intro o ho
    have h : recoverWorld.st.svc.outputs = [_, _, _, _] := rfl
    rw [h] at ho
    simp only [List.mem_cons, List.not_mem_nil, or_false] at ho
    rcases ho with rfl | rfl | rfl | rfl
    · exact Or.inl (Or.inl ⟨_, rfl⟩)
    · exact Or.inl (Or.inr ⟨_, rfl⟩)
    · exact Or.inr ⟨_, rfl⟩
    · exact Or.inl (Or.inl ⟨_, rfl⟩)
  own := (options_shape _).2
  cache := fun _ _ => ⟨c!"own", rfl⟩
  config := fun _ => by decide
  order := fun l => .refl l
  named := by
    rintro _ m rs cs ⟨found, m1, cs1, rs1, _, h, _, _, rfl⟩ c hc d hd h0
    have hall := recoverLib_passes h (by intro f hf; cases hf)
    exfalso
    rcases hd with ⟨i, ⟨j, p, q, _, _, hp, hq, hk, _⟩, _⟩ | ⟨e, _⟩
    · have key : ∀ x : Str, x ∈ sameName (cs1.map (cleanField m)) c.package → ∃ f ∈ cs1, x = (cleanField m f).package := by
        intro x hx
        obtain ⟨g, hg, rfl⟩ := List.mem_map.mp (List.mem_filter.mp hx).1
        obtain ⟨f, hf, rfl⟩ := List.mem_map.mp hg
        exact ⟨f, hf, rfl⟩
      obtain ⟨f, hf, rfl⟩ := key p (List.mem_of_getElem? hp)
      obtain ⟨g, hg, rfl⟩ := key q (List.mem_of_getElem? hq)
      rw [hall f hf, hall g hg] at hk
      obtain ⟨_, a, b, h1, h2, h3⟩ := hk
      rw [h1] at h2
      exact h3 (Option.some.inj h2)
    · omega
  texts := fun _ => ⟨_, rfl⟩
  functions := by
    rintro _ m rs cs ⟨found, m1, cs1, rs1, hf, h, _, rfl, _⟩
    refine ownFunctions_of_names (hs := (allowed recoverWorld.st.svc.denyList [routerInfos, moreInfos].flatten).map (·.handler))
      (ns := [c!"Get", c!"Empty", c!"Put", c!"All"]) ?_ (by decide +kernel) (by decide) (by decide)
    rw [← found_handlers hf, ← recoverLib_all_handlers h, List.map_map]
    rfl
  elsewhere := by
    intro o ho dir e
    have h : recoverWorld.st.svc.outputs = [_, _, _, _] := rfl
    rw [h] at ho
    simp only [List.mem_cons, List.not_mem_nil, or_false] at ho
    rcases ho with rfl | rfl | rfl | rfl
    · cases e
    · cases e
    · obtain rfl : _ = dir := Action.azure.inj e
      decide
    · cases e

theorem recover_dirs (D : FPath) : FunctionDirs [c!"w"] recoverWorld.st.svc D ↔ D = [c!"w", c!"functions"] := by
  constructor
  · rintro ⟨o, ho, dir, e, rfl⟩
    have h : recoverWorld.st.svc.outputs = [_, _, _, _] := rfl
    rw [h] at ho
    simp only [List.mem_cons, List.not_mem_nil, or_false] at ho
    rcases ho with rfl | rfl | rfl | rfl
    · cases e
    · cases e
    · obtain rfl : _ = dir := Action.azure.inj e
      decide
    · cases e
  · rintro rfl
    exact ⟨recoverWorld.st.svc.outputs[2]'(by decide), List.getElem_mem _, _, rfl, by decide⟩

theorem recover_files (q : FPath) (h : (placesOf recoverWorld.cwd [c!"w"] recoverWorld.st.svc).file q) :
    q ∈ [[c!"w", c!"routes.json"], [c!"w", c!"api.yaml"], [c!"w", c!"again.json"], [c!"w", c!"own.json"]] := by
  rcases h with ⟨o, ho, hf, hq⟩ | ⟨_, _, hq⟩
  · have h : recoverWorld.st.svc.outputs = [_, _, _, _] := rfl
    rw [h] at ho
    simp only [List.mem_cons, List.not_mem_nil, or_false] at ho
    rcases ho with rfl | rfl | rfl | rfl
    any_goals
      obtain rfl : q = _ := hq
      decide
    rcases hf with ⟨_, e⟩ | ⟨_, e⟩ <;> cases e
  · have hr : resolve recoverWorld.cwd recoverWorld.st.svc.cachePath = some [c!"w", c!"own.json"] := by decide
    rw [hr] at hq
    cases hq
    decide

/-- The example project is orderly. -/
theorem recover_orderly : DirAt recoverWorld.cwd recoverWorld.st.svc.workDir [c!"w"] ∧ resolve recoverWorld.cwd c!"/w" = some recoverWorld.cwd ∧
    (∀ x ∈ recoverWorld.cwd, '/' ∉ x) ∧ Orderly recoverWorld.fs [c!"w"] (placesOf recoverWorld.cwd [c!"w"] recoverWorld.st.svc) := by
  refine ⟨Or.inr (by decide), by decide, by decide, ?_, ?_, by decide, Or.inl (by decide), ?_, ?_, ?_⟩
  · intro q hq hl
    rw [FS.look, if_neg hq, FS.get_mem_iff] at hl
    obtain ⟨e, he, rfl⟩ := hl
    exact (by decide : ∀ e ∈ recoverWorld.fs, recoverWorld.fs.look e.1.dropLast = some .dir) e he
  · intro q hl x hx
    by_cases hq : q = []
    · subst hq; cases hx
    rw [FS.look, if_neg hq, FS.get_mem_iff] at hl
    obtain ⟨e, he, rfl⟩ := hl
    exact (by decide : ∀ e ∈ recoverWorld.fs, ∀ x ∈ e.1, '/' ∉ x) e he x hx
  · intro n _ h
    have hn : [c!"w"] ++ [n] ≠ [] := by simp
    have h' : FS.get recoverWorld.fs ([c!"w"] ++ [n]) = some .dir := by rw [FS.look, if_neg hn] at h; exact h
    simp only [recoverWorld, routerWorld, FS.get] at h'
    repeat' split at h'
    · rename_i e; simp at e
    all_goals cases h'
  · intro q hq
    exact (by decide : ∀ q ∈ [[c!"w", c!"routes.json"], [c!"w", c!"api.yaml"], [c!"w", c!"again.json"], [c!"w", c!"own.json"]],
      recoverWorld.fs.look q.dropLast = some .dir ∧ recoverWorld.fs.look q ≠ some .dir ∧ ¬ [c!"w"] ++ [c!".astra"] <+: q) q (recover_files q hq)
  · intro D hD
    obtain rfl := (recover_dirs D).mp hD
    decide

theorem recover_spaced : Spaced [c!"w"] (placesOf recoverWorld.cwd [c!"w"] recoverWorld.st.svc) where
  astra D hD := by
    obtain rfl := (recover_dirs D).mp hD
    exact ⟨by decide, by decide⟩
  sources D hD n hn e := by
    obtain rfl := (recover_dirs D).mp hD
    obtain rfl : c!"functions" = n := by simpa using e
    exact absurd hn (by simp only [GoFile, ModFile]; decide)
  files D hD q hq := by
    obtain rfl := (recover_dirs D).mp hD
    exact (by decide : ∀ q ∈ [[c!"w", c!"routes.json"], [c!"w", c!"api.yaml"], [c!"w", c!"again.json"], [c!"w", c!"own.json"]],
      ¬ [c!"w", c!"functions"] <+: q) q (recover_files q hq)
  dirs D D' hD hD' := Or.inl (((recover_dirs D).mp hD).trans ((recover_dirs D').mp hD').symm)

theorem recover_noLeftover : NoLeftover recoverWorld.fs [c!"w"] (placesOf recoverWorld.cwd [c!"w"] recoverWorld.st.svc) := fun _ => by decide

theorem recover_apart : ∀ q, CachePlace recoverWorld.cwd recoverWorld.st.svc q → ¬ OutputPlaces [c!"w"] recoverWorld.st.svc q := by
  rintro q ⟨_, _, hq⟩ ⟨o, ho, hf, hp⟩
  have hr : resolve recoverWorld.cwd recoverWorld.st.svc.cachePath = some [c!"w", c!"own.json"] := by decide
  rw [hr] at hq
  cases hq
  have h : recoverWorld.st.svc.outputs = [_, _, _, _] := rfl
  rw [h] at ho
  simp only [List.mem_cons, List.not_mem_nil, or_false] at ho
  rcases ho with rfl | rfl | rfl | rfl
  · exact absurd hp (by show ¬ (_ = _); decide)
  · exact absurd hp (by show ¬ (_ = _); decide)
  · rcases hf with ⟨_, e⟩ | ⟨_, e⟩ <;> cases e
  · exact absurd hp (by show ¬ (_ = _); decide)

/-- The theorems apply to the example: after a run that crashed, say at its third call of the system, and a look at .astra, the next run
writes the same files, and a function for each route. -/
example (φ : Faults) (w1 w' : World Proc) (h1 : w1.fs = (Astra.parseAll recoverLib c!"/w" φ recoverWorld).1.fs) (h2 : w1.cwd = recoverWorld.cwd)
    (h3 : w1.st = recoverWorld.st) (h1' : w'.fs = w1.fs.del [c!"w", c!".astra", c!"azure"]) (h2' : w'.cwd = recoverWorld.cwd)
    (h3' : w'.st = recoverWorld.st) : (Astra.parseAll recoverLib c!"/w" noFaults w').2 = .ok () ∧
    (Astra.parseAll recoverLib c!"/w" noFaults w').1.fs.look [c!"w", c!"api.yaml"] = some (.file c!"/a/b/c") ∧
    ∃ t, (Astra.parseAll recoverLib c!"/w" noFaults w').1.fs.look [c!"w", c!"functions", c!"Put", c!"function.json"] = some (.file t) := by
  obtain ⟨k1, k2, k3, k4⟩ := recover_orderly
  obtain ⟨j1, j2, m, rs, cs, j3, j4⟩ := run_after_attempts_partial _ _ _ w' _ _ recover_feasible recover_apart recover_spaced k1 k2 k3 k4
    recover_noLeftover (.tidied _ (.again _ φ .none h1 h2 h3) k1 h1' h2' h3')
    (fun _ => by rw [h1', FS.look_del, if_pos ⟨List.prefix_refl _, by decide⟩])
  refine ⟨j1, ?_, ?_⟩
  · rw [(j2 [c!"w", c!"api.yaml"] ⟨recoverWorld.st.svc.outputs[1]'(by decide), List.getElem_mem _, Or.inr ⟨_, rfl⟩,
      show [c!"w", c!"api.yaml"] = _ by decide⟩).1]
    decide +kernel
  · obtain ⟨found, m1, cs1, rs1, hf, h, _, rfl, _⟩ := j3
    have hm : c!"example.com/shop.Put" ∈ (rs1.map (cleanRoute m)).map (·.handler) := by
      have e : (rs1.map (cleanRoute m)).map (·.handler) = rs1.map (·.handler) := by rw [List.map_map]; rfl
      rw [e, recoverLib_all_handlers h, found_handlers hf]
      decide +kernel
    obtain ⟨r, hr, hh⟩ := List.mem_map.mp hm
    exact ⟨_, ((j4 [c!"w", c!"functions"] ((recover_dirs _).mpr rfl)).1 [c!"Put", c!"function.json"] _).mpr
      (Or.inr ⟨r, hr, c!"Put", by rw [hh]; exact ⟨by decide, Or.inr ⟨c!"example.com/shop", by decide⟩⟩, Or.inr ⟨rfl, rfl⟩⟩)⟩

end Astra.Props
