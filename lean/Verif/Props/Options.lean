/-
C56: options apply in order, independently, and the last one wins.
-/
import Verif.Spec.Options
import Verif.Lemmas.Basic

namespace Astra.Props
open Spec

theorem findSome_append {α β : Type} (f : α → Option β) (l : List α) (a : α) :
    (l ++ [a]).reverse.findSome? f = (f a).or (l.reverse.findSome? f) := by
  simp only [List.reverse_append, List.reverse_cons, List.reverse_nil, List.nil_append, List.cons_append, List.findSome?_cons]
  cases f a <;> rfl

/-- A setting that every option either leaves or replaces has the last value. -/
theorem fold_last {β : Type} (get : Service → β) (f : Opt → Option β) (h : ∀ o s, get (o.apply s) = (f o).getD (get s)) (opts : List Opt) :
    get (newService opts) = lastValue f (get {}) opts := by
  unfold newService
  have key : ∀ (l : List Opt) (s : Service), get (l.foldl (fun s o => o.apply s) s) = lastValue f (get s) l := by
    intro l
    induction l with
    | nil => intro s; rfl
    | cons o l ih =>
      intro s
      rw [List.foldl_cons, ih, h]
      unfold lastValue
      rw [List.reverse_cons]
      have : (l.reverse ++ [o]).findSome? f = (l.reverse.findSome? f).or (f o) := by
        rw [List.findSome?_append]
        simp only [List.findSome?_cons, List.findSome?_nil]
        cases f o <;> rfl
      rw [this]
      cases l.reverse.findSome? f with
      | some b => rfl
      | none => simp
  exact key opts {}

/-- The level of a name is the one in the table of names. -/
theorem logLevelOf_names (n : Str) : logLevelOf n = (levelNames.lookup n).getD .info := by
  unfold logLevelOf levelNames
  simp only [List.lookup_cons, List.lookup_nil]
  repeat' split
  all_goals first | rfl | simp_all

/-- C56: for a setting that holds one value the last option wins. -/
theorem options_last_wins (opts : List Opt) :
    (newService opts).config = lastValue saysConfig none opts ∧
    (newService opts).workDir = lastValue saysWorkDir [] opts ∧
    (newService opts).cachePath = lastValue saysCachePath [] opts ∧
    (newService opts).cliMode = lastValue saysCLIMode .none opts ∧
    (newService opts).log.id = lastValue saysLogger 0 opts ∧
    (newService opts).log.level = lastValue saysLevel .info opts := by
  refine ⟨?_, ?_, ?_, ?_, ?_, ?_⟩
  · exact fold_last (·.config) saysConfig (fun o s => by cases o <;> rfl) opts
  · exact fold_last (·.workDir) saysWorkDir (fun o s => by cases o <;> rfl) opts
  · exact fold_last (·.cachePath) saysCachePath (fun o s => by cases o <;> rfl) opts
  · exact fold_last (·.cliMode) saysCLIMode (fun o s => by cases o <;> rfl) opts
  · exact fold_last (·.log.id) saysLogger (fun o s => by cases o <;> rfl) opts
  · exact fold_last (·.log.level) saysLevel (fun o s => by cases o <;> first | rfl | simp [Opt.apply, saysLevel, logLevelOf_names]) opts

/-- C56: caching is enabled iff some option asks for it. -/
theorem options_cache (opts : List Opt) : (newService opts).cacheEnabled = opts.any asksCache := by
  have key : ∀ (l : List Opt) (s : Service), (l.foldl (fun s o => o.apply s) s).cacheEnabled = (s.cacheEnabled || l.any asksCache) := by
    intro l
    induction l with
    | nil => intro s; simp
    | cons o l ih =>
      intro s
      rw [List.foldl_cons, ih]
      have : (o.apply s).cacheEnabled = (s.cacheEnabled || asksCache o) := by cases o <;> simp [Opt.apply, asksCache, withGinInput, withAzureOutput, withOpenApiOutput, withJsonOutput]
      rw [this, List.any_cons, Bool.or_assoc]
  simpa [newService] using key opts {}

theorem fold_list {β γ : Type} (get : Service → List β) (f : Opt → Option γ) (view : β → γ) (h : ∀ o s, (get (o.apply s)).map view = (get s).map view ++ (f o).toList)
    (h0 : get {} = []) (opts : List Opt) : (get (newService opts)).map view = opts.filterMap f := by
  have key : ∀ (l : List Opt) (s : Service), (get (l.foldl (fun s o => o.apply s) s)).map view = (get s).map view ++ l.filterMap f := by
    intro l
    induction l with
    | nil => intro s; simp
    | cons o l ih =>
      intro s
      rw [List.foldl_cons, ih, h, List.append_assoc]
      cases hf : f o with
      | none => rw [List.filterMap_cons_none hf]; rfl
      | some b => rw [List.filterMap_cons_some hf]; rfl
  have := key opts {}
  rwa [h0] at this

/-- What an input is: its mode and its router. -/
def inputView (i : Input) : Str × Option (List RouteInfo) :=
  (i.mode, match i.createRoutes with | .ginCreate r => r | _ => none)

/-- What an output is: its mode and its configuration, if it has one entry. -/
def outputView (o : Output) : Str × Str × Str :=
  (o.mode, match o.configuration with | [(k, .str v)] => (k, v) | _ => ([], []))

/-- C56: options for lists accumulate in the order given. -/
theorem options_accumulate (opts : List Opt) :
    (newService opts).inputs.map inputView = opts.filterMap addsInput ∧
    (newService opts).outputs.map outputView = opts.filterMap addsOutput ∧
    (newService opts).denyList = opts.filterMap addsDeny ∧
    (newService opts).customFuncs = opts.filterMap addsFunc := by
  refine ⟨?_, ?_, ?_, ?_⟩
  · exact fold_list (·.inputs) addsInput inputView (fun o s => by
      cases o <;> simp [Opt.apply, addsInput, withGinInput, withAzureOutput, withOpenApiOutput, withJsonOutput, inputView, modeGin]) rfl opts
  · exact fold_list (·.outputs) addsOutput outputView (fun o s => by
      cases o <;> simp [Opt.apply, addsOutput, withGinInput, withAzureOutput, withOpenApiOutput, withJsonOutput, outputView, modeAzure,
        modeJson, modeOpenApi, keyFilePath, keyDirectoryPath]) rfl opts
  · have := fold_list (·.denyList) addsDeny id (fun o s => by
      cases o <;> simp [Opt.apply, addsDeny, withGinInput, withAzureOutput, withOpenApiOutput, withJsonOutput]) rfl opts
    simpa using this
  · have := fold_list (·.customFuncs) addsFunc id (fun o s => by
      cases o <;> simp [Opt.apply, addsFunc, withGinInput, withAzureOutput, withOpenApiOutput, withJsonOutput]) rfl opts
    simpa using this

/-- C56: of the custom type mappings for a key the last one counts. -/
theorem options_type_mapping (opts : List Opt) (k : Str) :
    mget (newService opts).maps.custom k = ((opts.flatMap addsTypes).reverse.find? (fun e => e.1 = k)).map (·.2) := by
  have ent : ∀ (es : List (Str × TypeFormat)) (m : List (Str × TypeFormat)), mget (es.foldl (fun acc e => mset acc e.1 e.2) m) k =
      ((es.reverse.find? (fun e => e.1 = k)).map (·.2)).or (mget m k) := by
    intro es
    induction es with
    | nil => intro m; rfl
    | cons e es ih =>
      intro m
      rw [List.foldl_cons, ih, List.reverse_cons, List.find?_append, mget_mset]
      cases es.reverse.find? (fun e => e.1 = k) with
      | some x => rfl
      | none =>
        by_cases h : e.1 = k
        · simp [h]
        · simp [h]
  have key : ∀ (l : List Opt) (s : Service), mget (l.foldl (fun s o => o.apply s) s).maps.custom k =
      (((l.flatMap addsTypes).reverse.find? (fun e => e.1 = k)).map (·.2)).or (mget s.maps.custom k) := by
    intro l
    induction l with
    | nil => intro s; rfl
    | cons o l ih =>
      intro s
      rw [List.foldl_cons, ih, List.flatMap_cons, List.reverse_append, List.find?_append]
      have : mget (o.apply s).maps.custom k = (((addsTypes o).reverse.find? (fun e => e.1 = k)).map (·.2)).or (mget s.maps.custom k) := by
        cases o <;> first | rfl | exact ent _ _
      rw [this]
      cases (l.flatMap addsTypes).reverse.find? (fun e => e.1 = k) <;> simp
  have := key opts {}
  rw [newService, this]
  show Option.or _ none = _
  simp

/-- C56: options that concern different settings (or have only enabling the cache in common) can be exchanged. -/
theorem options_commute (a b : Opt) (h : ∀ x ∈ settings a, x ∈ settings b → x = .cacheEnabled) (s : Service) :
    b.apply (a.apply s) = a.apply (b.apply s) := by
  cases a <;> cases b <;> first | rfl | (exfalso; simp [settings] at h)

/-- C56: hence exchanging neighbours in the option list that concern different settings does not change the service. -/
theorem options_swap (pre post : List Opt) (a b : Opt) (h : ∀ x ∈ settings a, x ∈ settings b → x = .cacheEnabled) :
    newService (pre ++ a :: b :: post) = newService (pre ++ b :: a :: post) := by
  simp only [newService, List.foldl_append, List.foldl_cons]
  rw [options_commute a b h]

/-- C56: every output generates to the path it was configured with. -/
theorem options_generator_paths (opts : List Opt) :
    (newService opts).outputs.map (fun o => generatorPath (newService opts).cells o.generate) =
      opts.filterMap (fun o => (addsOutput o).map (fun t => some t.2.2)) := by
  have key : ∀ (l : List Opt) (s : Service), (∀ o ∈ s.outputs, generatorPath s.cells o.generate ≠ none) →
      let s' := l.foldl (fun s o => o.apply s) s
      s'.outputs.map (fun o => generatorPath s'.cells o.generate) =
        s.outputs.map (fun o => generatorPath s.cells o.generate) ++ l.filterMap (fun o => (addsOutput o).map (fun t => some t.2.2)) := by
    intro l
    induction l with
    | nil => intro s _; simp
    | cons o l ih =>
      intro s hs
      have mono : ∀ (c : Str) (a : Action), generatorPath s.cells a ≠ none → generatorPath (s.cells ++ [c]) a = generatorPath s.cells a := by
        intro c a ha
        cases a <;> simp only [generatorPath] at ha ⊢
        · rename_i loc
          have : loc < s.cells.length := by
            cases hc : s.cells[loc]? with
            | none => exact absurd hc ha
            | some v => exact (List.getElem?_eq_some_iff.mp hc).1
          rw [List.getElem?_append_left this]
        · rename_i loc
          have : loc < s.cells.length := by
            cases hc : s.cells[loc]? with
            | none => exact absurd hc ha
            | some v => exact (List.getElem?_eq_some_iff.mp hc).1
          rw [List.getElem?_append_left this]
      have step : (∀ o' ∈ (o.apply s).outputs, generatorPath (o.apply s).cells o'.generate ≠ none) ∧
          (o.apply s).outputs.map (fun o' => generatorPath (o.apply s).cells o'.generate) =
            s.outputs.map (fun o' => generatorPath s.cells o'.generate) ++ ((addsOutput o).map (fun t => some t.2.2)).toList := by
        cases o
        case openApiOutput f =>
          have hm : s.outputs.map (fun o' => generatorPath (s.cells ++ [f]) o'.generate) = s.outputs.map (fun o' => generatorPath s.cells o'.generate) :=
            List.map_congr_left (fun o' ho => mono f _ (hs o' ho))
          refine ⟨?_, ?_⟩
          · intro o' ho
            simp only [Opt.apply, withOpenApiOutput, List.mem_append, List.mem_singleton] at ho ⊢
            rcases ho with ho | rfl
            · rw [mono f _ (hs o' ho)]; exact hs o' ho
            · simp [generatorPath]
          · simp only [Opt.apply, withOpenApiOutput, addsOutput, List.map_append, hm, List.map_cons, List.map_nil]
            simp [generatorPath]
        case jsonOutput f =>
          have hm : s.outputs.map (fun o' => generatorPath (s.cells ++ [f]) o'.generate) = s.outputs.map (fun o' => generatorPath s.cells o'.generate) :=
            List.map_congr_left (fun o' ho => mono f _ (hs o' ho))
          refine ⟨?_, ?_⟩
          · intro o' ho
            simp only [Opt.apply, withJsonOutput, List.mem_append, List.mem_singleton] at ho ⊢
            rcases ho with ho | rfl
            · rw [mono f _ (hs o' ho)]; exact hs o' ho
            · simp [generatorPath]
          · simp only [Opt.apply, withJsonOutput, addsOutput, List.map_append, hm, List.map_cons, List.map_nil]
            simp [generatorPath]
        case azureOutput f =>
          refine ⟨?_, ?_⟩
          · intro o' ho
            simp only [Opt.apply, withAzureOutput, List.mem_append, List.mem_singleton] at ho ⊢
            rcases ho with ho | rfl
            · exact hs o' ho
            · simp [generatorPath]
          · simp [Opt.apply, withAzureOutput, addsOutput, generatorPath]
        all_goals exact ⟨hs, by simp [Opt.apply, addsOutput, withGinInput]⟩
      have := ih (o.apply s) step.1
      simp only at this
      simp only [List.foldl_cons]
      rw [this, step.2, List.append_assoc]
      rw [List.filterMap_cons]
      cases (addsOutput o).map (fun t => some t.2.2) <;> rfl
  have := key opts {} (by simp)
  simpa [newService] using this

/-- Non-vacuity: a concrete option list. -/
example : (newService [.workDir c!"/a", .cache, .jsonOutput c!"x", .workDir c!"/b", .openApiOutput c!"y.yaml"]).workDir = c!"/b" ∧
    (newService [.workDir c!"/a", .cache, .jsonOutput c!"x", .workDir c!"/b", .openApiOutput c!"y.yaml"]).cells = [c!"x", c!"y.yaml"] := by
  decide

/-- Non-vacuity: two independent options. -/
example : ∀ x ∈ settings (.cachePath c!"c.json"), x ∈ settings .cli → x = .cacheEnabled := by decide

end Astra.Props
