/-
C50, C60: the location and the content of the JSON and OpenAPI output files.
-/
import Verif.Spec.OutputFile
import Verif.Spec.Cache
import Verif.Lemmas.Codec
import Verif.Lemmas.Json
import Verif.Lemmas.Exec
import Verif.Props.JsonText
import Verif.Lemmas.GoPathClean

namespace Astra.Props
open Spec

theorem jsonExt_spec (p : Str) : jsonExt p = withExtension [c!".json"] p := by
  simp [jsonExt, withExtension, hasSuffix_iff]

theorem openApiExt_spec (p : Str) : openApiExt p = withExtension [c!".json", c!".yaml", c!".yml"] p := by
  simp [openApiExt, withExtension, hasSuffix_iff, or_assoc]

theorem jsonGenerate_inv {φ : Faults} {w w' : World Proc} {loc : Nat} (h : jsonGenerate loc φ w = (w', .ok ())) :
    ∃ q, resolve w.cwd (pathJoin [w.st.svc.workDir, jsonExt (w.st.svc.cells.getD loc [])]) = some q ∧ q ≠ [] ∧
      w' = { w with clock := w.clock + 2
                    fs := w.fs.put q (.file (marshalIndent (encJsonOutput w.st.svc.routes w.st.svc.components)))
                    st := { w.st with svc := { w.st.svc with
                      cells := w.st.svc.cells.set loc (pathJoin [w.st.svc.workDir, jsonExt (w.st.svc.cells.getD loc [])]) } } } := by
  unfold jsonGenerate at h
  rw [Run.bind_ok (getSvc_ok φ w)] at h
  rw [Run.bind_ok (getCell_ok loc φ w)] at h
  unfold setCell at h
  rw [Run.bind_ok (modifySvc_ok _ φ w)] at h
  obtain ⟨q, h1, h2, h3⟩ := osWriteFile_inv h
  exact ⟨q, h1, h2, h3⟩

theorem openApiGenerate_inv {L : Lib} {φ : Faults} {w w' : World Proc} {loc : Nat} (h : openApiGenerate L loc φ w = (w', .ok ())) :
    ∃ q doc text, generateDoc L.choices w.st.names { config := w.st.svc.config, routes := w.st.svc.routes, components := w.st.svc.components, types := w.st.svc.maps.merged } = .ok doc ∧
      L.render (isYaml (openApiExt (w.st.svc.cells.getD loc []))) doc = .ok text ∧
      resolve w.cwd (pathJoin [w.st.svc.workDir, openApiExt (w.st.svc.cells.getD loc [])]) = some q ∧ q ≠ [] ∧
      w'.fs = w.fs.put q (.file text) ∧ w'.cwd = w.cwd ∧ w'.st.svc.workDir = w.st.svc.workDir ∧
      w'.st.svc.cells = w.st.svc.cells.set loc (pathJoin [w.st.svc.workDir, openApiExt (w.st.svc.cells.getD loc [])]) := by
  unfold openApiGenerate at h
  rw [Run.bind_ok (show Run.get φ w = (w, .ok w.st) from rfl)] at h
  simp only at h
  cases hd : generateDoc L.choices w.st.names { config := w.st.svc.config, routes := w.st.svc.routes, components := w.st.svc.components, types := w.st.svc.maps.merged } with
  | err e => rw [hd] at h; cases h
  | panic e => rw [hd] at h; cases h
  | ok doc =>
    rw [hd] at h
    simp only at h
    obtain ⟨w1, _, h1, h⟩ := Run.bind_inv h
    cases h1
    rw [Run.bind_ok (getCell_ok loc φ _)] at h
    unfold setCell at h
    rw [Run.bind_ok (modifySvc_ok _ φ _)] at h
    simp only at h
    cases hr : L.render (isYaml (openApiExt (w.st.svc.cells.getD loc []))) doc with
    | error e => rw [hr] at h; cases h
    | ok text =>
      rw [hr] at h
      simp only at h
      rw [Run.bind_ok (modifySvc_ok _ φ _)] at h
      obtain ⟨q, h1, h2, h3⟩ := osWriteFile_inv h
      refine ⟨q, doc, text, rfl, hr, h1, h2, ?_, ?_, ?_, ?_⟩
      · rw [h3]
      · rw [h3]
      · rw [h3]
      · rw [h3]; simp [List.set_set]

/-- C60: when the JSON output has been generated, the file holds an object with exactly the keys "routes" and "components", and
reading them back gives exactly the service's routes and components, in order. -/
theorem json_output_mirrors_service (f64 : Str → Str) (φ : Faults) (w w' : World Proc) (loc : Nat)
    (hfin : ∀ f ∈ serviceFields w.st.svc, FiniteEnums f) (hmaps : ∀ f ∈ serviceFields w.st.svc, GoMaps f)
    (h : jsonGenerate loc φ w = (w', .ok ())) :
    ∃ q text rs cs, w'.fs.look q = some (.file text) ∧
      JsonText text (.obj [(c!"routes", .arr rs), (c!"components", .arr cs)]) ∧
      (∃ routes, readAll (decRoute f64) rs = some routes ∧ Each (RestoredRoute f64) w.st.svc.routes routes) ∧
      (∃ components, readAll (decField f64) cs = some components ∧ Each (Restored f64) w.st.svc.components components) := by
  obtain ⟨q, _, hq, rfl⟩ := jsonGenerate_inv h
  refine ⟨q, _, w.st.svc.routes.map encRoute, w.st.svc.components.map encField, by rw [FS.look_put _ hq, if_pos rfl], ?_, ?_, ?_⟩
  · exact written_is_json true 0 _ (good_jsonOutput hfin)
  · exact readAll_each _ (fun r hr => decRoute_enc f64 r (fun f hf => hmaps f (List.mem_append_left _ (List.mem_flatMap.mpr ⟨r, hr, hf⟩))))
  · exact readAll_each _ (fun c hc => decField_enc f64 c (hmaps c (List.mem_append_right _ hc)))

/-- C50 (partial): an output that is generated successfully is at workdir/path with the extension, and nothing else has changed.
Missing: this holds for the path the output currently has; after the first generation it has changed
(`second_generation_elsewhere`). -/
theorem json_location_partial (φ : Faults) (w w' : World Proc) (loc : Nat) (path : Str) (d : FPath)
    (hc : w.st.svc.cells[loc]? = some path) (hd : resolve w.cwd w.st.svc.workDir = some d) (h : jsonGenerate loc φ w = (w', .ok ())) :
    (∃ text, w'.fs.look (walk d (segments (withExtension [c!".json"] path))) = some (.file text)) ∧
    OnlyAt (walk d (segments (withExtension [c!".json"] path))) w.fs w'.fs := by
  obtain ⟨q, hr, hq, rfl⟩ := jsonGenerate_inv h
  have hw : w.st.svc.workDir ≠ [] := by intro e; rw [e] at hd; simp [resolve] at hd
  have hcell : w.st.svc.cells.getD loc [] = path := by simp [List.getD, hc]
  rw [resolve_join _ (Or.inl hw), hcell, jsonExt_spec] at hr
  rw [resolve_eq hw] at hd
  cases hd
  cases hr
  exact ⟨⟨_, by rw [FS.look_put _ hq, if_pos rfl]⟩, fun p hp => by rw [FS.look_put _ hq, if_neg hp]⟩

/-- C50 (partial), for the OpenAPI output. -/
theorem openapi_location_partial (L : Lib) (φ : Faults) (w w' : World Proc) (loc : Nat) (path : Str) (d : FPath)
    (hc : w.st.svc.cells[loc]? = some path) (hd : resolve w.cwd w.st.svc.workDir = some d)
    (h : openApiGenerate L loc φ w = (w', .ok ())) :
    (∃ text, w'.fs.look (walk d (segments (withExtension [c!".json", c!".yaml", c!".yml"] path))) = some (.file text)) ∧
    OnlyAt (walk d (segments (withExtension [c!".json", c!".yaml", c!".yml"] path))) w.fs w'.fs := by
  obtain ⟨q, doc, text, _, _, hr, hq, hfs, _⟩ := openApiGenerate_inv h
  have hw : w.st.svc.workDir ≠ [] := by intro e; rw [e] at hd; simp [resolve] at hd
  have hcell : w.st.svc.cells.getD loc [] = path := by simp [List.getD, hc]
  rw [resolve_join _ (Or.inl hw), hcell, openApiExt_spec] at hr
  rw [resolve_eq hw] at hd
  cases hd
  cases hr
  rw [hfs]
  exact ⟨⟨text, by rw [FS.look_put _ hq, if_pos rfl]⟩, fun p hp => by rw [FS.look_put _ hq, if_neg hp]⟩

theorem jsonExt_of_suffix {p : Str} (h : c!".json" <:+ p) : jsonExt p = p := by
  unfold jsonExt
  rw [if_pos (hasSuffix_iff.mpr h)]

theorem suffix_jsonExt (p : Str) : c!".json" <:+ jsonExt p := by
  unfold jsonExt
  split
  · rename_i h; exact hasSuffix_iff.mp h
  · exact List.suffix_append _ _

theorem openApiExt_of_suffix {p : Str} (h : c!".json" <:+ p ∨ c!".yaml" <:+ p ∨ c!".yml" <:+ p) : openApiExt p = p := by
  unfold openApiExt
  rw [if_pos]
  simpa [hasSuffix_iff, or_assoc] using h

theorem suffix_openApiExt (p : Str) : c!".json" <:+ openApiExt p ∨ c!".yaml" <:+ openApiExt p ∨ c!".yml" <:+ openApiExt p := by
  unfold openApiExt
  split
  · rename_i h; simpa [hasSuffix_iff, or_assoc] using h
  · exact Or.inl (List.suffix_append _ _)

theorem long_suffix {a b c d : Char} (t x : Str) :
    x ++ a :: b :: c :: d :: t ≠ [] ∧ x ++ a :: b :: c :: d :: t ≠ c!"." ∧ x ++ a :: b :: c :: d :: t ≠ c!".." := by
  refine ⟨?_, ?_, ?_⟩ <;> (intro e; have := congrArg List.length e; simp at this; try omega)

theorem pathJoin_abs {a b : Str} (h : isAbs a = true) (hb : b ≠ []) : pathJoin [a, b] = pathClean (a ++ '/' :: b) ∧ isAbs (a ++ '/' :: b) = true := by
  have ha : a ≠ [] := by rintro rfl; simp [isAbs] at h
  refine ⟨?_, by rw [isAbs_append ha]; exact h⟩
  unfold pathJoin
  have e1 : a.isEmpty = false := by cases a <;> simp_all
  have e2 : b.isEmpty = false := by cases b <;> simp_all
  simp [e1, e2, join]

/-- The location after the first generation, for the file name `f` (which has its extension). -/
theorem second_place {cwd : FPath} {wd f : Str} (habs : isAbs wd = true) (hf : f ≠ []) :
    resolve cwd (pathJoin [wd, pathJoin [wd, f]]) = some (locOf cwd wd ++ walk (locOf cwd wd) (segments f)) := by
  have hw : wd ≠ [] := by rintro rfl; simp [isAbs] at habs
  obtain ⟨e, ha⟩ := pathJoin_abs habs hf
  rw [resolve_join _ (Or.inl hw)]
  rw [show walk (locOf cwd wd) (segments (pathJoin [wd, f])) = locOf cwd wd ++ locOf cwd (wd ++ '/' :: f) by
    rw [e]; exact walk_clean_abs _ cwd ha]
  have : locOf cwd (wd ++ '/' :: f) = walk (locOf cwd wd) (segments f) := by
    rw [← loc_clean, ← e]; exact (loc_join cwd (Or.inl hw)).2
  rw [this]

/-- C50 fails from the second generation on: if the work dir is absolute (as Setup makes it by default) and not the root, an output
that has been generated once is generated the next time to workdir/workdir/path, and the file of the first generation is not
updated. -/
theorem json_second_generation_elsewhere (φ φ' : Faults) (w w' w'' : World Proc) (loc : Nat) (path : Str) (d : FPath)
    (hc : w.st.svc.cells[loc]? = some path) (habs : isAbs w.st.svc.workDir = true) (hd : resolve w.cwd w.st.svc.workDir = some d) (hne : d ≠ [])
    (h : jsonGenerate loc φ w = (w', .ok ())) (h' : jsonGenerate loc φ' w' = (w'', .ok ())) :
    OnlyAt (d ++ walk d (segments (withExtension [c!".json"] path))) w'.fs w''.fs ∧
    (∃ text, w''.fs.look (d ++ walk d (segments (withExtension [c!".json"] path))) = some (.file text)) ∧
    d ++ walk d (segments (withExtension [c!".json"] path)) ≠ walk d (segments (withExtension [c!".json"] path)) := by
  obtain ⟨q, hr, hq, rfl⟩ := jsonGenerate_inv h
  obtain ⟨q', hr', hq', rfl⟩ := jsonGenerate_inv h'
  have hw : w.st.svc.workDir ≠ [] := by intro e; rw [e] at hd; simp [resolve] at hd
  have hlt : loc < w.st.svc.cells.length := (List.getElem?_eq_some_iff.mp hc).1
  have hcell : w.st.svc.cells.getD loc [] = path := by simp [List.getD, hc]
  rw [resolve_eq hw] at hd
  cases hd
  simp only [List.getD_eq_getElem?_getD] at hr'
  rw [List.getElem?_set_self hlt] at hr'
  simp only [← List.getD_eq_getElem?_getD, Option.getD_some, hcell] at hr'
  have hn : jsonExt path ≠ [] := by
    intro e; have := suffix_jsonExt path; rw [e] at this; simp at this
  have hsuf : c!".json" <:+ pathJoin [w.st.svc.workDir, jsonExt path] := by
    rw [(pathJoin_abs habs hn).1]
    apply pathClean_suffix (by decide)
    · exact (suffix_jsonExt path).trans (by
        rw [show w.st.svc.workDir ++ '/' :: jsonExt path = (w.st.svc.workDir ++ ['/']) ++ jsonExt path by simp]
        exact List.suffix_append _ _)
    · exact fun x => long_suffix _ x
  rw [jsonExt_of_suffix hsuf, second_place habs hn, jsonExt_spec] at hr'
  cases hr'
  refine ⟨fun p hp => ?_, ⟨marshalIndent (encJsonOutput w.st.svc.routes w.st.svc.components), ?_⟩, ?_⟩
  · show FS.look (FS.put _ _ _) p = _
    rw [FS.look_put _ hq', if_neg hp]
  · show FS.look (FS.put _ _ _) _ = _
    rw [FS.look_put _ hq', if_pos rfl]
  · intro e
    have := congrArg List.length e
    simp at this
    exact hne this

/-- C50 fails from the second generation on, for the OpenAPI output. -/
theorem openapi_second_generation_elsewhere (L : Lib) (φ φ' : Faults) (w w' w'' : World Proc) (loc : Nat) (path : Str) (d : FPath)
    (hc : w.st.svc.cells[loc]? = some path) (habs : isAbs w.st.svc.workDir = true) (hd : resolve w.cwd w.st.svc.workDir = some d) (hne : d ≠ [])
    (h : openApiGenerate L loc φ w = (w', .ok ())) (h' : openApiGenerate L loc φ' w' = (w'', .ok ())) :
    OnlyAt (d ++ walk d (segments (withExtension [c!".json", c!".yaml", c!".yml"] path))) w'.fs w''.fs ∧
    d ++ walk d (segments (withExtension [c!".json", c!".yaml", c!".yml"] path)) ≠
      walk d (segments (withExtension [c!".json", c!".yaml", c!".yml"] path)) := by
  obtain ⟨q, _, _, _, _, hr, hq, hfs, hcwd, hwd, hcells⟩ := openApiGenerate_inv h
  obtain ⟨q', _, text', _, _, hr', hq', hfs', _⟩ := openApiGenerate_inv h'
  have hw : w.st.svc.workDir ≠ [] := by intro e; rw [e] at hd; simp [resolve] at hd
  have hlt : loc < w.st.svc.cells.length := (List.getElem?_eq_some_iff.mp hc).1
  have hcell : w.st.svc.cells.getD loc [] = path := by simp [List.getD, hc]
  rw [resolve_eq hw] at hd
  cases hd
  rw [hcells, hcwd, hwd] at hr'
  simp only [List.getD_eq_getElem?_getD] at hr'
  rw [List.getElem?_set_self hlt] at hr'
  simp only [← List.getD_eq_getElem?_getD, Option.getD_some, hcell] at hr'
  have hn : openApiExt path ≠ [] := by
    intro e; have := suffix_openApiExt path; rw [e] at this; simp at this
  have pre : ∀ t : Str, t <:+ openApiExt path → t <:+ w.st.svc.workDir ++ '/' :: openApiExt path := fun t ht => ht.trans (by
        rw [show w.st.svc.workDir ++ '/' :: openApiExt path = (w.st.svc.workDir ++ ['/']) ++ openApiExt path by simp]
        exact List.suffix_append _ _)
  have hsuf : openApiExt (pathJoin [w.st.svc.workDir, openApiExt path]) = pathJoin [w.st.svc.workDir, openApiExt path] := by
    apply openApiExt_of_suffix
    rw [(pathJoin_abs habs hn).1]
    rcases suffix_openApiExt path with hs | hs | hs
    · exact Or.inl (pathClean_suffix (by decide) (pre _ hs) (fun x => long_suffix _ x))
    · exact Or.inr (Or.inl (pathClean_suffix (by decide) (pre _ hs) (fun x => long_suffix _ x)))
    · exact Or.inr (Or.inr (pathClean_suffix (by decide) (pre _ hs) (fun x => long_suffix _ x)))
  rw [hsuf, second_place habs hn, openApiExt_spec] at hr'
  cases hr'
  refine ⟨fun p hp => ?_, ?_⟩
  · rw [hfs', FS.look_put _ hq', if_neg hp]
  · intro e
    have := congrArg List.length e
    simp at this
    exact hne this

/-- The full claim of C50 for the JSON output: generating again writes the same file. -/
def LocationStable : Prop :=
  ∀ (φ φ' : Faults) (w w' w'' : World Proc) (loc : Nat) (path : Str) (d : FPath), w.st.svc.cells[loc]? = some path →
    resolve w.cwd w.st.svc.workDir = some d → jsonGenerate loc φ w = (w', .ok ()) → jsonGenerate loc φ' w' = (w'', .ok ()) →
    OnlyAt (walk d (segments (withExtension [c!".json"] path))) w'.fs w''.fs

/-- A process in the directory /w, with a JSON output to "out". -/
def jsonWorld : World Proc :=
  { fs := [([c!"w"], .dir), ([c!"w", c!"w"], .dir)], cwd := [c!"w"], st := { svc := { newService [.jsonOutput c!"out"] with workDir := c!"/w" } } }

/-- C50 does not hold in full. -/
theorem not_location_stable : ¬ LocationStable := by
  intro h
  have h1 : (jsonGenerate 0 noFaults jsonWorld).2 = .ok () := by decide
  have h2 : (jsonGenerate 0 noFaults (jsonGenerate 0 noFaults jsonWorld).1).2 = .ok () := by decide
  have := h noFaults noFaults jsonWorld _ _ 0 c!"out" [c!"w"] (by decide) (by decide) (Prod.ext rfl h1) (Prod.ext rfl h2)
  have := this [c!"w", c!"w", c!"out.json"] (by decide)
  revert this
  decide

/-- Non-vacuity: the first generation in this world succeeds. -/
example : (jsonGenerate 0 noFaults jsonWorld).2 = .ok () ∧ resolve jsonWorld.cwd jsonWorld.st.svc.workDir = some [c!"w"] ∧
    (∀ f ∈ serviceFields jsonWorld.st.svc, FiniteEnums f) ∧ (∀ f ∈ serviceFields jsonWorld.st.svc, GoMaps f) :=
  ⟨by decide, by decide, fun _ hf => (nomatch hf), fun _ hf => (nomatch hf)⟩

/-- The same process with a route and an enum component. -/
def filledJsonWorld : World Proc :=
  { jsonWorld with st := { jsonWorld.st with svc := { jsonWorld.st.svc with
      routes := [{ handler := c!"main.get", file := c!"main.go", lineNo := 7, method := c!"GET", path := c!"/a/:id",
                   pathParams := [{ name := c!"id", field := { type := c!"string" }, isRequired := true }] }]
      components := [intEnumField] } } }
where intEnumField : Field := { package := c!"main", type := c!"int", name := c!"E", enumValues := [.int 1, .float c!"2.5"] }

/-- Non-vacuity: this process satisfies the hypotheses of `json_output_mirrors_service` and generates its output. -/
example : (jsonGenerate 0 noFaults filledJsonWorld).2 = .ok () ∧ (∀ f ∈ serviceFields filledJsonWorld.st.svc, FiniteEnums f) ∧
    (∀ f ∈ serviceFields filledJsonWorld.st.svc, GoMaps f) := by
  refine ⟨by decide, ?_, ?_⟩
  · intro f hf
    have : f = { type := c!"string" } ∨ f = filledJsonWorld.intEnumField := by simpa [filledJsonWorld, serviceFields, routeFields] using hf
    rcases this with rfl | rfl
    · exact .mk (by intro t ht; cases ht) (by intro e he; cases he)
    · refine .mk ?_ (by intro e he; cases he)
      intro t ht
      have : t = c!"2.5" := by simpa [filledJsonWorld.intEnumField] using ht
      subst this
      exact (number_iff _).1 (by decide)
  · intro f hf
    have : f = { type := c!"string" } ∨ f = filledJsonWorld.intEnumField := by simpa [filledJsonWorld, serviceFields, routeFields] using hf
    rcases this with rfl | rfl
    · exact .mk (by decide) (by decide) (by decide) (by intro e he; cases he)
    · exact .mk (by decide) (by decide) (by decide) (by intro e he; cases he)

end Astra.Props
