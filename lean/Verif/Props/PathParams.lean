/-
C109: the path that a client fills in from the document is read by the handler as it was meant, except for paths with a catch-all.
-/
import Verif.Spec.PathParams
import Verif.Props.Headers
import Verif.Props.Address

namespace Astra.Props
open Astra.Spec

/-! ### What gin reads -/

/-- The segments of a path with values for its parameters. -/
def filledSegs (v : Str → Str) (segs : List Str) : List Str := segs.map (mapSeg (fun _ n => v n))

theorem mapSeg_text {f : Char → Str → Str} {seg : Str} (h : ∀ before marker name, ¬ WildcardOf seg before marker name) : mapSeg f seg = seg := by
  unfold mapSeg
  cases hw : segWild seg with
  | none => rfl
  | some x => exact absurd (segWild_iff.mp hw) (h x.1 x.2.1 x.2.2)

theorem mapSeg_wild {f : Char → Str → Str} {seg before name : Str} {marker : Char} (h : WildcardOf seg before marker name) :
    mapSeg f seg = before ++ f marker name := by
  unfold mapSeg
  rw [segWild_iff.mpr h]

theorem match_exists {v : Str → Str} (hv : ∀ x, PathValue (v x)) : ∀ (segs : List Str),
    (∀ seg ∈ segs, ∀ before name, ¬ WildcardOf seg before '*' name) → ∃ params, GinMatch segs (filledSegs v segs) params
  | [], _ => ⟨[], .done⟩
  | seg :: segs, h => by
    obtain ⟨params, ih⟩ := match_exists hv segs (fun s hs => h s (List.mem_cons_of_mem _ hs))
    show ∃ params, GinMatch (seg :: segs) (mapSeg _ seg :: filledSegs v segs) params
    by_cases hw : ∃ before marker name, WildcardOf seg before marker name
    · obtain ⟨b, m, n, hw⟩ := hw
      rcases hw.2.2.1 with rfl | rfl
      · rw [mapSeg_wild hw]
        exact ⟨_, .param hw (hv n).1 ih⟩
      · exact absurd hw (h seg List.mem_cons_self b n)
    · have hw' : ∀ before marker name, ¬ WildcardOf seg before marker name := fun b m n hh => hw ⟨b, m, n, hh⟩
      rw [mapSeg_text hw']
      exact ⟨_, .text hw' ih⟩

theorem wildcard_unique {seg b b' n n' : Str} {m m' : Char} (h : WildcardOf seg b m n) (h' : WildcardOf seg b' m' n') : b = b' ∧ m = m' ∧ n = n' := by
  have h1 := segWild_iff.mpr h
  rw [segWild_iff.mpr h'] at h1
  simp only [Option.some.injEq, Prod.mk.injEq] at h1
  exact ⟨h1.1.symm, h1.2.1.symm, h1.2.2.symm⟩

theorem match_values {v : Str → Str} {segs request : List Str} {params : List (Str × Str)} (hm : GinMatch segs request params) :
    (∀ seg ∈ segs, ∀ before name, ¬ WildcardOf seg before '*' name) → request = filledSegs v segs →
      params = (segs.filterMap (fun seg => (segWild seg).map (fun x => x.2))).map (fun w => (w.2, v w.2)) := by
  induction hm with
  | done => intro _ _; rfl
  | @text seg pattern request params hw _ ih =>
    intro h e
    have e : seg :: request = mapSeg _ seg :: filledSegs v pattern := e
    have hn : segWild seg = none := by
      cases hs : segWild seg with
      | none => rfl
      | some x => exact absurd (segWild_iff.mp hs) (hw x.1 x.2.1 x.2.2)
    rw [ih (fun s hs => h s (List.mem_cons_of_mem _ hs)) (List.cons.inj e).2, List.filterMap_cons, hn]
    rfl
  | @param seg before name x pattern request params hw _ _ ih =>
    intro h e
    have e : (before ++ x) :: request = mapSeg _ seg :: filledSegs v pattern := e
    rw [mapSeg_wild hw] at e
    obtain ⟨e1, e2⟩ := List.cons.inj e
    rw [ih (fun s hs => h s (List.mem_cons_of_mem _ hs)) e2, List.filterMap_cons, segWild_iff.mpr hw, List.append_cancel_left e1]
    rfl
  | catchAll hw _ => intro h _; exact absurd hw (h _ List.mem_cons_self _ _)

theorem paramRead_of {ws : List (Char × Str)} {v : Str → Str} {w : Char × Str} (h : w ∈ ws) :
    paramRead (ws.map (fun w => (w.2, v w.2))) w.2 = v w.2 := by
  unfold paramRead
  cases hf : (ws.map (fun w => (w.2, v w.2))).find? (fun e => e.1 = w.2) with
  | none =>
    have := List.find?_eq_none.mp hf (w.2, v w.2) (List.mem_map.mpr ⟨w, h, rfl⟩)
    simp at this
  | some e =>
    have h1 := List.find?_some hf
    obtain ⟨w', _, rfl⟩ := List.mem_map.mp (List.mem_of_find?_eq_some hf)
    simp only [decide_eq_true_eq] at h1
    simp [h1]

theorem star_wildcard {path : Str} : (∀ w ∈ wildcards path, w.1 = ':') ↔ ∀ seg ∈ split '/' path, ∀ before name, ¬ WildcardOf seg before '*' name := by
  constructor
  · intro h seg hseg b n hw
    have : '*' = ':' := h ('*', n) (List.mem_filterMap.mpr ⟨seg, hseg, by rw [segWild_iff.mpr hw]; rfl⟩)
    exact absurd this (by decide)
  · intro h w hw
    rcases wild_cases hw with hc | hc
    · exact hc
    · obtain ⟨seg, hseg, hs⟩ := List.mem_filterMap.mp hw
      obtain ⟨x, hx, rfl⟩ := Option.map_eq_some_iff.mp hs
      obtain ⟨b, m, n⟩ := x
      cases hc
      exact absurd (segWild_iff.mp hx) (h seg hseg b n)

theorem split_filled {v : Str → Str} (hv : ∀ x, PathValue (v x)) (path : Str) :
    split '/' (mapPath (fun _ n => v n) path) = filledSegs v (split '/' path) := by
  unfold mapPath
  rw [split_join (by simpa using split_ne_nil '/' path)]
  · rfl
  · intro x hx
    obtain ⟨seg, hseg, rfl⟩ := List.mem_map.mp hx
    have hns := split_no_sep seg hseg
    unfold mapSeg
    cases hw : segWild seg with
    | none => exact hns
    | some x =>
      obtain ⟨b, m, n⟩ := x
      rw [(segWild_iff.mp hw).1] at hns
      simp only [List.mem_append, not_or] at hns ⊢
      exact ⟨hns.1, (hv n).2⟩

/-- A path without catch-all, filled in from its template, is read as it was meant. -/
theorem filled_path_read {v : Str → Str} (hv : ∀ x, PathValue (v x)) {path : Str} (hb : '{' ∉ path ∧ '}' ∉ path)
    (hs : ∀ w ∈ wildcards path, w.1 = ':') :
    (∃ params, GinMatch (split '/' path) (split '/' (expand v (openapiPath path))) params) ∧
      ∀ params, GinMatch (split '/' path) (split '/' (expand v (openapiPath path))) params → ∀ w ∈ wildcards path, paramRead params w.2 = v w.2 := by
  have he : expand v (openapiPath path) = mapPath (fun _ n => v n) path := by
    rw [expand_openapiPath v path hb]
    exact mapPath_congr (fun w hw => by simp [templateVar, hs w hw])
  have hstar := star_wildcard.mp hs
  rw [he, split_filled hv]
  refine ⟨match_exists hv _ hstar, fun params hm w hw => ?_⟩
  rw [match_values hm hstar rfl]
  exact paramRead_of hw

/-! ### The operation -/

theorem path_told (SE : SchemaEnv) (cs : List Field) (ch : RouteChoice) (hch : ValidChoice ch) (m : Str) {es : List Entry} {path : Str}
    {n : Nat} {R : Route} (G : Gathered es path (n + 1) R) {w : Char × Str} (hw : w ∈ wildcards path) :
    ({ name := w.2, loc := c!"path", required := decide (w.1 = ':'), schema := { type := c!"string" } } : OParam) ∈
      (operationOf SE cs ch (cleanRoute m R)).parameters := by
  have hstr : (cleanField m { type := c!"string" }).type = c!"string" := clean_leaf m _ (by decide)
  have hmem : ({ name := w.2, field := cleanField m { type := c!"string" }, isRequired := decide (w.1 = ':') } : Param) ∈ (cleanRoute m R).pathParams := by
    refine List.mem_map.mpr ⟨{ name := w.2, field := { type := c!"string" }, isRequired := decide (w.1 = ':') }, ?_, rfl⟩
    rw [G.path (Nat.succ_pos n), extractParams_exact]
    exact List.mem_append_left _ (List.mem_map.mpr ⟨w, hw, rfl⟩)
  refine (parameters_sorted_complete SE cs ch hch _).2.mem_iff.mpr (List.mem_append_left _ (List.mem_append_left _ (List.mem_flatMap.mpr ⟨_, hmem, ?_⟩)))
  rw [string_param_schema SE .uri _ rfl hstr]
  exact List.mem_singleton.mpr rfl

theorem path_entry_nameless {Γ : TypeEnv} {pkg m : Str} {args : List ArgView} {e : Entry} (hd : Documented Γ pkg args m e) {p : Param}
    (hp : p ∈ e.pathParams) : p.name = [] := by
  cases hd with
  | bind => simp only [List.mem_singleton] at hp; rw [hp]
  | _ => cases hp

theorem mem_placeholders {path : Str} (hb : '{' ∉ path ∧ '}' ∉ path) {x : Str} :
    x ∈ placeholders (openapiPath path) ↔ ∃ w ∈ wildcards path, x = templateVar w := by
  rw [placeholders_openapiPath path hb, extractParams_exact, List.map_map, List.mem_map]
  constructor
  · rintro ⟨w, hw, rfl⟩
    exact ⟨w, hw, by simp [templateVar]⟩
  · rintro ⟨w, hw, rfl⟩
    exact ⟨w, hw, by simp [templateVar]⟩

theorem ginPath_names {path : Str} (h : GinPath path) {w : Char × Str} (hw : w ∈ wildcards path) : '*' ∉ w.2 := by
  obtain ⟨seg, hseg, hs⟩ := List.mem_filterMap.mp hw
  obtain ⟨⟨b, m, n⟩, hx, rfl⟩ := Option.map_eq_some_iff.mp hs
  have hx := segWild_iff.mp hx
  rcases h seg hseg with ⟨h1, h2⟩ | ⟨b', m', n', hw', _, hn⟩
  · rcases hx.2.2.1 with rfl | rfl
    · exact absurd (hx.1 ▸ by simp : ':' ∈ seg) h1
    · exact absurd (hx.1 ▸ by simp : '*' ∈ seg) h2
  · rw [(wildcard_unique hx hw').2.2]
    exact hn

/-! ### A run -/

/-- C109, exact: a service with gin routers and an OpenAPI output, as in C83, without custom functions, and a run that succeeds. For each entry of the
routers whose path is one that gin accepts and has no braces: whatever values a client means, it is understood if and only if the path has no
catch-all. Missing: paths with a catch-all, for which it is false, and paths with braces. -/
theorem run_path_exact_partial (L : Lib) (E : ParseCtx → RouteEnv) (hE : ByModel L E) (U : FPath → Prop) (hL : Tame L U)
    (hch : ∀ n, ValidChoice (L.choices.route n)) (getwd : Str) (φ : Faults)
    (w w' : World Proc) (d : FPath)
    (hd : DirAt w.cwd w.st.svc.workDir d) (hg : resolve w.cwd getwd = some w.cwd) (hnames : ProperNames w.fs) (hc : ∀ x ∈ w.cwd, '/' ∉ x)
    (routers : List (List RouteInfo)) (hin : Each GinInput w.st.svc.inputs routers) (hroutes : w.st.svc.routes = [])
    (hnd : DistinctRoutes (allowed w.st.svc.denyList routers.flatten))
    (before after : List Output) (o : Output) (hout : w.st.svc.outputs = before ++ o :: after) (hown : OwnCells w.st.svc.outputs)
    (hbefore : ∀ b ∈ before, Plain b) (loc : Nat) (ho : o.generate = .openapi loc) (q : FPath) (hq : OutputPlace d w.st.svc o.generate q)
    (hplace : OwnPlace w.cwd d w.st.svc after q) (hU : ¬ U q) (hno : ∀ ctx, (E ctx).prog.customs = [])
    (h : Astra.parseAll L getwd φ w = (w', .ok ())) :
    ∃ doc text, w'.fs.look q = some (.file text) ∧
      L.render (isYaml (withExtension [c!".json", c!".yaml", c!".yml"] (w.st.svc.cells.getD loc []))) doc = .ok text ∧
      ∀ i ∈ allowed w.st.svc.denyList routers.flatten, i.method ∈ documentedMethods →
        (∀ j ∈ allowed w.st.svc.denyList routers.flatten, openapiPath j.path = openapiPath i.path → j.method = i.method → j = i) →
        ∃ (relative : Str) (mains : List Str), L.rel i.file = .ok relative ∧ mains.length = routers.length ∧ ∀ (comment id : Str) (es : List Entry),
          (∀ main ∈ mains, HandlerView (E { workDir := workDirAfter getwd w.st.svc, mainPkg := main, customFuncs := w.st.svc.customFuncs })
            i.handler relative i.line comment id es) →
            ∃ template op, template ∈ mkeys doc.paths ∧ Document.operation doc template i.method = some op ∧
              (GinPath i.path → '{' ∉ i.path ∧ '}' ∉ i.path → ∀ v : Str → Str, (∀ x, PathValue (v x)) →
                (PathUnderstood doc.schemas op template i.path v ↔ ∀ w ∈ wildcards i.path, w.1 = ':')) := by
  obtain ⟨doc, text, h3, h4, h6⟩ := run_stage L E hE U hL hch getwd φ w w' d hd hg hnames hc routers hin
    hroutes hnd before after o hout hown hbefore loc ho q hq hplace hU h
  refine ⟨doc, text, h3, h4, fun i hi hm huniq => ?_⟩
  obtain ⟨relative, mains, hrel, hlen, h7⟩ := h6 i hi hm huniq
  refine ⟨relative, mains, hrel, hlen, fun comment id es hv => ?_⟩
  obtain ⟨SE, cs, ch, m, r', hc', hpos, S, ⟨_, _, _, _, han⟩, hop⟩ := h7 comment id es hv
  obtain ⟨k, hk⟩ : ∃ k, routers.length = k + 1 := ⟨routers.length - 1, by omega⟩
  rw [hk] at S
  obtain ⟨_, s2⟩ := document_shows SE cs ch hc' m es i.path k r' S.gathered (analysed_unbound han)
  obtain ⟨main, hmain⟩ := List.exists_mem_of_length_pos (show 0 < mains.length by rw [hlen, hk]; exact Nat.succ_pos k)
  obtain ⟨_, _, _, _, _, _, _, han', _, _⟩ := hv main hmain
  have hkey : openapiPath i.path ∈ mkeys doc.paths := by
    unfold Document.operation opAt at hop
    cases hp : mget doc.paths (openapiPath i.path) with
    | none => rw [hp] at hop; cases hop
    | some item => exact mget_isSome_iff.mp (by rw [hp]; rfl)
  refine ⟨_, _, hkey, hop, fun hgin hb v hval => ⟨?_, fun hs => ⟨?_, filled_path_read hval hb hs⟩⟩⟩
  · rintro ⟨htold, _⟩ w hw
    rcases wild_cases hw with hcol | hstar
    · exact hcol
    · obtain ⟨o, ho, ho1, ho2, _⟩ := htold _ ((mem_placeholders hb).mpr ⟨w, hw, rfl⟩)
      have hvar : templateVar w = w.2 ++ ['*'] := by unfold templateVar; rw [if_neg (by rw [hstar]; decide)]
      rw [hvar] at ho1
      rcases s2.pathParam o ho ho2 with ⟨w', hw', e⟩ | ⟨e, he, p, hp, hpe⟩
      · exact absurd (by rw [e, ho1]; simp : '*' ∈ w'.2) (ginPath_names hgin hw')
      · obtain ⟨_, _, _, _, hdoc⟩ := entries_from_calls (hno _) han' e he
        rw [path_entry_nameless hdoc hp, ho1] at hpe
        exact absurd hpe (by simp)
  · intro x hx
    obtain ⟨w, hw, rfl⟩ := (mem_placeholders hb).mp hx
    have hvar : templateVar w = w.2 := by unfold templateVar; rw [if_pos (hs w hw)]
    refine ⟨_, path_told SE cs ch hc' m S.gathered hw, hvar.symm, rfl, by simp [hs w hw], admits_string doc.schemas _⟩

end Astra.Props
