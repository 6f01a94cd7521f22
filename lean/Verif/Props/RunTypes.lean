/-
C89: what a whole run records about the types of the program.
-/
import Verif.Props.HandlerDoc
import Verif.Props.TypeOrigins

namespace Astra.Props
open Astra.Spec

/-- The successful analysis of a handler translates the types of all arguments that context methods read as expressions. -/
theorem handler_translates (P : Prog) (f : FuncId) (file : FileId) (ctx : Str) (es : List Entry) (hno : P.customs = [])
    (hctx : ContextParam P f file ctx) (h : Analysed P file ctx (P.funcs f).body es) (comps : List Field) (route : Route) :
    ∃ comps' out res, TranslatedAll P file ctx (P.funcs f).body comps' ∧
      Ends P comps route f file ({ route := out, components := comps', active := file }, res) := by
  obtain ⟨b, h⟩ := h
  obtain ⟨k0, hk⟩ := changes_inspect_all P (changes_of_analysed h)
  obtain ⟨c, err, p, _, t, e⟩ := hk k0 (Nat.le_refl _)
    { route := { route with doc := docOf P f route.doc }, components := comps, active := file } none rfl (by simp)
  have hne := hctx.1
  have hn := (context_parameter_found P _ _ _ hne).2 hctx
  cases ctx with
  | nil => exact absurd rfl hne
  | cons ch ctx =>
    cases err with
    | some m =>
      refine ⟨c, (es.map Entry.addTo).foldl (fun (r : Route) (e : Route → Route) => e r) { route with doc := docOf P f route.doc }, .err m, t hno, k0, ?_⟩
      simp only [parseFunction, parseFunctionWith, hn, true_and, route_with_doc, inspectNode]
      rw [e]
      simp only [Local.given, Option.getD_none]
    | none =>
      refine ⟨c, (es.map Entry.addTo).foldl (fun (r : Route) (e : Route → Route) => e r) { route with doc := docOf P f route.doc },
        if ((es.map Entry.addTo).foldl (fun (r : Route) (e : Route → Route) => e r) { route with doc := docOf P f route.doc }).returnTypes = []
          then .err c!"return type not found" else .ok (), t hno, k0, ?_⟩
      simp only [parseFunction, parseFunctionWith, hn, true_and, route_with_doc, inspectNode]
      rw [e]
      simp only [Local.given, Option.getD_none, Bool.false_eq_true, if_false, and_true]
      split <;> rfl

/-- The same for the analysis of the route. -/
theorem route_translates {E : RouteEnv} {k : Nat} {cs cs' : List Field} {r r' : Route} (h : parseRoute E k cs r = some (cs', .ok r'))
    (hno : E.prog.customs = [])
    {file : FileId} {name : Str} {f : FuncId} {named : Bool} (hh : HandlerIs E r.handler r.file r.lineNo file name f named)
    {ctx : Str} {es : List Entry} (hctx : ContextParam E.prog f file ctx) (han : Analysed E.prog file ctx (E.prog.funcs f).body es) :
    TranslatedAll E.prog file ctx (E.prog.funcs f).body cs' := by
  obtain ⟨pkg, hname, hfile⟩ := hh.inFile
  obtain ⟨hn1, hn2⟩ := split_function_name hname
  rw [← hn1] at hfile
  simp only [parseRoute, hn2, hfile] at h
  cases hpk : (splitHandlerPath r.handler).packageName with
  | panic m => simp [hpk] at h
  | err m => simp [hpk] at h
  | ok p =>
    simp only [hpk] at h
    split at h
    · simp at h
    · split at h
      · simp at h
      · obtain ⟨bb, han'⟩ := id han
        obtain ⟨comps', out, res, _, hout, hrep, hends⟩ := handler_source_order E.prog f file ctx es bb hctx han' cs
          (startRoute E name named { r with pathParams := extractParams r.path })
        have hA : EndsWith (analyse E k file f cs (startRoute E name named { r with pathParams := extractParams r.path })) out := by
          unfold analyse
          cases hp : parseFunction E.prog k cs (startRoute E name named { r with pathParams := extractParams r.path }) f file with
          | none => exact Or.inl rfl
          | some x =>
            have := ends_unique ⟨k, hp⟩ hends
            subst this
            refine Or.inr ⟨comps', ?_⟩
            rcases reported_cases hrep with rfl | ⟨m, rfl⟩ <;> rfl
        have hl : out.lineNo = r.lineNo := by
          rw [hout]
          refine (withEntries_identity es _).1.trans ?_
          cases named <;> rfl
        have hd := analyseDecls_one E k file name f named cs { r with pathParams := extractParams r.path } out hA hl (E.decls file) hh.only
        rw [hd] at h
        obtain ⟨c2, out2, res2, ht, hends2⟩ := handler_translates E.prog f file ctx es hno hctx han cs
          (startRoute E name named { r with pathParams := extractParams r.path })
        unfold analyse at h
        cases hp : parseFunction E.prog k cs (startRoute E name named { r with pathParams := extractParams r.path }) f file with
        | none => rw [hp] at h; cases h
        | some x =>
          have := ends_unique ⟨k, hp⟩ hends2
          subst this
          rw [hp] at h
          cases res2 with
          | ok u => cases h; exact ht
          | err e => cases h; exact ht
          | panic m => cases h

/-! ### Through all passes -/

theorem ByModel.parse_keeps {L : Lib} {E : ParseCtx → RouteEnv} (hE : ByModel L E) {I : List Field → Prop}
    (hk : ∀ ctx, ProgKeeps (E ctx).prog I) {ctx : ParseCtx} {cs cs' : List Field} {r r' : Route}
    (h : L.parse ctx cs r = (cs', .ok r')) (hI : I cs) : I cs' := by
  obtain ⟨k, hp⟩ := hE.2 _ _ _ _ _ h
  exact parseRoute_keeps (hk ctx) hp hI

theorem inOrder_keeps {L : Lib} {E : ParseCtx → RouteEnv} (hE : ByModel L E) {I : List Field → Prop} (hk : ∀ ctx, ProgKeeps (E ctx).prog I)
    {wd : Str} {fs : List CustomFunc} {m m' : Str} {cs cs' : List Field} {rs rs' : List Route}
    (h : AnalysedInOrder L wd fs m cs rs m' cs' rs') (hI : I cs) : I cs' := by
  induction h with
  | done => exact hI
  | step _ h2 _ ih => exact ih (hE.parse_keeps hk h2 hI)

theorem passes_keep {L : Lib} {E : ParseCtx → RouteEnv} (hE : ByModel L E) {I : List Field → Prop} (hk : ∀ ctx, ProgKeeps (E ctx).prog I)
    {wd : Str} {fs : List CustomFunc} {n : Nat} {m m' : Str} {cs cs' : List Field} {rs rs' : List Route}
    (h : AnalysedPasses L wd fs n m cs rs m' cs' rs') (hI : I cs) : I cs' := by
  induction h with
  | done => exact hI
  | pass h1 _ ih => exact ih (inOrder_keeps hE hk h1 hI)

theorem prefix_kept (P : Prog) (h : P.customs = []) (c : List Field) : ProgKeeps P (fun cs => c <+: cs) :=
  ⟨h, fun _ _ _ _ _ _ _ _ k _ _ _ _ hr hI => hI.trans (typeResult_prefix P.types true k _ _ _ _ _ _ hr)⟩

/-- A successful analysis of the route, in a pass of the run that ends with the components `cs`. -/
def AnalysedIn (E : RouteEnv) (cs : List Field) (r : Route) : Prop :=
  ∃ k c1 c2 r0 r1, parseRoute E k c1 r0 = some (c2, .ok r1) ∧ SameIdentity r0 r ∧ c2 <+: cs

theorem passes_split_all {L : Lib} {E : ParseCtx → RouteEnv} (hE : ByModel L E) (hno : ∀ ctx, (E ctx).prog.customs = []) {wd : Str}
    {fs : List CustomFunc} {n : Nat} {m m' : Str}
    {cs cs' : List Field} {pre post : List Route} {r : Route} {rs rs' : List Route} (e : rs = pre ++ r :: post)
    (h : AnalysedPasses L wd fs n m cs rs m' cs' rs') :
    ∃ pre' r' post' mains, rs' = pre' ++ r' :: post' ∧ mains.length = n ∧ r'.path = r.path ∧ r'.method = r.method ∧
      OwnAnalyses (fun main => E { workDir := wd, mainPkg := main, customFuncs := fs }) mains r r' ∧
      post'.map (fun r => (r.path, r.method)) = post.map (fun r => (r.path, r.method)) ∧
      ∀ main ∈ mains, AnalysedIn (E { workDir := wd, mainPkg := main, customFuncs := fs }) cs' r := by
  induction h generalizing pre r post with
  | done => exact ⟨pre, r, post, [], e, rfl, rfl, rfl, .none _, rfl, by simp⟩
  | @pass n m m1 m2 cs cs1 cs2 rs rs1 rs2 h1 h2 ih =>
    subst e
    obtain ⟨pre1, r1, post1, mr, c0, c1, c2, m1', m2', e1, q1, q2, q3⟩ := analysed_split h1
    obtain ⟨pre2, r2, post2, mains, k1, k2, k3, k4, k5, k6, k7⟩ := ih e1
    have key := hE.keeps _ _ _ _ _ q2
    obtain ⟨k, hk⟩ := hE.own q2
    obtain ⟨k', hk'⟩ := hE.2 _ _ _ _ _ q2
    have hid := parseRoute_identity _ (hE.1 _) k' c1 c2 r r1 hk'
    refine ⟨pre2, r2, post2, mr :: mains, k1, by rw [List.length_cons, k2], k3.trans key.1, k4.trans key.2, .again hk k5,
      k6.trans (analysed_keys hE.keeps q3), ?_⟩
    intro main hmain
    rcases List.mem_cons.1 hmain with rfl | hmain
    · refine ⟨k', c1, c2, r, r1, hk', ⟨rfl, rfl, rfl, rfl, rfl⟩, ?_⟩
      have hp : ∀ ctx, ProgKeeps (E ctx).prog (fun cs => c2 <+: cs) := fun ctx => prefix_kept _ (hno ctx) c2
      exact passes_keep hE hp h2 (inOrder_keeps hE hp q3 (List.prefix_refl _))
    · obtain ⟨k0, d1, d2, r0, r9, j1, j2, j3⟩ := k7 main hmain
      refine ⟨k0, d1, d2, r0, r9, j1, ?_, j3⟩
      exact ⟨j2.1.trans hid.1, j2.2.1.trans hid.2.1, j2.2.2.1.trans hid.2.2.1, j2.2.2.2.1.trans hid.2.2.2.1, j2.2.2.2.2.trans hid.2.2.2.2⟩

end Astra.Props
