/-
C115: handlers that send values of several types with one status code.
-/
import Verif.Spec.MixedAnswers
import Verif.Props.MediaTypes

namespace Astra.Props
open Astra.Spec

/-! ### Kinds -/

/-- The JSON value is of the kind; lists that are empty are of no kind. -/
inductive OfKind : JsonKind → Json → Prop
  | text {s : Str} : OfKind .text (.str s)
  | truth {b : Bool} : OfKind .truth (.bool b)
  | number {s : Str} : OfKind .number (.num s)
  | list {k : JsonKind} {x : Json} {xs : List Json} : OfKind k x → OfKind (.list k) (.arr (x :: xs))

theorem OfKind.unique {k k' : JsonKind} {v : Json} (h : OfKind k v) (h' : OfKind k' v) : k = k' := by
  induction h generalizing k' with
  | text => cases h'; rfl
  | truth => cases h'; rfl
  | number => cases h'; rfl
  | list _ ih => cases h' with | list h' => rw [ih h']

theorem basic_kind {Γ : TypeEnv} {marshal : Str → Str → Option (Json → Prop)} {nils : Bool} {k : BasicKind} {n : Str} {v : Json}
    (h : Encodes Γ marshal nils (.basic k n) v) : OfKind (jsonKind (.basic k n)) v := by
  cases h with
  | string s => exact .text
  | bool b => exact .truth
  | integer i hn =>
    have : ∀ n ∈ integerTypes, n ≠ c!"string" ∧ n ≠ c!"bool" := by decide
    rw [jsonKind, if_neg (this n hn).1, if_neg (this n hn).2]
    exact .number
  | float text hn =>
    have : ∀ n ∈ [c!"float32", c!"float64"], n ≠ c!"string" ∧ n ≠ c!"bool" := by decide
    rw [jsonKind, if_neg (this n hn).1, if_neg (this n hn).2]
    exact .number

/-- The values of a type are of its kind. -/
theorem encodes_kind {Γ : TypeEnv} {marshal : Str → Str → Option (Json → Prop)} {t : GoType} (ht : QueryType t) {v : Json}
    (h : Encodes Γ marshal false t v) (hv : v ≠ .arr []) : OfKind (jsonKind t) v := by
  induction ht with
  | basic _ => exact basic_kind h
  | slice hn hb =>
    cases h with
    | @slice _ xs _ hx =>
      cases xs with
      | nil => exact absurd rfl hv
      | cons x xs => exact .list (basic_kind (hx x (List.mem_cons_self ..)))
    | bytes _ hB =>
      exact absurd hB (by
        rintro (rfl | rfl)
        · exact absurd hn (by decide)
        · exact hb rfl)
    | nilSlice h => cases h
  | pointer _ ih =>
    cases h with
    | pointer h => exact ih h
    | nilPointer h => cases h

theorem primitive_kind {k : BasicKind} {n type format : Str} {v : Json} (hn : n ∈ queryPrimitives) (hp : (n, type, format) ∈ primitives)
    (h : HasJsonType type v) : OfKind (jsonKind (.basic k n)) v := by
  have h1 : ∀ n ∈ queryPrimitives, ∀ x ∈ primitives, x.1 = n → (n = c!"string" ∧ x.2.1 = c!"string") ∨ (n = c!"bool" ∧ x.2.1 = c!"boolean") ∨
      (n ≠ c!"string" ∧ n ≠ c!"bool" ∧ (x.2.1 = c!"integer" ∨ x.2.1 = c!"number")) := by decide +kernel
  rw [jsonKind]
  rcases h1 n hn _ hp rfl with ⟨rfl, h2⟩ | ⟨rfl, h2⟩ | ⟨h3, h4, h2⟩
  · dsimp only at h2
    subst h2
    rcases h with h | ⟨_, s, rfl⟩ | ⟨h, _⟩ | ⟨h, _⟩ | ⟨h, _⟩ | ⟨h, _⟩ | ⟨h, _⟩
    · exact absurd h (by decide)
    · exact .text
    all_goals exact absurd h (by decide)
  · dsimp only at h2
    subst h2
    rcases h with h | ⟨h, _⟩ | ⟨_, s, rfl⟩ | ⟨h, _⟩ | ⟨h, _⟩ | ⟨h, _⟩ | ⟨h, _⟩
    · exact absurd h (by decide)
    · exact absurd h (by decide)
    · exact .truth
    all_goals exact absurd h (by decide)
  · rw [if_neg h3, if_neg h4]
    dsimp only at h2
    rcases h2 with rfl | rfl
    · rcases h with h | ⟨h, _⟩ | ⟨h, _⟩ | ⟨_, i, rfl⟩ | ⟨h, _⟩ | ⟨h, _⟩ | ⟨h, _⟩
      · exact absurd h (by decide)
      · exact absurd h (by decide)
      · exact absurd h (by decide)
      · exact .number
      all_goals exact absurd h (by decide)
    · rcases h with h | ⟨h, _⟩ | ⟨h, _⟩ | ⟨h, _⟩ | ⟨_, i, rfl⟩ | ⟨h, _⟩ | ⟨h, _⟩
      · exact absurd h (by decide)
      · exact absurd h (by decide)
      · exact absurd h (by decide)
      · exact absurd h (by decide)
      · exact .number
      all_goals exact absurd h (by decide)

/-- The schema of a type admits only values of its kind. -/
theorem admits_kind {target : Str → Str → Option Str} {schemas : List (Str × Schema)} {t : GoType} (ht : QueryType t) {s : Schema}
    (hs : TypeSchema target t s) {v : Json} (h : Admits schemas { s with items := s.items.map dropFormat } v) (hv : v ≠ .arr []) :
    OfKind (jsonKind t) v := by
  induction ht with
  | basic hn =>
    cases hs with
    | primitive hp =>
      cases h with
      | ref h1 => exact absurd h1 (by simp)
      | here _ h2 => exact primitive_kind hn hp h2
  | slice hn hb =>
    cases hs with
    | slice _ h1 =>
      cases h1 with
      | primitive hp =>
        cases h with
        | ref h1 => exact absurd h1 (by simp)
        | here _ h2 _ h4 =>
          dsimp only at h2
          rcases h2 with h | ⟨h, _⟩ | ⟨h, _⟩ | ⟨h, _⟩ | ⟨h, _⟩ | ⟨_, xs, rfl⟩ | ⟨h, _⟩
          · exact absurd h (by decide)
          · exact absurd h (by decide)
          · exact absurd h (by decide)
          · exact absurd h (by decide)
          · exact absurd h (by decide)
          · cases xs with
            | nil => exact absurd rfl hv
            | cons x xs =>
              have hx := h4 _ _ rfl rfl x (List.mem_cons_self ..)
              cases hx with
              | ref h1 => exact absurd h1 (by simp [dropFormat])
              | here _ h2 => exact .list (primitive_kind hn hp h2)
          · exact absurd h (by decide)
    | slices ho => cases ho
  | pointer _ ih => cases hs with | pointer hs => exact ih hs

/-- The schema of a type admits its values. -/
theorem query_admits {Γ : TypeEnv} {marshal : Str → Str → Option (Json → Prop)} {target : Str → Str → Option Str} {schemas : List (Str × Schema)}
    {t : GoType} (ht : QueryType t) {s : Schema} (hs : TypeSchema target t s) {v : Json} (h : Encodes Γ marshal false t v) :
    Admits schemas { s with items := s.items.map dropFormat } v :=
  admits_items (described_admits (D := fun _ => False) (fun _ h => h.elim) h (query_describable ht).1
    (fun x hx => absurd hx ((query_describable (Γ := Γ) ht).2 x)) s hs)

/-! ### The operation -/

theorem mixed_told {Γ : TypeEnv} {SE : SchemaEnv} {cs : List Field} {ch : RouteChoice} {m path : Str} {es : List Entry} {n : Nat} {R : Route}
    {C : Str → Str → List ArgView → Prop} (G : Gathered es path (n + 1) R)
    (hfrom : ∀ e ∈ es, ∃ pkg mm args, C pkg mm args ∧ Documented Γ pkg args mm e)
    (hto : ∀ pkg mm args, C pkg mm args → mm ∈ supportedMethods → ∃ e ∈ es, Documented Γ pkg args mm e)
    (code : Int) (hsome : ∃ pkg mm args, C pkg mm args ∧ mm ∈ [c!"JSON", c!"AbortWithStatusJSON"] ∧ IsStatus args 0 code)
    (hq : ∀ pkg mm args a t, C pkg mm args → mm ∈ [c!"JSON", c!"AbortWithStatusJSON"] → IsStatus args 0 code → args[1]? = some a → a.type = .ok t →
      QueryType t) :
    ∃ t resp s, (∃ pkg mm args a, C pkg mm args ∧ mm ∈ [c!"JSON", c!"AbortWithStatusJSON"] ∧ IsStatus args 0 code ∧ args[1]? = some a ∧ a.type = .ok t) ∧
      mget (operationOf SE cs ch (cleanRoute m R)).responses (itoa code) = some resp ∧
      TypeSchema (targetOf SE.names m .json) t s ∧
      mget resp.content c!"application/json" = some { s with items := s.items.map dropFormat } := by
  have hmed : ∀ mm, (mm, c!"application/json") ∈ astraMedia ↔ mm ∈ [c!"JSON", c!"AbortWithStatusJSON"] := by
    intro mm
    constructor
    · intro h
      have : ∀ x ∈ astraMedia, x.2 = c!"application/json" → x.1 ∈ [c!"JSON", c!"AbortWithStatusJSON"] := by decide
      exact this _ h rfl
    · intro h
      simp only [List.mem_cons, List.not_mem_nil, or_false] at h
      rcases h with rfl | rfl <;> decide
  obtain ⟨pkg, mm, args, hC, hm, hst⟩ := hsome
  obtain ⟨resp, S, ht, hS⟩ := (answers_told (SE := SE) (cs := cs) (ch := ch) (m := m) G hfrom hto).2.2.2 code c!"application/json"
    ⟨mm, (hmed mm).mpr hm, pkg, args, hC, hst⟩ (fun pkg' mm' args' a h1 h2 h3 h4 t h5 => hq pkg' mm' args' a t h1 ((hmed mm').mp h2) h3 h4 h5)
  have hc := (responses_exact_partial SE cs ch (cleanRoute m R)).2 code c!"application/json"
  unfold contentAt at hc
  rw [ht, Option.bind_some, hS] at hc
  obtain ⟨z, hz, hzs⟩ := Option.bind_eq_some_iff.mp hc.symm
  have hz' := List.mem_of_getLast? hz
  rw [List.mem_filter] at hz'
  obtain ⟨hz1, hz2⟩ := hz'
  simp only [decide_eq_true_eq] at hz2
  obtain ⟨y, hy, rfl⟩ := List.mem_map.mp hz1
  simp only at hz2
  obtain ⟨e, he, hye⟩ := G.source y hy
  obtain ⟨pkg', mm', args', hC', hdoc⟩ := hfrom e he
  obtain ⟨hst', h⟩ := answer_source hdoc hye
  rw [hz2.1] at hst'
  rw [hz2.2.1] at h
  rcases h with ⟨h1, _, _, a, t, c, c', r, ha, hat, htr, hf⟩ | ⟨_, h, _⟩ | ⟨_, h, _⟩
  · have hm' := (hmed mm').mp h1
    have hqt := hq pkg' mm' args' a t hC' hm' hst' ha hat
    have hna : ¬ IsArray t := by
      clear htr hat
      induction hqt with
      | basic _ => exact id
      | slice _ _ => exact id
      | pointer _ ih => exact ih
    obtain ⟨s, hs, hb⟩ := body_of_type (m := m) (query_describable hqt).1 hna htr (SE := SE) (b := .json)
      (fun x hx => absurd hx ((query_describable (Γ := Γ) hqt).2 x))
    refine ⟨t, resp, s, ⟨pkg', mm', args', a, hC', hm', hst', ha, hat⟩, ht, hs, ?_⟩
    unfold returnSchema at hzs
    simp only at hzs
    rw [hz2.2.1, show contentTypeToBindingTag c!"application/json" = .json by decide, hf, hb] at hzs
    rw [hS, ← hzs]
  · exact absurd h (by decide)
  · exact absurd h (by decide)

/-! ### A run -/

/-- C115, for simple types: a service with gin routers and an OpenAPI output, as in C83, without custom functions, and a run that succeeds. If all values
that a handler sends as JSON with a status code are basic, slices of basic values or pointers to these, then the response has the schema of one of the types
that are sent. It admits all values of this type, and none of the values (empty slices aside) of the types that are of another kind: a handler that
sends values of two kinds with one code sends values that the document does not admit. Missing: that all of them are admitted, which is false; other types. -/
theorem run_mixed_answers_partial (L : Lib) (E : ParseCtx → RouteEnv) (hE : ByModel L E) (U : FPath → Prop) (hL : Tame L U)
    (hch : ∀ n, ValidChoice (L.choices.route n)) (getwd : Str) (φ : Faults)
    (w w' : World Proc) (d : FPath)
    (hd : DirAt w.cwd w.st.svc.workDir d) (hg : resolve w.cwd getwd = some w.cwd) (hnames : ProperNames w.fs) (hc : ∀ x ∈ w.cwd, '/' ∉ x)
    (routers : List (List RouteInfo)) (hin : Each GinInput w.st.svc.inputs routers) (hroutes : w.st.svc.routes = [])
    (hnd : DistinctRoutes (allowed w.st.svc.denyList routers.flatten))
    (before after : List Output) (o : Output) (hout : w.st.svc.outputs = before ++ o :: after) (hown : OwnCells w.st.svc.outputs)
    (hbefore : ∀ b ∈ before, Plain b) (loc : Nat) (ho : o.generate = .openapi loc) (q : FPath) (hq : OutputPlace d w.st.svc o.generate q)
    (hplace : OwnPlace w.cwd d w.st.svc after q) (hU : ¬ U q) (hno : ∀ ctx, (E ctx).prog.customs = [])
    (h : Astra.parseAll L getwd φ w = (w', .ok ())) :
    ∃ doc text, w'.fs.look q = some (.file text) ∧
      L.render (isYaml (withExtension [c!".json", c!".yaml", c!".yml"] (w.st.svc.cells.getD loc []))) doc = .ok text ∧
      ∀ i ∈ allowed w.st.svc.denyList routers.flatten, i.method ∈ documentedMethods →
        (∀ j ∈ allowed w.st.svc.denyList routers.flatten, openapiPath j.path = openapiPath i.path → j.method = i.method → j = i) →
        ∃ (relative : Str) (mains : List Str), L.rel i.file = .ok relative ∧ mains.length = routers.length ∧ ∀ (comment id : Str) (es : List Entry),
          (∀ main ∈ mains, HandlerView (E { workDir := workDirAfter getwd w.st.svc, mainPkg := main, customFuncs := w.st.svc.customFuncs })
            i.handler relative i.line comment id es) →
            ∃ op, Document.operation doc (openapiPath i.path) i.method = some op ∧
              ∀ main ∈ mains, ∀ (R : RouteEnv),
                R = E { workDir := workDirAfter getwd w.st.svc, mainPkg := main, customFuncs := w.st.svc.customFuncs } →
                ∀ code, (∃ t, HandlerSends R i.handler relative i.line code t) →
                  (∀ t, HandlerSends R i.handler relative i.line code t → QueryType t) →
                  ∃ t resp S, HandlerSends R i.handler relative i.line code t ∧ mget op.responses (itoa code) = some resp ∧
                    mget resp.content c!"application/json" = some S ∧
                    ∀ (Γ : TypeEnv) (marshal : Str → Str → Option (Json → Prop)),
                      (∀ v, Encodes Γ marshal false t v → Admits doc.schemas S v) ∧
                      ∀ t', HandlerSends R i.handler relative i.line code t' → jsonKind t' ≠ jsonKind t →
                        ∀ v, Encodes Γ marshal false t' v → v ≠ .arr [] → ¬ Admits doc.schemas S v := by
  obtain ⟨doc, text, h3, h4, h6⟩ := run_stage L E hE U hL hch getwd φ w w' d hd hg hnames hc routers hin
    hroutes hnd before after o hout hown hbefore loc ho q hq hplace hU h
  refine ⟨doc, text, h3, h4, fun i hi hm huniq => ?_⟩
  obtain ⟨relative, mains, hrel, hlen, h7⟩ := h6 i hi hm huniq
  refine ⟨relative, mains, hrel, hlen, fun comment id es hv => ?_⟩
  obtain ⟨SE, cs, ch, m, r', hc', hpos, S, _, hop⟩ := h7 comment id es hv
  obtain ⟨k, hk⟩ : ∃ k, routers.length = k + 1 := ⟨routers.length - 1, by omega⟩
  rw [hk] at S
  refine ⟨_, hop, ?_⟩
  intro main hmain R hR code ⟨t0, hsend⟩ hall
  have hv' := hv main hmain
  rw [← hR] at hv'
  obtain ⟨file, name, f, named, ctx, hh, hp, han, _, _⟩ := hv'
  have hno' : R.prog.customs = [] := by rw [hR]; exact hno _
  have hsends : ∀ t, HandlerSends R i.handler relative i.line code t ↔ SendsJson R.prog file ctx (R.prog.funcs f).body code t := by
    intro t
    constructor
    · rintro ⟨file', name', f', named', ctx', hh', hp', hs⟩
      obtain ⟨rfl, rfl, rfl⟩ := handler_unique hh hh'
      cases contextParam_unique hp hp'
      exact hs
    · intro hs
      exact ⟨file, name, f, named, ctx, hh, hp, hs⟩
  obtain ⟨pkg, mm, args, a, hC, hmm, hst, ha, hat⟩ := (hsends t0).mp hsend
  obtain ⟨t, resp, s, ht, hresp, hs, hcont⟩ := mixed_told (SE := SE) (cs := cs) (ch := ch) (m := m) S.gathered
    (entries_from_calls hno' han) (fun pkg mm args hcall hs => calls_documented hno' han hcall hs) code ⟨pkg, mm, args, hC, hmm, hst⟩
    (fun pkg mm args a t h1 h2 h3 h4 h5 => hall t ((hsends t).mpr ⟨pkg, mm, args, a, h1, h2, h3, h4, h5⟩))
  have ht' := (hsends t).mpr ht
  refine ⟨t, resp, _, ht', hresp, hcont, fun Γ marshal => ⟨fun v hv => query_admits (hall t ht') hs hv, fun t' hs' hne v hv hemp hadm => hne ?_⟩⟩
  exact (encodes_kind (hall t' hs') hv hemp).unique (admits_kind (hall t ht') hs hadm hemp)

end Astra.Props
