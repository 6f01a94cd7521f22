/-
C114: the status codes and media types of the answers of a handler, and those that the document tells.
-/
import Verif.Spec.MediaTypes
import Verif.Props.BodyNames
import Verif.Props.Headers

namespace Astra.Props
open Astra.Spec

/-- The media types that astra has for the methods it knows. -/
def astraMedia : List (Str × Str) :=
  [(c!"JSON", c!"application/json"), (c!"AbortWithStatusJSON", c!"application/json"), (c!"XML", c!"application/xml"),
   (c!"YAML", c!"application/yaml"), (c!"ProtoBuf", c!"application/protobuf"), (c!"String", c!"text/plain")]

theorem known_supported : ∀ m ∈ knownAnswers, m ∈ supportedMethods := by decide

/-! ### Calls and entries -/

/-- A response comes from a call of a known method with its status code. -/
theorem answer_source {Γ : TypeEnv} {pkg m : Str} {args : List ArgView} {e : Entry} (hd : Documented Γ pkg args m e) {rt : ReturnType}
    (hr : rt ∈ e.responses) : IsStatus args 0 rt.statusCode ∧
      (((m, rt.contentType) ∈ astraMedia ∧ m ≠ c!"String" ∧ rt.contentType ≠ c!"text/plain" ∧ IsField Γ pkg args 1 rt.field) ∨
        (m = c!"String" ∧ rt.contentType = c!"text/plain" ∧ rt.field = { type := c!"string" }) ∨
        (m ∈ bodilessAnswers ∧ rt.contentType = [] ∧ rt.field = { type := c!"nil" })) := by
  cases hd with
  | json k hs hf =>
    rw [List.mem_singleton.mp hr]
    refine ⟨hs, Or.inl ⟨?_, ?_, ?_, hf⟩⟩
    · simp only [List.mem_cons, List.not_mem_nil, or_false] at k
      rcases k with rfl | rfl <;> dsimp only <;> decide
    · rintro rfl; exact absurd k (by decide)
    · dsimp only; decide
  | xml hs hf | yaml hs hf | protobuf hs hf =>
    rw [List.mem_singleton.mp hr]
    exact ⟨hs, Or.inl ⟨by dsimp only; decide, by decide, by dsimp only; decide, hf⟩⟩
  | string hs =>
    rw [List.mem_singleton.mp hr]
    exact ⟨hs, Or.inr (Or.inl ⟨rfl, rfl, rfl⟩)⟩
  | status k hs =>
    rw [List.mem_singleton.mp hr]
    exact ⟨hs, Or.inr (Or.inr ⟨k, rfl, rfl⟩)⟩
  | _ => cases hr

/-- A call of a known method has a response. -/
theorem answer_sent {Γ : TypeEnv} {pkg m : Str} {args : List ArgView} {e : Entry} (hd : Documented Γ pkg args m e) (hm : m ∈ knownAnswers)
    {code : Int} (hs : IsStatus args 0 code) : ∃ rt ∈ e.responses, rt.statusCode = code ∧ ∀ media, (m, media) ∈ astraMedia → rt.contentType = media := by
  cases hd with
  | json k h hf =>
    refine ⟨_, List.mem_singleton.mpr rfl, status_unique h hs, ?_⟩
    intro media hmed
    have : ∀ x ∈ astraMedia, x.1 ∈ [c!"JSON", c!"AbortWithStatusJSON"] → c!"application/json" = x.2 := by decide
    exact this _ hmed k
  | xml h hf =>
    refine ⟨_, List.mem_singleton.mpr rfl, status_unique h hs, fun media hmed => ?_⟩
    have : ∀ x ∈ astraMedia, x.1 = c!"XML" → c!"application/xml" = x.2 := by decide
    exact this _ hmed rfl
  | yaml h hf =>
    refine ⟨_, List.mem_singleton.mpr rfl, status_unique h hs, fun media hmed => ?_⟩
    have : ∀ x ∈ astraMedia, x.1 = c!"YAML" → c!"application/yaml" = x.2 := by decide
    exact this _ hmed rfl
  | protobuf h hf =>
    refine ⟨_, List.mem_singleton.mpr rfl, status_unique h hs, fun media hmed => ?_⟩
    have : ∀ x ∈ astraMedia, x.1 = c!"ProtoBuf" → c!"application/protobuf" = x.2 := by decide
    exact this _ hmed rfl
  | string h =>
    refine ⟨_, List.mem_singleton.mpr rfl, status_unique h hs, fun media hmed => ?_⟩
    have : ∀ x ∈ astraMedia, x.1 = c!"String" → c!"text/plain" = x.2 := by decide
    exact this _ hmed rfl
  | status k h =>
    refine ⟨_, List.mem_singleton.mpr rfl, status_unique h hs, fun media hmed => ?_⟩
    have : ∀ x ∈ astraMedia, x.1 ∉ [c!"Status", c!"AbortWithStatus", c!"AbortWithError"] := by decide
    exact absurd k (this _ hmed)
  | query k | queryArray k | queryMap k | bindJSON k | bindXML k | bindYAML k | bindHeader k | postForm k | postFormArray k | postFormMap k
  | bindQuery k | bind k =>
    simp only [knownAnswers, bodilessAnswers, List.cons_append, List.nil_append, List.mem_cons, List.not_mem_nil, or_false] at hm
    rcases hm with rfl | rfl | rfl | rfl | rfl | rfl | rfl | rfl | rfl <;> exact absurd k (by decide)
  | _ => exact absurd hm (by decide)

/-! ### Schemas -/

theorem query_body {Γ : TypeEnv} {c c' : List Field} {pkg m : Str} {t : GoType} {r : Result} (ht : QueryType t)
    (h : Translates Γ c (some pkg) t (c', .ok r)) (SE : SchemaEnv) (b : BTag) :
    ∃ s, s ≠ {} ∧ mapFieldToSchema SE b (cleanField m (parseResultToField r)) = some s := by
  have hna : ¬ IsArray t ∧ ¬ IsInterface t := by
    clear h
    induction ht with
    | basic _ => exact ⟨id, id⟩
    | slice _ _ => exact ⟨id, id⟩
    | pointer _ ih => exact ih
  obtain ⟨s, hs, hm⟩ := body_of_type (m := m) (query_describable ht).1 hna.1 h (SE := SE) (b := b)
    (fun x hx => absurd hx ((query_describable (Γ := Γ) ht).2 x))
  exact ⟨_, fun he => hna.2 (empty_schema_interface hs he), hm⟩

theorem text_schema (SE : SchemaEnv) (m : Str) (b : BTag) : mapFieldToSchema SE b (cleanField m { type := c!"string" }) = some { type := c!"string" } := by
  have h : (cleanField m { type := c!"string" }).type = c!"string" := clean_leaf m _ (by decide)
  unfold mapFieldToSchema
  rw [h, if_neg (by decide), if_neg (by decide), if_neg (by decide)]
  exact congrArg some (by decide +kernel)

theorem text_nonempty : ({ type := c!"string" } : Schema) ≠ {} := fun h => absurd (congrArg Schema.type h) (by decide)

theorem nil_schema (SE : SchemaEnv) (m : Str) (b : BTag) : mapFieldToSchema SE b (cleanField m { type := c!"nil" }) = some {} := by
  have h : (cleanField m { type := c!"nil" }).type = c!"nil" := clean_leaf m _ (by decide)
  unfold mapFieldToSchema
  rw [h, if_neg (by decide), if_neg (by decide), if_neg (by decide)]
  exact congrArg some (by decide +kernel)

/-! ### The operation -/

theorem told_iff {SE : SchemaEnv} {cs : List Field} {ch : RouteChoice} {r : Route} {code : Int} {media : Str} :
    TellsMedia (operationOf SE cs ch r) code media ↔
      ∃ rt ∈ r.returnTypes, rt.statusCode = code ∧ rt.contentType = media ∧ returnSchema SE rt ≠ none ∧ returnSchema SE rt ≠ some {} := by
  obtain ⟨_, h2⟩ := responses_exact_partial SE cs ch r
  have hc := h2 code media
  have ht : TellsMedia (operationOf SE cs ch r) code media ↔ (contentAt (operationOf SE cs ch r) (itoa code) media).isSome = true := by
    unfold TellsMedia contentAt
    rw [Option.isSome_iff_exists]
    constructor
    · rintro ⟨resp, S, h1, h2⟩
      exact ⟨S, by rw [h1]; exact h2⟩
    · rintro ⟨S, h⟩
      obtain ⟨resp, h1, h2⟩ := Option.bind_eq_some_iff.mp h
      exact ⟨resp, S, h1, h2⟩
  rw [ht, hc]
  constructor
  · intro h
    obtain ⟨S, h⟩ := Option.isSome_iff_exists.mp h
    obtain ⟨z, hz, _⟩ := Option.bind_eq_some_iff.mp h
    have hz' := List.mem_of_getLast? hz
    rw [List.mem_filter] at hz'
    obtain ⟨hz1, hz2⟩ := hz'
    simp only [decide_eq_true_eq] at hz2
    exact ⟨z, hz1, hz2⟩
  · rintro ⟨rt, hrt, hp⟩
    obtain ⟨z, hz⟩ : ∃ z, (r.returnTypes.filter (fun rt => rt.statusCode = code ∧
        rt.contentType = media ∧ returnSchema SE rt ≠ none ∧ returnSchema SE rt ≠ some {})).getLast? = some z := by
      rw [← Option.isSome_iff_exists, List.getLast?_isSome]
      exact List.ne_nil_of_mem (List.mem_filter.mpr ⟨hrt, by simpa using hp⟩)
    have hz' := List.mem_of_getLast? hz
    rw [List.mem_filter] at hz'
    have hz2 := hz'.2
    simp only [decide_eq_true_eq] at hz2
    rw [hz, Option.bind_some]
    cases hs : returnSchema SE z with
    | none => exact absurd hs hz2.2.2.1
    | some s => rfl

/-- The answers of a handler and the responses of its operation. `C` are the calls of the handler. -/
theorem answers_told {Γ : TypeEnv} {SE : SchemaEnv} {cs : List Field} {ch : RouteChoice} {m path : Str} {es : List Entry} {n : Nat} {R : Route}
    {C : Str → Str → List ArgView → Prop} (G : Gathered es path (n + 1) R)
    (hfrom : ∀ e ∈ es, ∃ pkg mm args, C pkg mm args ∧ Documented Γ pkg args mm e)
    (hto : ∀ pkg mm args, C pkg mm args → mm ∈ supportedMethods → ∃ e ∈ es, Documented Γ pkg args mm e) :
    (∀ key, key ∈ mkeys (operationOf SE cs ch (cleanRoute m R)).responses ↔ ∃ mm ∈ knownAnswers, ∃ code, AnswersBy C mm code ∧ itoa code = key) ∧
    (∀ code media, TellsMedia (operationOf SE cs ch (cleanRoute m R)) code media → ∃ mm, (mm, media) ∈ astraMedia ∧ AnswersBy C mm code) ∧
    (∀ code, AnswersBy C c!"String" code → ∃ resp, mget (operationOf SE cs ch (cleanRoute m R)).responses (itoa code) = some resp ∧
      mget resp.content c!"text/plain" = some { type := c!"string" }) ∧
    (∀ code media, (∃ mm, (mm, media) ∈ astraMedia ∧ AnswersBy C mm code) →
      (∀ pkg mm args a, C pkg mm args → (mm, media) ∈ astraMedia → IsStatus args 0 code → args[1]? = some a → ∀ t, a.type = .ok t → QueryType t) →
      TellsMedia (operationOf SE cs ch (cleanRoute m R)) code media) := by
  have hsource : ∀ y ∈ R.returnTypes, ∃ pkg mm args, C pkg mm args ∧ IsStatus args 0 y.statusCode ∧
      (((mm, y.contentType) ∈ astraMedia ∧ mm ≠ c!"String" ∧ y.contentType ≠ c!"text/plain" ∧ IsField Γ pkg args 1 y.field) ∨
        (mm = c!"String" ∧ y.contentType = c!"text/plain" ∧ y.field = { type := c!"string" }) ∨
        (mm ∈ bodilessAnswers ∧ y.contentType = [] ∧ y.field = { type := c!"nil" })) := by
    intro y hy
    obtain ⟨e, he, hye⟩ := G.source y hy
    obtain ⟨pkg, mm, args, hC, hdoc⟩ := hfrom e he
    exact ⟨pkg, mm, args, hC, answer_source hdoc hye⟩
  have hsent : ∀ mm ∈ knownAnswers, ∀ code, AnswersBy C mm code →
      ∃ y ∈ R.returnTypes, y.statusCode = code ∧ ∀ media, (mm, media) ∈ astraMedia → y.contentType = media := by
    rintro mm hmm code ⟨pkg, args, hC, hst⟩
    obtain ⟨e, he, hdoc⟩ := hto pkg mm args hC (known_supported mm hmm)
    obtain ⟨rt, hrt, h1, h2⟩ := answer_sent hdoc hmm hst
    obtain ⟨y, hy, hy1, hy2⟩ := G.responses (Nat.succ_pos n) e he rt hrt
    exact ⟨y, hy, by rw [hy1, h1], fun media hmed => by rw [hy2, h2 media hmed]⟩
  have hknown : ∀ x ∈ astraMedia, x.1 ∈ knownAnswers := by decide
  obtain ⟨r1, r2⟩ := responses_exact_partial SE cs ch (cleanRoute m R)
  refine ⟨fun key => ?_, fun code media ht => ?_, fun code hans => ?_, fun code media => ?_⟩
  · rw [r1]
    constructor
    · rintro ⟨rt, hrt, rfl⟩
      obtain ⟨y, hy, rfl⟩ := List.mem_map.mp hrt
      obtain ⟨pkg, mm, args, hC, hst, h⟩ := hsource y hy
      refine ⟨mm, ?_, y.statusCode, ⟨pkg, args, hC, hst⟩, rfl⟩
      rcases h with ⟨h, _⟩ | ⟨rfl, _⟩ | ⟨h, _⟩
      · exact hknown _ h
      · decide
      · exact List.mem_append.mpr (Or.inr h)
    · rintro ⟨mm, hmm, code, hans, rfl⟩
      obtain ⟨y, hy, hy1, _⟩ := hsent mm hmm code hans
      exact ⟨_, List.mem_map.mpr ⟨y, hy, rfl⟩, by simp only; rw [hy1]⟩
  · obtain ⟨rt, hrt, h1, h2, h3, h4⟩ := told_iff.mp ht
    obtain ⟨y, hy, rfl⟩ := List.mem_map.mp hrt
    simp only at h1 h2
    obtain ⟨pkg, mm, args, hC, hst, h⟩ := hsource y hy
    rw [h1] at hst
    rw [h2] at h
    rcases h with ⟨h, _⟩ | ⟨rfl, rfl, _⟩ | ⟨_, rfl, hf⟩
    · exact ⟨mm, h, pkg, args, hC, hst⟩
    · exact ⟨c!"String", by decide, pkg, args, hC, hst⟩
    · refine absurd ?_ h4
      unfold returnSchema
      simp only
      rw [hf]
      exact nil_schema SE m _
  · obtain ⟨y, hy, hy1, hy2⟩ := hsent c!"String" (by decide) code hans
    have hall : ∀ rt ∈ (cleanRoute m R).returnTypes, rt.contentType = c!"text/plain" → returnSchema SE rt = some { type := c!"string" } := by
      intro rt hrt hct
      obtain ⟨z, hz, rfl⟩ := List.mem_map.mp hrt
      simp only at hct
      obtain ⟨pkg, mm, args, hC, hst, h⟩ := hsource z hz
      rcases h with ⟨_, _, h, _⟩ | ⟨_, _, hf⟩ | ⟨_, h, _⟩
      · exact absurd hct h
      · unfold returnSchema
        simp only
        rw [hf]
        exact text_schema SE m _
      · rw [h] at hct; exact absurd hct (by decide)
    have hy' : ({ y with field := cleanField m y.field } : ReturnType) ∈ (cleanRoute m R).returnTypes := List.mem_map.mpr ⟨y, hy, rfl⟩
    have hct := hy2 c!"text/plain" (by decide)
    obtain ⟨resp, S, ht, hS⟩ := told_iff.mpr ⟨_, hy', hy1, hct, by rw [hall _ hy' hct]; simp, by rw [hall _ hy' hct]; exact fun h => text_nonempty (Option.some.inj h)⟩
    refine ⟨resp, ht, ?_⟩
    have hc := r2 code c!"text/plain"
    unfold contentAt at hc
    rw [ht, Option.bind_some, hS] at hc
    obtain ⟨z, hz, hzs⟩ := Option.bind_eq_some_iff.mp hc.symm
    have hz' := List.mem_of_getLast? hz
    rw [List.mem_filter] at hz'
    have hz2 := hz'.2
    simp only [decide_eq_true_eq] at hz2
    rw [hall z hz'.1 hz2.2.1] at hzs
    rw [hS, ← hzs]
  · rintro ⟨mm, hmed, hans⟩ hq
    obtain ⟨y, hy, hy1, hy2⟩ := hsent mm (hknown _ hmed) code hans
    have hct := hy2 media hmed
    have hy' : ({ y with field := cleanField m y.field } : ReturnType) ∈ (cleanRoute m R).returnTypes := List.mem_map.mpr ⟨y, hy, rfl⟩
    have hs : ∃ s, s ≠ {} ∧ returnSchema SE { y with field := cleanField m y.field } = some s := by
      obtain ⟨pkg', mm', args', hC', hst', h'⟩ := hsource y hy
      rw [hy1] at hst'
      rw [hct] at h'
      unfold returnSchema
      simp only
      rcases h' with ⟨h1, _, _, a, t, c, c', r, ha, hat, htr, hf⟩ | ⟨_, _, hf⟩ | ⟨_, h1, _⟩
      · rw [hf]
        exact query_body (hq pkg' mm' args' a hC' h1 hst' ha t hat) htr SE _
      · rw [hf]
        exact ⟨_, text_nonempty, text_schema SE m _⟩
      · subst h1
        exact absurd hmed (by
          have : ∀ x ∈ astraMedia, x.2 ≠ [] := by decide
          exact fun h => this _ h rfl)
    obtain ⟨s, hs1, hs2⟩ := hs
    exact told_iff.mpr ⟨_, hy', hy1, hct, by rw [hs2]; simp, by rw [hs2]; simpa using hs1⟩

/-! ### A run -/

/-- C114, exact in the status codes and in texts: a service with gin routers and an OpenAPI output, as in C83, without custom functions, and a run
that succeeds. The operation of a handler has a response for a status code if and only if one of the known methods is called with it, in the handler or
in a helper that it passes the context to. A media type is told for a status code only if a call sends it, but for `ProtoBuf`. For `String` the
media type is told, with the schema of a text; for JSON, XML and YAML it is told if the values that are sent with the status code are basic, slices of
basic values or pointers to these (C111 has structs). For no call of `ProtoBuf`, `HTML`, `TOML` or `JSONP` is the media type of the answer told, whatever
the status code, and of calls of the methods that are not known nothing is told. Missing: these methods, for which it is false, and values of other types. -/
theorem run_media_types_partial (L : Lib) (E : ParseCtx → RouteEnv) (hE : ByModel L E) (U : FPath → Prop) (hL : Tame L U)
    (hch : ∀ n, ValidChoice (L.choices.route n)) (getwd : Str) (φ : Faults)
    (w w' : World Proc) (d : FPath)
    (hd : DirAt w.cwd w.st.svc.workDir d) (hg : resolve w.cwd getwd = some w.cwd) (hnames : ProperNames w.fs) (hc : ∀ x ∈ w.cwd, '/' ∉ x)
    (routers : List (List RouteInfo)) (hin : Each GinInput w.st.svc.inputs routers) (hroutes : w.st.svc.routes = [])
    (hnd : DistinctRoutes (allowed w.st.svc.denyList routers.flatten))
    (before after : List Output) (o : Output) (hout : w.st.svc.outputs = before ++ o :: after) (hown : OwnCells w.st.svc.outputs)
    (hbefore : ∀ b ∈ before, Plain b) (loc : Nat) (ho : o.generate = .openapi loc) (q : FPath) (hq : OutputPlace d w.st.svc o.generate q)
    (hplace : OwnPlace w.cwd d w.st.svc after q) (hU : ¬ U q) (hno : ∀ ctx, (E ctx).prog.customs = [])
    (h : Astra.parseAll L getwd φ w = (w', .ok ())) :
    ∃ doc text, w'.fs.look q = some (.file text) ∧
      L.render (isYaml (withExtension [c!".json", c!".yaml", c!".yml"] (w.st.svc.cells.getD loc []))) doc = .ok text ∧
      ∀ i ∈ allowed w.st.svc.denyList routers.flatten, i.method ∈ documentedMethods →
        (∀ j ∈ allowed w.st.svc.denyList routers.flatten, openapiPath j.path = openapiPath i.path → j.method = i.method → j = i) →
        ∃ (relative : Str) (mains : List Str), L.rel i.file = .ok relative ∧ mains.length = routers.length ∧ ∀ (comment id : Str) (es : List Entry),
          (∀ main ∈ mains, HandlerView (E { workDir := workDirAfter getwd w.st.svc, mainPkg := main, customFuncs := w.st.svc.customFuncs })
            i.handler relative i.line comment id es) →
            ∃ op, Document.operation doc (openapiPath i.path) i.method = some op ∧
              ∀ main ∈ mains, ∀ (R : RouteEnv),
                R = E { workDir := workDirAfter getwd w.st.svc, mainPkg := main, customFuncs := w.st.svc.customFuncs } →
                ∀ file name f named ctx, HandlerIs R i.handler relative i.line file name f named → ContextParam R.prog f file ctx →
                  ∀ C : Str → Str → List ArgView → Prop, (∀ pkg m args, C pkg m args ↔ Calls R.prog file ctx (R.prog.funcs f).body pkg m args) →
                    (∀ key, key ∈ mkeys op.responses ↔ ∃ m ∈ knownAnswers, ∃ code, AnswersBy C m code ∧ itoa code = key) ∧
                    (∀ code media, TellsMedia op code media → (∃ m ∈ knownAnswers, (m, media) ∈ ginAnswers ∧ AnswersBy C m code) ∨
                      (media = c!"application/protobuf" ∧ AnswersBy C c!"ProtoBuf" code)) ∧
                    (∀ code, AnswersBy C c!"String" code → ∃ resp, mget op.responses (itoa code) = some resp ∧
                      mget resp.content c!"text/plain" = some { type := c!"string" }) ∧
                    (∀ code m media, m ∈ knownAnswers → m ≠ c!"ProtoBuf" → (m, media) ∈ ginAnswers → AnswersBy C m code →
                      (∀ pkg m' args a, C pkg m' args → (m', media) ∈ ginAnswers → IsStatus args 0 code → args[1]? = some a →
                        ∀ t, a.type = .ok t → QueryType t) → TellsMedia op code media) ∧
                    (∀ code m media, m ∈ [c!"ProtoBuf", c!"HTML", c!"TOML", c!"JSONP"] → (m, media) ∈ ginAnswers → ¬ TellsMedia op code media) := by
  obtain ⟨doc, text, h3, h4, h6⟩ := run_stage L E hE U hL hch getwd φ w w' d hd hg hnames hc routers hin
    hroutes hnd before after o hout hown hbefore loc ho q hq hplace hU h
  refine ⟨doc, text, h3, h4, fun i hi hm huniq => ?_⟩
  obtain ⟨relative, mains, hrel, hlen, h7⟩ := h6 i hi hm huniq
  refine ⟨relative, mains, hrel, hlen, fun comment id es hv => ?_⟩
  obtain ⟨SE, cs, ch, m, r', hc', hpos, S, _, hop⟩ := h7 comment id es hv
  obtain ⟨k, hk⟩ : ∃ k, routers.length = k + 1 := ⟨routers.length - 1, by omega⟩
  rw [hk] at S
  refine ⟨_, hop, ?_⟩
  rintro main hmain R rfl file name f named ctx hh hp C hC
  obtain ⟨file', name', f', named', ctx', hh', hp', han', _, _⟩ := hv main hmain
  obtain ⟨rfl, rfl, rfl⟩ := handler_unique hh hh'
  cases contextParam_unique hp hp'
  obtain ⟨a1, a2, a3, a4⟩ := answers_told (SE := SE) (cs := cs) (ch := ch) (m := m) (C := C) S.gathered
    (fun e he => by
      obtain ⟨pkg, mm, args, k1, k2⟩ := entries_from_calls (hno _) han' e he
      exact ⟨pkg, mm, args, (hC _ _ _).mpr k1, k2⟩)
    (fun pkg mm args hcall hs => calls_documented (hno _) han' ((hC _ _ _).mp hcall) hs)
  have hmed : ∀ x ∈ astraMedia, x.1 ∈ knownAnswers ∧ (x ∈ ginAnswers ∨ x = (c!"ProtoBuf", c!"application/protobuf")) := by decide
  refine ⟨a1, fun code media ht => ?_, a3, fun code mm media hk hne hg hans hq => ?_, fun code mm media hmm hg ht => ?_⟩
  · obtain ⟨mm, h1, h2⟩ := a2 code media ht
    obtain ⟨k1, k2 | k2⟩ := hmed _ h1
    · exact Or.inl ⟨mm, k1, k2, h2⟩
    · cases k2
      exact Or.inr ⟨rfl, h2⟩
  · have hback : ∀ x ∈ ginAnswers, x.1 ∈ knownAnswers → x.1 ≠ c!"ProtoBuf" → x ∈ astraMedia := by decide
    have hin' := hback _ hg hk hne
    refine a4 code media ⟨mm, hin', hans⟩ (fun pkg m' args a h1 h2 h3 h4 => hq pkg m' args a h1 ?_ h3 h4)
    rcases (hmed _ h2).2 with k | k
    · exact k
    · cases k
      exact absurd hg (by
        have : ∀ x ∈ ginAnswers, x.2 ≠ c!"application/protobuf" := by decide
        exact fun h => this _ h rfl)
  · obtain ⟨m', h1, _⟩ := a2 code media ht
    have : ∀ x ∈ ginAnswers, x.1 ∈ [c!"ProtoBuf", c!"HTML", c!"TOML", c!"JSONP"] → ∀ y ∈ astraMedia, y.2 ≠ x.2 := by decide
    exact this _ hg hmm _ h1 rfl

end Astra.Props
