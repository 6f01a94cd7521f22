/-
C108: headers that a client writes from the document are read by the handler as they were meant, except for some names; headers that a handler
sets are in the document.
-/
import Verif.Spec.Headers
import Verif.Props.Forms

namespace Astra.Props
open Astra.Spec

/-! ### The parameter object -/

/-- The document gives no style for parameters in the header, so the standard takes the only one there is. -/
theorem header_shape (E : SchemaEnv) (components : List Field) (ch : RouteChoice) (hch : ValidChoice ch) (r : Route)
    (o : OParam) (ho : o ∈ (operationOf E components ch r).parameters) (hq : o.loc = c!"header") : o.style = [] := by
  rw [(parameters_sorted_complete E components ch hch r).2.mem_iff] at ho
  rcases List.mem_append.mp ho with ho | ho
  · rcases List.mem_append.mp ho with ho | ho
    · obtain ⟨p, _, hp⟩ := List.mem_flatMap.mp ho
      cases hs : mapParamToSchema E .uri p with
      | none => simp [hs] at hp
      | some s => simp only [hs, List.mem_singleton] at hp; rw [hp]
    · obtain ⟨p, _, hp⟩ := List.mem_flatMap.mp ho
      cases hs : mapParamToSchema E .header p with
      | none => simp [hs] at hp
      | some s => simp only [hs, List.mem_singleton] at hp; rw [hp]
  · have hqd : ∀ name req s, o ≠ queryDoc name req s := by
      rintro name req s rfl
      unfold queryDoc at hq
      split at hq <;> simp at hq
    obtain ⟨p, _, hp⟩ := List.mem_flatMap.mp ho
    split at hp
    · cases hp
    · split at hp
      · split at hp
        · cases hp
        · split at hp
          · cases hp
          · obtain ⟨x, _, hx⟩ := List.mem_map.mp hp
            exact absurd hx.symm (hqd _ _ _)
      · exact absurd (List.mem_singleton.mp hp) (hqd _ _ _)

theorem header_shown {yaml : Bool} {o : OParam} {j : Json} (h : ShowsParameter yaml o j) (hn : o.name ≠ []) (hl : o.loc = c!"header")
    (hs : o.style = []) (v : Str) :
    headerWritten j v = if o.name.map Char.toLower ∉ ignoredHeaders then some [(o.name, v)] else none := by
  obtain ⟨_, h1, h2, _, h4, _⟩ := h
  unfold ShowsText at h1 h2 h4
  rw [if_neg hn] at h1
  rw [if_neg (by rw [hl]; decide), hl] at h2
  rw [if_pos hs] at h4
  unfold headerWritten
  rw [h1, h2, h4]
  simp

theorem first_among {before after : List (Str × Str)} {n v : Str} (hb : ∀ e ∈ before, ¬ SameHeader e.1 n) :
    (before ++ [(n, v)] ++ after).find? (fun e => SameHeader e.1 n) = some (n, v) := by
  rw [List.append_assoc, List.find?_append, List.find?_eq_none.mpr (by intro e he; simpa using hb e he)]
  simp [SameHeader]

/-- C108 for one parameter, exact: a client is understood unless the standard says that the parameter is ignored, or the server takes the field out
of the header. -/
theorem header_understood_iff (schemas : List (Str × Schema)) {yaml : Bool} {o : OParam} {j : Json} (h : ShowsParameter yaml o j)
    (hn : HeaderName o.name) (hl : o.loc = c!"header") (hs : o.style = []) (hsch : o.schema = { type := c!"string" }) {v : Str} (hv : v ≠ []) :
    HeaderUnderstood schemas o j v ↔ o.name.map Char.toLower ∉ ignoredHeaders ++ takenOut := by
  have hw := header_shown h hn.1 hl hs v
  constructor
  · rintro ⟨_, fields, hf, hr⟩ hm
    rcases List.mem_append.mp hm with hm | hm
    · rw [hw, if_neg (fun hh => hh hm)] at hf
      cases hf
    · have := hr [] [] (by simp) (by simp)
      unfold headerRead at this
      rw [if_pos hm] at this
      exact hv this.symm
  · intro hm
    refine ⟨by rw [hsch]; exact admits_string schemas v, _, by rw [hw, if_pos (fun hh => hm (List.mem_append_left _ hh))], ?_⟩
    intro before after hb _
    unfold headerRead
    rw [if_neg (fun hh => hm (List.mem_append_right _ hh)), first_among hb]
    rfl

/-! ### The calls -/

theorem response_header_entry {Γ : TypeEnv} {pkg m : Str} {args : List ArgView} {e : Entry} (hd : Documented Γ pkg args m e) {p : Param}
    (hp : p ∈ e.responseHeaders) : p = { name := p.name, field := { type := c!"string" } } := by
  cases hd with
  | header hn =>
    simp only [List.mem_singleton] at hp
    rw [hp]
  | _ => cases hp

theorem getHeader_entry {Γ : TypeEnv} {pkg : Str} {args : List ArgView} {e : Entry} (hd : Documented Γ pkg args c!"GetHeader" e) {n : Str}
    (hn : IsName args 0 n) : e.requestHeaders = [{ name := n, field := { type := c!"string" } }] := by
  cases hd with
  | getHeader hn' => rw [isName_unique hn hn']
  | json k | status k | query k | queryArray k | queryMap k | bindQuery k | bind k | bindJSON k | bindXML k | bindYAML k | bindHeader k | postForm k | postFormArray k | postFormMap k =>
    exact absurd k (by decide)

theorem header_entry {Γ : TypeEnv} {pkg : Str} {args : List ArgView} {e : Entry} (hd : Documented Γ pkg args c!"Header" e) {n : Str}
    (hn : IsName args 0 n) : e.responseHeaders = [{ name := n, field := { type := c!"string" } }] := by
  cases hd with
  | header hn' => rw [isName_unique hn hn']
  | json k | status k | query k | queryArray k | queryMap k | bindQuery k | bind k | bindJSON k | bindXML k | bindYAML k | bindHeader k | postForm k | postFormArray k | postFormMap k =>
    exact absurd k (by decide)

/-! ### A run -/

/-- C108, exact: a service with gin routers and an OpenAPI output, as in C83, without custom functions, and a run that succeeds. For each call of
`GetHeader` in the source of the handler and of the helpers it passes the context to, the operation has a parameter of this name in the header, and a
client who has the parameter object of the file is understood, except if the name is one of those that the standard ignores (`Accept`,
`Content-Type`, `Authorization`) or that never reach the handler. The operation has the responses that the handler sends; for each call of `Header`, each response of the operation has the header, not
required and admitting all texts, and tells of it, except for `Content-Type`. Missing: the names that are excepted, for which it is false. -/
theorem run_headers_exact_partial (L : Lib) (E : ParseCtx → RouteEnv) (hE : ByModel L E) (U : FPath → Prop) (hL : Tame L U)
    (hch : ∀ n, ValidChoice (L.choices.route n)) (getwd : Str) (φ : Faults)
    (w w' : World Proc) (d : FPath)
    (hd : DirAt w.cwd w.st.svc.workDir d) (hg : resolve w.cwd getwd = some w.cwd) (hnames : ProperNames w.fs) (hc : ∀ x ∈ w.cwd, '/' ∉ x)
    (routers : List (List RouteInfo)) (hin : Each GinInput w.st.svc.inputs routers) (hroutes : w.st.svc.routes = [])
    (hnd : DistinctRoutes (allowed w.st.svc.denyList routers.flatten))
    (before after : List Output) (o : Output) (hout : w.st.svc.outputs = before ++ o :: after) (hown : OwnCells w.st.svc.outputs)
    (hbefore : ∀ b ∈ before, Plain b) (loc : Nat) (ho : o.generate = .openapi loc) (q : FPath) (hq : OutputPlace d w.st.svc o.generate q)
    (hplace : OwnPlace w.cwd d w.st.svc after q) (hU : ¬ U q) (hno : ∀ ctx, (E ctx).prog.customs = [])
    (h : Astra.parseAll L getwd φ w = (w', .ok ())) :
    ∃ doc text, w'.fs.look q = some (.file text) ∧
      L.render (isYaml (withExtension [c!".json", c!".yaml", c!".yml"] (w.st.svc.cells.getD loc []))) doc = .ok text ∧
      ∀ i ∈ allowed w.st.svc.denyList routers.flatten, i.method ∈ documentedMethods →
        (∀ j ∈ allowed w.st.svc.denyList routers.flatten, openapiPath j.path = openapiPath i.path → j.method = i.method → j = i) →
        ∃ (relative : Str) (mains : List Str), L.rel i.file = .ok relative ∧ mains.length = routers.length ∧ ∀ (comment id : Str) (es : List Entry),
          (∀ main ∈ mains, HandlerView (E { workDir := workDirAfter getwd w.st.svc, mainPkg := main, customFuncs := w.st.svc.customFuncs })
            i.handler relative i.line comment id es) →
            ∃ op, Document.operation doc (openapiPath i.path) i.method = some op ∧
              (∀ e ∈ es, ∀ rt ∈ e.responses, ∃ resp, mget op.responses (itoa rt.statusCode) = some resp) ∧
              ∀ main ∈ mains, ∀ (R : RouteEnv),
                R = E { workDir := workDirAfter getwd w.st.svc, mainPkg := main, customFuncs := w.st.svc.customFuncs } →
                ∀ file name f named ctx pkg args n, HandlerIs R i.handler relative i.line file name f named → ContextParam R.prog f file ctx →
                  IsName args 0 n →
                  (Calls R.prog file ctx (R.prog.funcs f).body pkg c!"GetHeader" args → HeaderName n →
                    ∃ o ∈ op.parameters, o.name = n ∧ o.loc = c!"header" ∧ ∀ yaml j, ShowsParameter yaml o j → ∀ v, v ≠ [] →
                      (HeaderUnderstood doc.schemas o j v ↔ n.map Char.toLower ∉ ignoredHeaders ++ takenOut)) ∧
                  (Calls R.prog file ctx (R.prog.funcs f).body pkg c!"Header" args → ∀ code resp, mget op.responses code = some resp →
                    ∃ h, mget resp.headers n = some h ∧ h.required = false ∧ (∀ v, Admits doc.schemas h.schema (.str v)) ∧
                      (TellsHeader resp n h ↔ ¬ SameHeader n c!"Content-Type")) := by
  obtain ⟨doc, text, h3, h4, h6⟩ := run_stage L E hE U hL hch getwd φ w w' d hd hg hnames hc routers hin
    hroutes hnd before after o hout hown hbefore loc ho q hq hplace hU h
  refine ⟨doc, text, h3, h4, fun i hi hm huniq => ?_⟩
  obtain ⟨relative, mains, hrel, hlen, h7⟩ := h6 i hi hm huniq
  refine ⟨relative, mains, hrel, hlen, fun comment id es hv => ?_⟩
  obtain ⟨SE, cs, ch, m, r', hc', hpos, S, ⟨_, _, _, _, han⟩, hop⟩ := h7 comment id es hv
  obtain ⟨k, hk⟩ : ∃ k, routers.length = k + 1 := ⟨routers.length - 1, by omega⟩
  rw [hk] at S
  obtain ⟨s1, _⟩ := document_shows SE cs ch hc' m es i.path k r' S.gathered (analysed_unbound han)
  refine ⟨_, hop, fun e he rt hrt => Option.isSome_iff_exists.mp (mget_isSome_iff.mpr ((s1 e he).responses rt hrt)), ?_⟩
  rintro main hmain R rfl file name f named ctx pkg args n hh hp hname
  obtain ⟨file', name', f', named', ctx', hh', hp', han', _, _⟩ := hv main hmain
  obtain ⟨rfl, rfl, rfl⟩ := handler_unique hh hh'
  cases contextParam_unique hp hp'
  constructor
  · intro hcall hn
    obtain ⟨e, he, hdoc⟩ := calls_documented (hno _) han' hcall (by decide)
    have hp1 : ({ name := n, field := { type := c!"string" } } : Param) ∈ e.requestHeaders := by
      rw [getHeader_entry hdoc hname]; exact List.mem_singleton.mpr rfl
    obtain ⟨o, ho, ho1, ho2, ho3⟩ := (s1 e he).header _ hp1 rfl
    refine ⟨o, ho, ho1, ho2, fun yaml j hj v hv => ?_⟩
    have ho1 : o.name = n := ho1
    rw [← ho1] at hn ⊢
    exact header_understood_iff doc.schemas hj hn ho2 (header_shape SE cs ch hc' _ o ho ho2) ho3 hv
  · intro hcall code resp hresp
    obtain ⟨e, he, hdoc⟩ := calls_documented (hno _) han' hcall (by decide)
    have hp1 : ({ name := n, field := { type := c!"string" } } : Param) ∈ e.responseHeaders := by
      rw [header_entry hdoc hname]; exact List.mem_singleton.mpr rfl
    have hk' := (s1 e he).responseHeader _ hp1 rfl code resp hresp
    obtain ⟨hd', hhd⟩ := Option.isSome_iff_exists.mp (mget_isSome_iff.mpr hk')
    refine ⟨hd', hhd, ?_⟩
    have hlast := responses_carry_headers SE cs ch (cleanRoute m r') code resp hresp n
    rw [show mget resp.headers n = some hd' from hhd] at hlast
    obtain ⟨p, hpm, hpv⟩ := List.mem_filterMap.mp (lastFor_mem hlast.symm)
    obtain ⟨e', he', hpe⟩ := S.gathered.mem_rheader.mp (show p ∈ r'.responseHeaders from hpm)
    obtain ⟨_, _, _, _, hdoc'⟩ := entries_from_calls (hno _) han' e' he'
    have hpp := response_header_entry hdoc' hpe
    have hsch := string_param_schema SE .header p (by rw [hpp]) (by rw [hpp])
    rw [hsch] at hpv
    simp only [Option.map_some, Option.some.injEq, Prod.mk.injEq] at hpv
    refine ⟨by rw [← hpv.2, hpp], fun v => ?_, ?_⟩
    · have : stringSchema p = { type := c!"string" } := by rw [hpp]; rfl
      rw [← hpv.2, this]
      exact admits_string doc.schemas v
    · exact ⟨fun ht hs => ht.2 hs, fun hs => ⟨hhd, hs⟩⟩

end Astra.Props
