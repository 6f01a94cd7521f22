/-
C107: a form that a client fills in from the document is read by the handler as it was meant, if the handler reads one text or one file; other
forms are misdescribed.
-/
import Verif.Spec.Forms
import Verif.Props.Query

namespace Astra.Props
open Astra.Spec

/-! ### What gin reads -/

theorem formTexts_append (a b : List (Str × FormItem)) : formTexts (a ++ b) = formTexts a ++ formTexts b := by
  simp [formTexts, List.filterMap_append]

theorem formFiles_append (a b : List (Str × FormItem)) (n : Str) : formFiles (a ++ b) n = formFiles a n ++ formFiles b n := by
  simp [formFiles, List.filterMap_append]

theorem formTexts_other {form : List (Str × FormItem)} {n : Str} (h : ∀ e ∈ form, e.1 ≠ n) : ∀ e ∈ formTexts form, e.1 ≠ n := by
  intro e he
  obtain ⟨x, hx, hxe⟩ := List.mem_filterMap.mp he
  cases hi : x.2 with
  | text v => rw [hi] at hxe; cases hxe; exact h x hx
  | file c => rw [hi] at hxe; cases hxe

theorem formFiles_other {form : List (Str × FormItem)} {n : Str} (h : ∀ e ∈ form, e.1 ≠ n) : formFiles form n = [] := by
  rw [formFiles, List.filterMap_eq_nil_iff]
  intro x hx
  cases hi : x.2 with
  | text v => rfl
  | file c => simp only [if_neg (h x hx)]

theorem texts_among {before after : List (Str × FormItem)} {n v : Str} (hb : ∀ e ∈ before, e.1 ≠ n) (ha : ∀ e ∈ after, e.1 ≠ n) :
    valuesOf (formTexts (before ++ [(n, .text v)] ++ after)) n = [v] := by
  rw [formTexts_append, formTexts_append, valuesOf_append, valuesOf_append, valuesOf_other (formTexts_other hb), valuesOf_other (formTexts_other ha)]
  simp [formTexts, valuesOf]

theorem files_among {before after : List (Str × FormItem)} {n c : Str} (hb : ∀ e ∈ before, e.1 ≠ n) (ha : ∀ e ∈ after, e.1 ≠ n) :
    formFiles (before ++ [(n, .file c)] ++ after) n = [c] := by
  rw [formFiles_append, formFiles_append, formFiles_other hb, formFiles_other ha]
  simp [formFiles]

/-! ### The schema of a form -/

theorem admits_text_iff (schemas : List (Str × Schema)) (fmt : Str) (j : Json) :
    Admits schemas { type := c!"string", format := fmt } j ↔ ∃ v, j = .str v := by
  constructor
  · intro h
    cases h with
    | ref h => exact absurd h (by simp)
    | here _ h =>
      rcases h with h | h | h | h | h | h | h
      · cases h
      · exact h.2
      all_goals (replace h : (c!"string" : Str) = _ := h.1; exact absurd h (by decide))
  · rintro ⟨v, rfl⟩
    exact .here rfl (Or.inr (Or.inl ⟨rfl, _, rfl⟩)) (Or.inl rfl) (by intro i xs h; cases h) (by intro ms k x t h; cases h)
      (by intro a ms k x h; cases h) (by intro t ht; cases ht)

theorem admits_one_field (schemas : List (Str × Schema)) {n : Str} {t : Schema} {v : Json} (h : Admits schemas t v) :
    Admits schemas { type := c!"object", properties := [(n, t)] } (.obj [(n, v)]) := by
  refine .here rfl (by unfold HasJsonType; exact Or.inr (Or.inr (Or.inr (Or.inr (Or.inr (Or.inr ⟨rfl, _, rfl⟩)))))) (Or.inl rfl)
    (by intro i xs h; cases h) ?_ (by intro a ms k x h; cases h) (by intro t ht; cases ht)
  intro ms k x t' hm hx ht
  cases hm
  simp only [List.mem_singleton, Prod.mk.injEq] at hx ht
  rw [hx.2, ht.2]
  exact h

theorem encoding_absent {yaml : Bool} {s : Schema} {j : Json} (h : ShowsMedia yaml s j) : keyOf j c!"encoding" = none := by
  obtain ⟨⟨ms, rfl, _, hk⟩, _⟩ := h
  refine aget_none_iff.mpr (fun hm => ?_)
  obtain ⟨e, he, hee⟩ := List.mem_map.mp hm
  have := hk e he
  rw [hee] at this
  exact absurd this (by decide)

/-- The property that the document has for a field of a form: a text, or for files the format `binary`. -/
def fieldSchema (file : Bool) : Schema := { type := c!"string", format := if file then c!"binary" else [] }

theorem text_understood (schemas : List (Str × Schema)) {yaml : Bool} {n : Str} {j : Json}
    (h : ShowsMedia yaml { type := c!"object", properties := [(n, fieldSchema false)] } j) (v : Str) :
    FormUnderstood schemas urlencodedForm { type := c!"object", properties := [(n, fieldSchema false)] } j n (.value (.one v)) := by
  have ha : Admits schemas (fieldSchema false) (.str v) := (admits_text_iff schemas [] _).mpr ⟨v, rfl⟩
  refine ⟨admits_one_field schemas ha, _, List.mem_singleton.mpr rfl, ha, [(n, .text v)], ?_, ?_⟩
  · unfold filledBy
    rw [encoding_absent h]
    simp only [filledIn, fieldSchema]
    rw [if_neg (by decide)]
    rfl
  · intro before after hb hafter
    have hv := texts_among (v := v) hb hafter
    refine ⟨?_, ?_⟩
    · show (valuesOf _ n).head?.getD [] = v
      rw [hv]; rfl
    · intro v' hr hk
      cases v' with
      | file c => exact hk.elim
      | value v' =>
        cases v' with
        | one x =>
          have hr : (valuesOf _ n).head?.getD [] = x := hr
          rw [hv] at hr
          cases hr
          exact rfl
        | many => exact hk.elim
        | table => exact hk.elim

theorem file_understood (schemas : List (Str × Schema)) {yaml : Bool} {n : Str} {j : Json}
    (h : ShowsMedia yaml { type := c!"object", properties := [(n, fieldSchema true)] } j) (c : Str) :
    FormUnderstood schemas multipartForm { type := c!"object", properties := [(n, fieldSchema true)] } j n (.file c) := by
  have ha : Admits schemas (fieldSchema true) (.str c) := (admits_text_iff schemas c!"binary" _).mpr ⟨c, rfl⟩
  refine ⟨admits_one_field schemas ha, _, List.mem_singleton.mpr rfl, ha, [(n, .file c)], ?_, ?_⟩
  · unfold filledBy
    rw [encoding_absent h]
    rfl
  · intro before after hb hafter
    have hv := files_among (c := c) hb hafter
    refine ⟨?_, ?_⟩
    · show (formFiles _ n).head? = some c
      rw [hv]; rfl
    · intro v' hr hk
      cases v' with
      | value v => exact hk.elim
      | file x =>
        have hr : (formFiles _ n).head? = some x := hr
        rw [hv] at hr
        cases hr
        exact rfl

/-! ### The request body -/

theorem lastFor_last {V : Type} {a b : List (Str × V)} {k : Str} {v : V} (h : ∀ e ∈ b, e.1 ≠ k) : lastFor (a ++ (k, v) :: b) k = some v := by
  unfold lastFor
  rw [List.reverse_append, List.find?_append, List.reverse_cons, List.find?_append,
    List.find?_eq_none.mpr (by intro e he; simpa using h e (List.mem_reverse.mp he))]
  simp

theorem formEntry_schema (SE : SchemaEnv) (m : Str) {bp : BodyParam} (h : IsFormEntry bp) :
    bodyParamSchema SE { bp with field := cleanField m bp.field } = some (fieldSchema (bp.contentType = multipartForm)) := by
  have hstr : (cleanField m { type := c!"string" }).type = c!"string" := clean_leaf m _ (by decide)
  have hfile : (cleanField m { type := c!"file" }).type = c!"file" := clean_leaf m _ (by decide)
  unfold bodyParamSchema mapFieldToSchema
  rcases h.2 with ⟨h1, h2⟩ | ⟨h1, h2⟩
  · simp only [h2, hstr]
    rw [if_neg (by decide), if_neg (by decide), if_neg (by decide), h1]
    decide +kernel
  · simp only [h2, hfile]
    rw [if_neg (by decide), if_neg (by decide), if_neg (by decide), h1]
    decide +kernel

/-- The last entry of its type decides: the document has an object with one property. -/
theorem last_field_documented (SE : SchemaEnv) (cs : List Field) (ch : RouteChoice) (m path : Str) {es : List Entry} {n : Nat} {R : Route}
    (G : Gathered es path (n + 1) R) {ct : Str} {bp : BodyParam} (hl : LastOfType es ct bp) (hf : IsFormEntry bp) :
    ∃ content, (operationOf SE cs ch (cleanRoute m R)).requestBody = some content ∧
      mget content ct = some { type := c!"object", properties := [(bp.name, fieldSchema (ct = multipartForm))] } := by
  obtain ⟨h1, _⟩ := request_body_exact SE cs ch (cleanRoute m R)
  obtain ⟨before, after, hes, hct, hafter⟩ := hl
  have hbody : (cleanRoute m R).body = (((List.replicate n (es.flatMap (·.body))).flatten ++ before).map
      (fun bp => { bp with field := cleanField m bp.field })) ++ { bp with field := cleanField m bp.field } ::
      after.map (fun bp => { bp with field := cleanField m bp.field }) := by
    show R.body.map _ = _
    rw [G.body, ← copies_succ]
    conv => lhs; rw [hes]
    rw [← List.append_assoc, List.map_append, List.map_cons]
    rw [hes]
  have hc := h1 ct
  rw [hbody, List.filterMap_append, List.filterMap_cons, formEntry_schema SE m hf] at hc
  simp only [Option.map_some, hf.1, if_false, hct] at hc
  rw [lastFor_last] at hc
  · cases hr : (operationOf SE cs ch (cleanRoute m R)).requestBody with
    | none => rw [hr] at hc; cases hc
    | some content => rw [hr] at hc; exact ⟨content, rfl, hc⟩
  · intro e he
    obtain ⟨x, hx, hxe⟩ := List.mem_filterMap.mp he
    obtain ⟨y, hy, rfl⟩ := List.mem_map.mp hx
    obtain ⟨s, _, rfl⟩ := Option.map_eq_some_iff.mp hxe
    exact hafter y hy

/-! ### What is not understood -/

theorem list_not_understood {schemas : List (Str × Schema)} {ct : Str} {name : Str} {b : Bool} {j : Json} {n : Str} {vs : List Str} :
    ¬ FormUnderstood schemas ct { type := c!"object", properties := [(name, fieldSchema b)] } j n (.value (.many vs)) := by
  rintro ⟨_, t, ht, ha, _⟩
  simp only [List.mem_singleton, Prod.mk.injEq] at ht
  rw [ht.2] at ha
  obtain ⟨v, hv⟩ := (admits_text_iff schemas _ _).mp ha
  cases hv

theorem table_not_understood {schemas : List (Str × Schema)} {ct : Str} {name : Str} {b : Bool} {j : Json} {n : Str} {kvs : List (Str × Str)} :
    ¬ FormUnderstood schemas ct { type := c!"object", properties := [(name, fieldSchema b)] } j n (.value (.table kvs)) := by
  rintro ⟨_, t, ht, ha, _⟩
  simp only [List.mem_singleton, Prod.mk.injEq] at ht
  rw [ht.2] at ha
  obtain ⟨v, hv⟩ := (admits_text_iff schemas _ _).mp ha
  cases hv

theorem exists_last {ct : Str} : ∀ {l : List BodyParam} {bp : BodyParam}, bp ∈ l → bp.contentType = ct →
    ∃ before x after, l = before ++ x :: after ∧ x.contentType = ct ∧ ∀ y ∈ after, y.contentType ≠ ct
  | x :: l, bp, hm, hct => by
    by_cases hl : ∃ y ∈ l, y.contentType = ct
    · obtain ⟨y, hy, hyc⟩ := hl
      obtain ⟨a, z, b, h1, h2, h3⟩ := exists_last hy hyc
      exact ⟨x :: a, z, b, by rw [h1]; rfl, h2, h3⟩
    · rcases List.mem_cons.mp hm with rfl | hm
      · exact ⟨[], bp, l, rfl, hct, fun y hy h => hl ⟨y, hy, h⟩⟩
      · exact absurd ⟨bp, hm, hct⟩ hl

/-! ### A run -/

/-- C107, exact: a service with gin routers and an OpenAPI output, as in C83, and a run that succeeds; a handler all of whose calls that read forms
read them by name. Of all fields the handler reads as text, list or table, the document tells a client of the last only, and of all files of the
last only; the last field is understood if it is a text, the last file is understood, and a list or a table never is. -/
theorem run_form_exact (L : Lib) (E : ParseCtx → RouteEnv) (hE : ByModel L E) (U : FPath → Prop) (hL : Tame L U)
    (hch : ∀ n, ValidChoice (L.choices.route n)) (getwd : Str) (φ : Faults)
    (w w' : World Proc) (d : FPath)
    (hd : DirAt w.cwd w.st.svc.workDir d) (hg : resolve w.cwd getwd = some w.cwd) (hnames : ProperNames w.fs) (hc : ∀ x ∈ w.cwd, '/' ∉ x)
    (routers : List (List RouteInfo)) (hin : Each GinInput w.st.svc.inputs routers) (hroutes : w.st.svc.routes = [])
    (hnd : DistinctRoutes (allowed w.st.svc.denyList routers.flatten))
    (before after : List Output) (o : Output) (hout : w.st.svc.outputs = before ++ o :: after) (hown : OwnCells w.st.svc.outputs)
    (hbefore : ∀ b ∈ before, Plain b) (loc : Nat) (ho : o.generate = .openapi loc) (q : FPath) (hq : OutputPlace d w.st.svc o.generate q)
    (hplace : OwnPlace w.cwd d w.st.svc after q) (hU : ¬ U q)
    (h : Astra.parseAll L getwd φ w = (w', .ok ())) :
    ∃ doc text, w'.fs.look q = some (.file text) ∧
      L.render (isYaml (withExtension [c!".json", c!".yaml", c!".yml"] (w.st.svc.cells.getD loc []))) doc = .ok text ∧
      ∀ i ∈ allowed w.st.svc.denyList routers.flatten, i.method ∈ documentedMethods →
        (∀ j ∈ allowed w.st.svc.denyList routers.flatten, openapiPath j.path = openapiPath i.path → j.method = i.method → j = i) →
        ∃ (relative : Str) (mains : List Str), L.rel i.file = .ok relative ∧ mains.length = routers.length ∧ ∀ (comment id : Str) (es : List Entry),
          (∀ main ∈ mains, HandlerView (E { workDir := workDirAfter getwd w.st.svc, mainPkg := main, customFuncs := w.st.svc.customFuncs })
            i.handler relative i.line comment id es) →
            ∃ op, Document.operation doc (openapiPath i.path) i.method = some op ∧
              (∀ bp, LastOfType es urlencodedForm bp → IsFormEntry bp → ∃ content s, op.requestBody = some content ∧
                mget content urlencodedForm = some s ∧ ∀ yaml j, ShowsMedia yaml s j → ∀ v,
                  FormUnderstood doc.schemas urlencodedForm s j bp.name (.value (.one v))) ∧
              (∀ bp, LastOfType es multipartForm bp → IsFormEntry bp → ∃ content s, op.requestBody = some content ∧
                mget content multipartForm = some s ∧ ∀ yaml j, ShowsMedia yaml s j → ∀ c,
                  FormUnderstood doc.schemas multipartForm s j bp.name (.file c)) ∧
              ((∀ e ∈ es, ∀ bp ∈ e.body, bp.contentType ∈ [urlencodedForm, multipartForm] → IsFormEntry bp) →
                ∀ content ct s yaml j n v, op.requestBody = some content → ct ∈ [urlencodedForm, multipartForm] → mget content ct = some s →
                  ShowsMedia yaml s j → FormUnderstood doc.schemas ct s j n v →
                  ∃ bp, LastOfType es ct bp ∧ bp.name = n ∧ (ct = urlencodedForm ∧ (∃ x, v = .value (.one x)) ∨ ct = multipartForm ∧ ∃ c, v = .file c)) := by
  obtain ⟨doc, text, h3, h4, h6⟩ := run_stage L E hE U hL hch getwd φ w w' d hd hg hnames hc routers hin
    hroutes hnd before after o hout hown hbefore loc ho q hq hplace hU h
  refine ⟨doc, text, h3, h4, fun i hi hm huniq => ?_⟩
  obtain ⟨relative, mains, hrel, hlen, h7⟩ := h6 i hi hm huniq
  refine ⟨relative, mains, hrel, hlen, fun comment id es hv => ?_⟩
  obtain ⟨SE, cs, ch, m, r', hc', hpos, S, ⟨_, _, _, _, han⟩, hop⟩ := h7 comment id es hv
  obtain ⟨n, hn⟩ : ∃ n, routers.length = n + 1 := ⟨routers.length - 1, by omega⟩
  rw [hn] at S
  obtain ⟨_, s2⟩ := document_shows SE cs ch hc' m es i.path n r' S.gathered (analysed_unbound han)
  refine ⟨_, hop, ?_, ?_, ?_⟩
  · intro bp hl hf
    obtain ⟨content, k1, k2⟩ := last_field_documented SE cs ch m i.path S.gathered hl hf
    exact ⟨content, _, k1, k2, fun yaml j hj v => text_understood doc.schemas hj v⟩
  · intro bp hl hf
    obtain ⟨content, k1, k2⟩ := last_field_documented SE cs ch m i.path S.gathered hl hf
    exact ⟨content, _, k1, k2, fun yaml j hj v => file_understood doc.schemas hj v⟩
  · intro hall content ct s yaml j nm v hb hct hs hj hu
    obtain ⟨e, he, bp0, hbp0, hct0⟩ := s2.body content hb ct (mget_isSome_iff.mp (by rw [hs]; rfl))
    obtain ⟨a, bp, b, e1, e2, e3⟩ := exists_last (List.mem_flatMap.mpr ⟨e, he, hbp0⟩) hct0
    obtain ⟨e', he', hbp⟩ := List.mem_flatMap.mp (e1 ▸ List.mem_append_right _ List.mem_cons_self : bp ∈ es.flatMap (·.body))
    have hl : LastOfType es ct bp := ⟨a, b, e1, e2, e3⟩
    obtain ⟨content', k1, k2⟩ := last_field_documented SE cs ch m i.path S.gathered hl (hall e' he' bp hbp (e2 ▸ hct))
    rw [hb] at k1
    cases k1
    rw [hs] at k2
    cases k2
    have hname : nm = bp.name := by
      obtain ⟨_, t, ht, _⟩ := hu
      simp only [List.mem_singleton, Prod.mk.injEq] at ht
      exact ht.1
    refine ⟨bp, hl, hname.symm, ?_⟩
    simp only [List.mem_cons, List.not_mem_nil, or_false] at hct
    cases v with
    | file c =>
      obtain ⟨_, t, ht, _, fields, hf, _⟩ := hu
      simp only [List.mem_singleton, Prod.mk.injEq] at ht
      rw [ht.2] at hf
      unfold filledBy at hf
      rw [encoding_absent hj] at hf
      rcases hct with rfl | rfl
      · exact absurd hf (by simp [filledIn, urlencodedForm, multipartForm])
      · exact Or.inr ⟨rfl, c, rfl⟩
    | value v =>
      cases v with
      | many vs => exact absurd hu list_not_understood
      | table kvs => exact absurd hu table_not_understood
      | one x =>
        rcases hct with rfl | rfl
        · exact Or.inl ⟨rfl, x, rfl⟩
        · obtain ⟨_, t, ht, _, fields, hf, _⟩ := hu
          simp only [List.mem_singleton, Prod.mk.injEq] at ht
          rw [ht.2] at hf
          unfold filledBy at hf
          rw [encoding_absent hj] at hf
          exact absurd hf (by simp [filledIn, fieldSchema])

/-! ### What is lost -/

/-- C107, violated: `PostFormMap("opt")` is documented as a text. Whatever text a client fills in, whatever other fields the form has, the handler
gets an empty table. -/
theorem documented_table_is_empty {before after : List (Str × FormItem)} {n v : Str}
    (hb : ∀ e ∈ before, ¬ n ++ ['['] <+: e.1) (ha : ∀ e ∈ after, ¬ n ++ ['['] <+: e.1) {kvs : List (Str × Str)}
    (h : FormReads (before ++ [(n, .text v)] ++ after) n (.value (.table kvs))) : kvs = [] := by
  obtain ⟨_, hk, _⟩ := h
  cases kvs with
  | nil => rfl
  | cons x kvs =>
    obtain ⟨e, he, hne, _, _, _, r, hr⟩ := (hk x.1).mp List.mem_cons_self
    rw [inBrackets_eq] at hr
    have key : ∀ form : List (Str × FormItem), (∀ e ∈ form, ¬ n ++ ['['] <+: e.1) → e ∉ formTexts form := by
      intro form hf hm
      obtain ⟨y, hy, hye⟩ := List.mem_filterMap.mp hm
      cases hi : y.2 with
      | file c => rw [hi] at hye; cases hye
      | text t =>
        rw [hi] at hye
        cases hye
        exact hf y hy ⟨x.1 ++ ']' :: r, by rw [← hr]; simp⟩
    rw [formTexts_append, formTexts_append] at he
    rcases List.mem_append.mp he with he | he
    · rcases List.mem_append.mp he with he | he
      · exact absurd he (key before hb)
      · simp only [formTexts, List.filterMap_cons, List.filterMap_nil, List.mem_singleton] at he
        rw [he] at hr
        have hr : n ++ '[' :: (x.1 ++ ']' :: r) = n := hr
        have := congrArg List.length hr
        simp only [List.length_append, List.length_cons] at this
        omega
    · exact absurd he (key after ha)

/-- C107, violated: `PostFormArray("tag")` is documented as a text. Whatever text a client fills in, the handler gets the list of this one text. -/
theorem documented_list_has_one {before after : List (Str × FormItem)} {n v : Str}
    (hb : ∀ e ∈ before, e.1 ≠ n) (ha : ∀ e ∈ after, e.1 ≠ n) {vs : List Str}
    (h : FormReads (before ++ [(n, .text v)] ++ after) n (.value (.many vs))) : vs = [v] := by
  have h : valuesOf _ n = vs := h
  rw [texts_among hb ha] at h
  exact h.symm

/-! ### The calls of the handler -/

/-- Every entry is that of a call. -/
theorem entries_from_calls {P : Prog} (hno : P.customs = []) {file : FileId} {ctx : Str} {nodes : List Node} {es : List Entry}
    (h : Analysed P file ctx nodes es) : ∀ e ∈ es, ∃ pkg m args, Calls P file ctx nodes pkg m args ∧ Documented P.types pkg args m e := by
  obtain ⟨b, h⟩ := h
  generalize true = b0 at h
  induction h with
  | nil => intro e he; cases he
  | unresolved _ _ _ _ ih | lost _ _ _ _ _ ih | noContext _ _ _ _ _ _ ih =>
    intro e he
    obtain ⟨pkg, m, args, h1, h2⟩ := ih e he
    exact ⟨pkg, m, args, .later h1, h2⟩
  | brokenHelper hl hp ht hfile hc h0 _ ih0 ih =>
    intro e he
    rcases List.mem_append.mp he with he | he
    · obtain ⟨pkg, m, args, h1, h2⟩ := ih0 e he
      exact ⟨pkg, m, args, .helper hp ht (by rw [hfile]; exact hc) (by rw [hfile]; exact h1), h2⟩
    · obtain ⟨pkg, m, args, h1, h2⟩ := ih e he
      exact ⟨pkg, m, args, .later h1, h2⟩
  | other _ _ ih1 ih2 =>
    intro e he
    rcases List.mem_append.mp he with he | he
    · obtain ⟨pkg, m, args, h1, h2⟩ := ih1 e he; exact ⟨pkg, m, args, .under h1, h2⟩
    · obtain ⟨pkg, m, args, h1, h2⟩ := ih2 e he; exact ⟨pkg, m, args, .later h1, h2⟩
  | custom hc => exact absurd hc (no_customs_take hno)
  | helper _ hp ht hc h0 _ _ ih0 ih1 ih2 =>
    intro e he
    rcases List.mem_append.mp he with he | he
    · obtain ⟨pkg, m, args, h1, h2⟩ := ih0 e he; exact ⟨pkg, m, args, .helper hp ht hc h1, h2⟩
    · rcases List.mem_append.mp he with he | he
      · obtain ⟨pkg, m, args, h1, h2⟩ := ih1 e he
        exact ⟨pkg, m, args, .inside (Or.inr (Or.inr ⟨hp, _, _, _, ht, hc, h0⟩)) h1, h2⟩
      · obtain ⟨pkg, m, args, h1, h2⟩ := ih2 e he; exact ⟨pkg, m, args, .later h1, h2⟩
  | plain _ hp hf _ _ ih1 ih2 =>
    intro e he
    rcases List.mem_append.mp he with he | he
    · obtain ⟨pkg, m, args, h1, h2⟩ := ih1 e he; exact ⟨pkg, m, args, .inside (Or.inr (Or.inl ⟨hp, _, hf⟩)) h1, h2⟩
    · obtain ⟨pkg, m, args, h1, h2⟩ := ih2 e he; exact ⟨pkg, m, args, .later h1, h2⟩
  | unsupported _ hp hf hm _ _ ih1 ih2 =>
    intro e he
    rcases List.mem_append.mp he with he | he
    · obtain ⟨pkg, m, args, h1, h2⟩ := ih1 e he; exact ⟨pkg, m, args, .inside (Or.inr (Or.inl ⟨hp, _, hf⟩)) h1, h2⟩
    · obtain ⟨pkg, m, args, h1, h2⟩ := ih2 e he; exact ⟨pkg, m, args, .later h1, h2⟩
  | context _ hp hf hd _ _ ih1 ih2 =>
    intro e he
    rcases List.mem_cons.mp he with rfl | he
    · exact ⟨_, _, _, .here hp hf, hd⟩
    · rcases List.mem_append.mp he with he | he
      · obtain ⟨pkg, m, args, h1, h2⟩ := ih1 e he; exact ⟨pkg, m, args, .inside (Or.inr (Or.inl ⟨hp, _, hf⟩)) h1, h2⟩
      · obtain ⟨pkg, m, args, h1, h2⟩ := ih2 e he; exact ⟨pkg, m, args, .later h1, h2⟩

theorem isName_unique {args : List ArgView} {k : Nat} {n n' : Str} (h : IsName args k n) (h' : IsName args k n') : n = n' := by
  obtain ⟨a, ha, hav⟩ := h
  obtain ⟨a', ha', hav'⟩ := h'
  rw [ha] at ha'
  cases ha'
  rw [hav] at hav'
  cases hav'
  rfl

/-- An entry of a form type is that of a method that reads such forms; it is a field with a name, or a bound value. -/
theorem form_entry_method {Γ : TypeEnv} {pkg m : Str} {args : List ArgView} {e : Entry} (hd : Documented Γ pkg args m e) {bp : BodyParam}
    (hbp : bp ∈ e.body) {ct : Str} (hct : bp.contentType = ct) (hf : ct ∈ [urlencodedForm, multipartForm]) :
    m ∈ readsForm ct ∧ (m ∈ [c!"Bind", c!"ShouldBind"] ∨ IsName args 0 bp.name ∧
      ((bp.contentType = urlencodedForm ∧ bp.field = { type := c!"string" }) ∨ (bp.contentType = multipartForm ∧ bp.field = { type := c!"file" }))) := by
  cases hd with
  | bind k =>
    simp only [List.mem_cons, List.not_mem_nil, or_false] at k hf
    refine ⟨?_, Or.inl (by rcases k with rfl | rfl <;> decide)⟩
    rcases hf with rfl | rfl <;> rcases k with rfl | rfl <;> decide
  | postForm k hn | postFormArray k hn | postFormMap k hn =>
    simp only [List.mem_singleton] at hbp
    subst hbp
    refine ⟨?_, Or.inr ⟨hn, Or.inl ⟨rfl, rfl⟩⟩⟩
    rw [← show urlencodedForm = ct from hct]
    simp only [List.mem_cons, List.not_mem_nil, or_false] at k
    rcases k with rfl | rfl <;> decide
  | formFile hn =>
    simp only [List.mem_singleton] at hbp
    subst hbp
    refine ⟨?_, Or.inr ⟨hn, Or.inr ⟨rfl, rfl⟩⟩⟩
    rw [← show multipartForm = ct from hct]
    decide
  | bindJSON | bindXML | bindYAML =>
    simp only [List.mem_singleton] at hbp
    subst hbp
    rw [← hct] at hf
    simp [urlencodedForm, multipartForm] at hf
  | _ => cases hbp

theorem formMethod_entry {Γ : TypeEnv} {pkg m : Str} {args : List ArgView} {e : Entry} (hd : Documented Γ pkg args m e) {v : FieldValue}
    (h : FormMethod m v) : ∃ bp ∈ e.body, bp.contentType = formTypeOf v := by
  have hm : (m ∈ [c!"PostForm", c!"GetPostForm", c!"PostFormArray", c!"GetPostFormArray", c!"PostFormMap", c!"GetPostFormMap"] ∧ ∃ x, v = .value x) ∨
      (m = c!"FormFile" ∧ ∃ c, v = .file c) := by
    cases v with
    | file c => exact Or.inr ⟨h, _, rfl⟩
    | value x =>
      refine Or.inl ⟨?_, _, rfl⟩
      cases x <;> (unfold FormMethod at h; simp only [List.mem_cons, List.not_mem_nil, or_false] at h; rcases h with rfl | rfl <;> decide)
  rcases hm with ⟨hm, x, rfl⟩ | ⟨rfl, c, rfl⟩
  · simp only [List.mem_cons, List.not_mem_nil, or_false] at hm
    rcases hm with rfl | rfl | rfl | rfl | rfl | rfl <;> cases hd with
      | postForm k | postFormArray k | postFormMap k =>
        first
        | exact absurd k (by decide)
        | exact ⟨_, List.mem_singleton.mpr rfl, rfl⟩
      | json k | status k | query k | queryArray k | queryMap k | bindQuery k | bind k | bindJSON k | bindXML k | bindYAML k | bindHeader k =>
        exact absurd k (by decide)
  · cases hd with
      | formFile => exact ⟨_, List.mem_singleton.mpr rfl, rfl⟩
      | json k | status k | query k | queryArray k | queryMap k | bindQuery k | bind k | bindJSON k | bindXML k | bindYAML k | bindHeader k | postForm k | postFormArray k | postFormMap k =>
        exact absurd k (by decide)

/-- C107 for the calls (partial): as `run_form_exact`, for a service without custom functions, and said about the calls in the source of the handler
and of the helpers it passes the context to. If all calls that read forms of a type (texts, or files) read one field of one kind, then whatever
text, or file, a client means, the document tells how to fill in the form, and the client is understood. Missing: handlers that read several
fields, lists or tables, for which it is false (`run_form_exact`). -/
theorem run_form_calls_understood_partial (L : Lib) (E : ParseCtx → RouteEnv) (hE : ByModel L E) (U : FPath → Prop) (hL : Tame L U)
    (hch : ∀ n, ValidChoice (L.choices.route n)) (getwd : Str) (φ : Faults)
    (w w' : World Proc) (d : FPath)
    (hd : DirAt w.cwd w.st.svc.workDir d) (hg : resolve w.cwd getwd = some w.cwd) (hnames : ProperNames w.fs) (hc : ∀ x ∈ w.cwd, '/' ∉ x)
    (routers : List (List RouteInfo)) (hin : Each GinInput w.st.svc.inputs routers) (hroutes : w.st.svc.routes = [])
    (hnd : DistinctRoutes (allowed w.st.svc.denyList routers.flatten))
    (before after : List Output) (o : Output) (hout : w.st.svc.outputs = before ++ o :: after) (hown : OwnCells w.st.svc.outputs)
    (hbefore : ∀ b ∈ before, Plain b) (loc : Nat) (ho : o.generate = .openapi loc) (q : FPath) (hq : OutputPlace d w.st.svc o.generate q)
    (hplace : OwnPlace w.cwd d w.st.svc after q) (hU : ¬ U q) (hno : ∀ ctx, (E ctx).prog.customs = [])
    (h : Astra.parseAll L getwd φ w = (w', .ok ())) :
    ∃ doc text, w'.fs.look q = some (.file text) ∧
      L.render (isYaml (withExtension [c!".json", c!".yaml", c!".yml"] (w.st.svc.cells.getD loc []))) doc = .ok text ∧
      ∀ i ∈ allowed w.st.svc.denyList routers.flatten, i.method ∈ documentedMethods →
        (∀ j ∈ allowed w.st.svc.denyList routers.flatten, openapiPath j.path = openapiPath i.path → j.method = i.method → j = i) →
        ∃ (relative : Str) (mains : List Str), L.rel i.file = .ok relative ∧ mains.length = routers.length ∧ ∀ (comment id : Str) (es : List Entry),
          (∀ main ∈ mains, HandlerView (E { workDir := workDirAfter getwd w.st.svc, mainPkg := main, customFuncs := w.st.svc.customFuncs })
            i.handler relative i.line comment id es) →
            ∃ op, Document.operation doc (openapiPath i.path) i.method = some op ∧
              ∀ main ∈ mains, ∀ (R : RouteEnv),
                R = E { workDir := workDirAfter getwd w.st.svc, mainPkg := main, customFuncs := w.st.svc.customFuncs } →
                ∀ file name f named ctx pkg m args n v, HandlerIs R i.handler relative i.line file name f named → ContextParam R.prog f file ctx →
                  Calls R.prog file ctx (R.prog.funcs f).body pkg m args → FormMethod m v → IsName args 0 n → n ≠ [] →
                  ((∃ x, v = .value (.one x)) ∨ ∃ c, v = .file c) →
                  (∀ pkg' m' args', Calls R.prog file ctx (R.prog.funcs f).body pkg' m' args' → m' ∈ readsForm (formTypeOf v) → FormMethod m' v ∧ IsName args' 0 n) →
                  ∃ content s, op.requestBody = some content ∧ mget content (formTypeOf v) = some s ∧
                    ∀ yaml j, ShowsMedia yaml s j → FormUnderstood doc.schemas (formTypeOf v) s j n v := by
  obtain ⟨doc, text, h3, h4, h6⟩ := run_form_exact L E hE U hL hch getwd φ w w' d hd hg hnames hc routers hin
    hroutes hnd before after o hout hown hbefore loc ho q hq hplace hU h
  refine ⟨doc, text, h3, h4, fun i hi hm huniq => ?_⟩
  obtain ⟨relative, mains, hrel, hlen, h7⟩ := h6 i hi hm huniq
  refine ⟨relative, mains, hrel, hlen, fun comment id es hv => ?_⟩
  obtain ⟨op, hop, k1, k2, _⟩ := h7 comment id es hv
  refine ⟨op, hop, ?_⟩
  rintro main hmain R rfl file name f named ctx pkg m args n v hh hp hcall hmk hname hnn hkind hone
  obtain ⟨file', name', f', named', ctx', hh', hp', han, _, _⟩ := hv main hmain
  obtain ⟨rfl, rfl, rfl⟩ := handler_unique hh hh'
  cases contextParam_unique hp hp'
  have hform : formTypeOf v ∈ [urlencodedForm, multipartForm] := by
    rcases hkind with ⟨x, rfl⟩ | ⟨c, rfl⟩ <;> simp [formTypeOf]
  have hsup : m ∈ supportedMethods := by
    rcases hkind with ⟨x, rfl⟩ | ⟨c, rfl⟩
    · unfold FormMethod at hmk; simp only [List.mem_cons, List.not_mem_nil, or_false] at hmk; rcases hmk with rfl | rfl <;> decide
    · unfold FormMethod at hmk; subst hmk; decide
  obtain ⟨e, he, hdoc⟩ := calls_documented (hno _) han hcall hsup
  obtain ⟨bp0, hbp0, hbp0c⟩ := formMethod_entry hdoc hmk
  obtain ⟨a, bp, b, e1, e2, e3⟩ := exists_last (List.mem_flatMap.mpr ⟨e, he, hbp0⟩) hbp0c
  obtain ⟨e', he', hbp⟩ := List.mem_flatMap.mp (e1 ▸ List.mem_append_right _ List.mem_cons_self : bp ∈ es.flatMap (·.body))
  have hl : LastOfType es (formTypeOf v) bp := ⟨a, b, e1, e2, e3⟩
  obtain ⟨pkg', m', args', hcall', hdoc'⟩ := entries_from_calls (hno _) han e' he'
  obtain ⟨hr, hb⟩ := form_entry_method hdoc' hbp e2 hform
  obtain ⟨q1, q2⟩ := hone pkg' m' args' hcall' hr
  have hnb : m' ∉ [c!"Bind", c!"ShouldBind"] := by
    rcases hkind with ⟨x, rfl⟩ | ⟨c, rfl⟩
    · unfold FormMethod at q1; simp only [List.mem_cons, List.not_mem_nil, or_false] at q1; rcases q1 with rfl | rfl <;> decide
    · unfold FormMethod at q1; subst q1; decide
  obtain ⟨q3, q4⟩ := hb.resolve_left hnb
  cases isName_unique q2 q3
  rcases hkind with ⟨x, rfl⟩ | ⟨c, rfl⟩
  · obtain ⟨content, s, z1, z2, z3⟩ := k1 bp hl ⟨hnn, q4⟩
    exact ⟨content, s, z1, z2, fun yaml j hj => z3 yaml j hj x⟩
  · obtain ⟨content, s, z1, z2, z3⟩ := k2 bp hl ⟨hnn, q4⟩
    exact ⟨content, s, z1, z2, fun yaml j hj => z3 yaml j hj c⟩

end Astra.Props
