/-
C100: a query that a client forms from the document is read by the handler as it was meant.
-/
import Verif.Spec.Query
import Verif.Props.Sent
import Verif.Props.OpenApi

namespace Astra.Props
open Astra.Spec

/-! ### What gin reads -/

theorem valuesOf_append (a b : List (Str × Str)) (k : Str) : valuesOf (a ++ b) k = valuesOf a k ++ valuesOf b k := by
  simp [valuesOf, List.filter_append]

theorem valuesOf_other {q : List (Str × Str)} {k : Str} (h : ∀ e ∈ q, e.1 ≠ k) : valuesOf q k = [] := by
  unfold valuesOf
  rw [List.map_eq_nil_iff, List.filter_eq_nil_iff]
  intro e he
  simpa using h e he

theorem valuesOf_name (vs : List Str) (name : Str) : valuesOf (vs.map (fun v => (name, v))) name = vs := by
  unfold valuesOf
  rw [List.filter_eq_self.mpr (by intro e he; obtain ⟨v, _, rfl⟩ := List.mem_map.mp he; simp)]
  simp [Function.comp_def]

/-- The text before the first `c` is determined. -/
theorem split_first {c : Char} : ∀ {a b x y : Str}, c ∉ a → c ∉ b → a ++ c :: x = b ++ c :: y → a = b ∧ x = y
  | [], [], _, _, _, _, h => ⟨rfl, by simpa using h⟩
  | [], d :: b, _, _, _, hb, h => by
    simp only [List.nil_append, List.cons_append, List.cons.injEq] at h
    exact absurd (h.1 ▸ List.mem_cons_self) hb
  | d :: a, [], _, _, ha, _, h => by
    simp only [List.nil_append, List.cons_append, List.cons.injEq] at h
    exact absurd (h.1 ▸ List.mem_cons_self) ha
  | d :: a, d' :: b, _, _, ha, hb, h => by
    simp only [List.cons_append, List.cons.injEq] at h
    obtain ⟨h1, h2⟩ := split_first (fun h => ha (List.mem_cons_of_mem _ h)) (fun h => hb (List.mem_cons_of_mem _ h)) h.2
    exact ⟨by rw [h.1, h1], h2⟩

theorem inBrackets_eq (name k : Str) (r : Str) : inBrackets name k ++ r = name ++ '[' :: (k ++ ']' :: r) := by
  simp [inBrackets]

theorem entryKey_inBrackets {name k k' : Str} (h : EntryKey name k (inBrackets name k')) (hk' : ']' ∉ k') : k = k' := by
  obtain ⟨_, hn, _, hk, r, hr⟩ := h
  rw [inBrackets_eq, ← List.append_nil (inBrackets name k'), inBrackets_eq] at hr
  exact (split_first hk hk' (split_first hn hn hr).2).1

theorem entryKey_self {name k : Str} (hn : ParameterName name) (hk : k ≠ []) (hk' : ']' ∉ k) : EntryKey name k (inBrackets name k) :=
  ⟨hn.1, hn.2, hk, hk', List.prefix_refl _⟩

theorem entryKey_other {name k : Str} {q : List (Str × Str)} (hq : OtherPairs name q) {e : Str × Str} (he : e ∈ q) : ¬ EntryKey name k e.1 := by
  rintro ⟨_, _, _, _, r, hr⟩
  refine (hq e he).2 ⟨k ++ ']' :: r, ?_⟩
  rw [← hr, inBrackets_eq]
  simp

theorem inBrackets_inj {name k k' : Str} (h : inBrackets name k = inBrackets name k') : k = k' := by
  simpa [inBrackets] using h

theorem valuesOf_table {name : Str} : ∀ {kvs : List (Str × Str)}, (kvs.map (·.1)).Nodup → ∀ {e : Str × Str}, e ∈ kvs →
    valuesOf (kvs.map (fun e => (inBrackets name e.1, e.2))) (inBrackets name e.1) = [e.2]
  | [], _, e, he => nomatch he
  | x :: kvs, hnd, e, he => by
    rw [List.map_cons, List.nodup_cons] at hnd
    rw [List.map_cons, ← List.singleton_append, valuesOf_append]
    rcases List.mem_cons.mp he with rfl | he
    · rw [valuesOf_other (q := kvs.map _)]
      · simp [valuesOf]
      · intro f hf heq
        obtain ⟨g, hg, rfl⟩ := List.mem_map.mp hf
        exact hnd.1 (inBrackets_inj heq ▸ List.mem_map.mpr ⟨g, hg, rfl⟩)
    · rw [valuesOf_table hnd.2 he, valuesOf_other]
      · rfl
      · intro f hf heq
        rw [List.mem_singleton] at hf
        subst hf
        exact hnd.1 (inBrackets_inj heq ▸ List.mem_map.mpr ⟨e, he, rfl⟩)

theorem fst_ne_of_other {name : Str} {q : List (Str × Str)} (hq : OtherPairs name q) (k : Str) : ∀ e ∈ q, e.1 ≠ inBrackets name k := by
  intro e he h
  refine (hq e he).2 ⟨k ++ [']'], ?_⟩
  rw [h]
  simp [inBrackets]

theorem nodup_fst {kvs : List (Str × Str)} (h : (kvs.map (·.1)).Nodup) {k v v' : Str} (h1 : (k, v) ∈ kvs) (h2 : (k, v') ∈ kvs) : v = v' := by
  induction kvs with
  | nil => cases h1
  | cons x kvs ih =>
    rw [List.map_cons, List.nodup_cons] at h
    rcases List.mem_cons.mp h1 with h3 | h3 <;> rcases List.mem_cons.mp h2 with h4 | h4
    · rw [← h3] at h4; cases h4; rfl
    · subst h3; exact absurd (List.mem_map.mpr ⟨(k, v'), h4, rfl⟩ : k ∈ kvs.map (·.1)) h.1
    · subst h4; exact absurd (List.mem_map.mpr ⟨(k, v), h3, rfl⟩ : k ∈ kvs.map (·.1)) h.1
    · exact ih h.2 h3 h4

/-- The style that gin understands. -/
def ginStyle : QueryValue → Str
  | .table _ => c!"deepObject"
  | _ => c!"form"

/-- The pairs in the styles that gin understands are read as the value, among the pairs of other parameters. -/
theorem read_back {name : Str} (hn : ParameterName name) {v : QueryValue} (hv : Writable v) {pairs : List (Str × Str)}
    (hp : written (ginStyle v) true name v = some pairs)
    {before after : List (Str × Str)} (hb : OtherPairs name before) (ha : OtherPairs name after) :
    Reads (before ++ pairs ++ after) name v ∧
    ∀ v', Reads (before ++ pairs ++ after) name v' → SameKind v v' → SameValue v v' := by
  have hval : ∀ key, (∀ e ∈ before, e.1 ≠ key) → (∀ e ∈ after, e.1 ≠ key) → valuesOf (before ++ pairs ++ after) key = valuesOf pairs key := by
    intro key h1 h2
    rw [valuesOf_append, valuesOf_append, valuesOf_other h1, valuesOf_other h2]
    simp
  have hname := hval name (fun e he => (hb e he).1) (fun e he => (ha e he).1)
  cases v with
  | one v =>
    simp only [written, ginStyle, if_true, Option.some.injEq] at hp
    subst hp
    rw [show [(name, v)] = [v].map (fun v => (name, v)) from rfl, valuesOf_name] at hname
    refine ⟨(congrArg (fun l : List Str => l.head?.getD []) hname : _), ?_⟩
    intro v' hr hk
    cases v' with
    | one x => simp only [Reads, List.map_cons, List.map_nil] at hr hname; rw [hname] at hr; simp at hr; rw [hr]; exact rfl
    | many => exact hk.elim
    | table => exact hk.elim
  | many vs =>
    simp only [written, ginStyle, if_true, Option.some.injEq] at hp
    subst hp
    rw [valuesOf_name] at hname
    refine ⟨hname, ?_⟩
    intro v' hr hk
    cases v' with
    | one x => exact hk.elim
    | many xs => have hr : valuesOf _ _ = xs := hr; rw [hname] at hr; rw [hr]; exact rfl
    | table => exact hk.elim
  | table kvs =>
    have hne : ¬ (c!"deepObject" : Str) = c!"form" := by decide
    simp only [written, ginStyle, if_neg hne, and_self, if_true, Option.some.injEq] at hp
    subst hp
    obtain ⟨hnd, hks⟩ := hv
    have hkey : ∀ k, (∃ e ∈ before ++ kvs.map (fun e => (inBrackets name e.1, e.2)) ++ after, EntryKey name k e.1) ↔ k ∈ kvs.map (·.1) := by
      intro k
      constructor
      · rintro ⟨e, he, hk⟩
        rcases List.mem_append.mp he with he | he
        · rcases List.mem_append.mp he with he | he
          · exact absurd hk (entryKey_other hb he)
          · obtain ⟨f, hf, rfl⟩ := List.mem_map.mp he
            rw [entryKey_inBrackets hk (hks f hf).2]
            exact List.mem_map.mpr ⟨f, hf, rfl⟩
        · exact absurd hk (entryKey_other ha he)
      · intro hk
        obtain ⟨f, hf, rfl⟩ := List.mem_map.mp hk
        exact ⟨_, List.mem_append_left _ (List.mem_append_right _ (List.mem_map.mpr ⟨f, hf, rfl⟩)), entryKey_self hn (hks f hf).1 (hks f hf).2⟩
    have hent : ∀ e ∈ kvs, valuesOf (before ++ kvs.map (fun e => (inBrackets name e.1, e.2)) ++ after) (inBrackets name e.1) = [e.2] := by
      intro e he
      rw [hval _ (fst_ne_of_other hb _) (fst_ne_of_other ha _), valuesOf_table hnd he]
    refine ⟨⟨hnd, fun k => (hkey k).symm, fun e he => ⟨_, entryKey_self hn (hks e he).1 (hks e he).2, by rw [hent e he]; rfl⟩⟩, ?_⟩
    intro v' hr hk
    cases v' with
    | one x => exact hk.elim
    | many => exact hk.elim
    | table kvs' =>
      obtain ⟨hnd', hr1, hr2⟩ := hr
      have hsub : ∀ e ∈ kvs', e ∈ kvs := by
        rintro ⟨k, x⟩ he
        obtain ⟨key, hkk, hx⟩ := hr2 _ he
        have hx' := List.mem_of_head? hx
        obtain ⟨⟨key', x'⟩, hm, hxx⟩ := List.mem_map.mp hx'
        rw [List.mem_filter] at hm
        obtain ⟨hm, hkey'⟩ := hm
        simp only [decide_eq_true_eq] at hkey' hxx
        subst hkey' hxx
        rcases List.mem_append.mp hm with hm | hm
        · rcases List.mem_append.mp hm with hm | hm
          · exact absurd hkk (entryKey_other hb hm)
          · obtain ⟨f, hf, hfe⟩ := List.mem_map.mp hm
            cases hfe
            have := entryKey_inBrackets hkk (hks f hf).2
            simp only at this
            subst this
            exact hf
        · exact absurd hkk (entryKey_other ha hm)
      rintro ⟨k, x⟩
      refine ⟨fun he => ?_, fun he => hsub _ he⟩
      have hk' : k ∈ kvs'.map (·.1) := (hr1 k).mpr ((hkey k).mpr (List.mem_map.mpr ⟨_, he, rfl⟩))
      obtain ⟨⟨k', x'⟩, he', hkk⟩ := List.mem_map.mp hk'
      simp only at hkk
      subst hkk
      rw [nodup_fst hnd he (hsub _ he')]
      exact he'

/-! ### The parameter object -/

/-- A parameter of the kind in the document: a table is exploded and in the style `deepObject`; everything else is in the style `form`, and the
file does not say whether it is exploded, so it is. -/
theorem styles_shown {yaml : Bool} {o : OParam} {j : Json} (h : ShowsParameter yaml o j) (hname : o.name ≠ [])
    (hs : (o.schema.type = c!"object" → o.style = c!"deepObject" ∧ o.explode = true) ∧
      (o.schema.type ≠ c!"object" → o.style = c!"form" ∧ o.explode = false)) :
    keyOf j c!"name" = some (.str o.name) ∧ explodeOf j = true ∧
      styleOf j = if o.schema.type = c!"object" then c!"deepObject" else c!"form" := by
  obtain ⟨_, h1, _, _, h4, h5, _⟩ := h
  unfold ShowsText at h1 h4
  unfold ShowsFlag at h5
  rw [if_neg hname] at h1
  refine ⟨h1, ?_, ?_⟩
  · unfold explodeOf styleOf
    by_cases ht : o.schema.type = c!"object"
    · rw [h5, (hs.1 ht).2]; rfl
    · rw [h5, (hs.2 ht).2, h4, (hs.2 ht).1]; rfl
  · unfold styleOf
    by_cases ht : o.schema.type = c!"object"
    · rw [h4, (hs.1 ht).1, if_pos ht]; rfl
    · rw [h4, (hs.2 ht).1, if_neg ht]; rfl

theorem admits_string (schemas : List (Str × Schema)) (v : Str) : Admits schemas { type := c!"string" } (.str v) :=
  .here rfl (Or.inr (Or.inl ⟨rfl, _, rfl⟩)) (Or.inl rfl) (by intro i xs h; cases h) (by intro ms k x t h; cases h) (by intro a ms k x h; cases h)
    (by intro t ht; cases ht)

theorem kind_admitted (schemas : List (Str × Schema)) {p : Param} {v : QueryValue} (h : ReadAs p v) : Admits schemas (stringSchema p) v.json := by
  cases v with
  | one v =>
    have : stringSchema p = { type := c!"string" } := by unfold stringSchema; rw [h.1, h.2]; rfl
    rw [this]
    exact admits_string schemas v
  | many vs =>
    have : stringSchema p = { type := c!"array", items := some { type := c!"string" } } := by
      unfold stringSchema; rw [show p.isArray = true from h]; rfl
    rw [this]
    refine .here rfl (by unfold HasJsonType; exact Or.inr (Or.inr (Or.inr (Or.inr (Or.inr (Or.inl ⟨rfl, _, rfl⟩)))))) (Or.inl rfl) ?_
      (by intro ms k x t h; cases h) (by intro a ms k x h; cases h) (by intro t ht; cases ht)
    intro i xs hi hx x hxs
    cases hi
    cases hx
    obtain ⟨y, _, rfl⟩ := List.mem_map.mp hxs
    exact admits_string schemas y
  | table kvs =>
    have : stringSchema p = { type := c!"object", additionalProperties := some { type := c!"string" } } := by
      unfold stringSchema; rw [h.1, h.2]; rfl
    rw [this]
    refine .here rfl (by unfold HasJsonType; exact Or.inr (Or.inr (Or.inr (Or.inr (Or.inr (Or.inr ⟨rfl, _, rfl⟩)))))) (Or.inl rfl)
      (by intro i xs h; cases h) (by intro ms k x t _ _ h; cases h) ?_ (by intro t ht; cases ht)
    intro a ms k x ha hm hx _
    cases ha
    cases hm
    obtain ⟨e, _, he⟩ := List.mem_map.mp hx
    cases he
    exact admits_string schemas e.2

/-- C100 for one parameter: as `query_parameter_style` says it is documented, and shown in a file, it is understood. -/
theorem parameter_understood (schemas : List (Str × Schema)) {yaml : Bool} {o : OParam} {j : Json} (h : ShowsParameter yaml o j) {p : Param}
    (hsch : o.schema = stringSchema p) (hn : ParameterName o.name)
    (hs : (o.schema.type = c!"object" → o.style = c!"deepObject" ∧ o.explode = true) ∧
      (o.schema.type ≠ c!"object" → o.style = c!"form" ∧ o.explode = false))
    {v : QueryValue} (hk : ReadAs p v) (hv : Writable v) : Understood schemas o j v := by
  refine ⟨by rw [hsch]; exact kind_admitted schemas hk, ?_⟩
  obtain ⟨h1, h2, h3⟩ := styles_shown h hn.1 hs
  have hst : styleOf j = ginStyle v := by
    rw [h3, hsch]
    cases v with
    | one v => unfold stringSchema; rw [hk.1, hk.2]; rfl
    | many vs => unfold stringSchema; rw [show p.isArray = true from hk]; rfl
    | table kvs => unfold stringSchema; rw [hk.1, hk.2]; rfl
  have hw : ∃ pairs, written (ginStyle v) true o.name v = some pairs := by
    cases v with
    | one v => exact ⟨_, rfl⟩
    | many vs => exact ⟨_, rfl⟩
    | table kvs => exact ⟨_, rfl⟩
  obtain ⟨pairs, hw⟩ := hw
  refine ⟨pairs, ?_, fun before after hb ha => read_back hn hv hw hb ha⟩
  unfold writtenBy
  rw [h1, h2, hst]
  exact hw

/-! ### A run -/

/-- C100: a service with gin routers and an OpenAPI output, as in C83, and a run that succeeds. For each entry of a context call of the handler,
as the analysis sees it, that reads a query parameter by name: the operation has a parameter of this name in the query, and a client who has
the parameter object of the file is understood. -/
theorem run_query_understood (L : Lib) (E : ParseCtx → RouteEnv) (hE : ByModel L E) (U : FPath → Prop) (hL : Tame L U)
    (hch : ∀ n, ValidChoice (L.choices.route n)) (getwd : Str) (φ : Faults)
    (w w' : World Proc) (d : FPath)
    (hd : DirAt w.cwd w.st.svc.workDir d) (hg : resolve w.cwd getwd = some w.cwd) (hnames : ProperNames w.fs) (hc : ∀ x ∈ w.cwd, '/' ∉ x)
    (routers : List (List RouteInfo)) (hin : Each GinInput w.st.svc.inputs routers) (hroutes : w.st.svc.routes = [])
    (hnd : DistinctRoutes (allowed w.st.svc.denyList routers.flatten))
    (before after : List Output) (o : Output) (hout : w.st.svc.outputs = before ++ o :: after) (hown : OwnCells w.st.svc.outputs)
    (hbefore : ∀ b ∈ before, Plain b) (loc : Nat) (ho : o.generate = .openapi loc) (q : FPath) (hq : OutputPlace d w.st.svc o.generate q)
    (hplace : OwnPlace w.cwd d w.st.svc after q) (hU : ¬ U q)
    (h : Astra.parseAll L getwd φ w = (w', .ok ())) :
    ∃ doc text, w'.fs.look q = some (.file text) ∧
      L.render (isYaml (withExtension [c!".json", c!".yaml", c!".yml"] (w.st.svc.cells.getD loc []))) doc = .ok text ∧
      ∀ i ∈ allowed w.st.svc.denyList routers.flatten, i.method ∈ documentedMethods →
        (∀ j ∈ allowed w.st.svc.denyList routers.flatten, openapiPath j.path = openapiPath i.path → j.method = i.method → j = i) →
        ∃ (relative : Str) (mains : List Str), L.rel i.file = .ok relative ∧ mains.length = routers.length ∧ ∀ (comment id : Str) (es : List Entry),
          (∀ main ∈ mains, HandlerView (E { workDir := workDirAfter getwd w.st.svc, mainPkg := main, customFuncs := w.st.svc.customFuncs })
            i.handler relative i.line comment id es) →
            ∃ op, Document.operation doc (openapiPath i.path) i.method = some op ∧
              ∀ e ∈ es, ∀ p ∈ e.queryParams, p.isBound = false → ParameterName p.name →
                ∃ o ∈ op.parameters, o.name = p.name ∧ o.loc = c!"query" ∧
                  ∀ yaml j, ShowsParameter yaml o j → ∀ v, ReadAs p v → Writable v → Understood doc.schemas o j v := by
  obtain ⟨doc, text, h3, h4, h6⟩ := run_stage L E hE U hL hch getwd φ w w' d hd hg hnames hc routers hin
    hroutes hnd before after o hout hown hbefore loc ho q hq hplace hU h
  refine ⟨doc, text, h3, h4, fun i hi hm huniq => ?_⟩
  obtain ⟨relative, mains, hrel, hlen, h7⟩ := h6 i hi hm huniq
  refine ⟨relative, mains, hrel, hlen, fun comment id es hv => ?_⟩
  obtain ⟨SE, cs, ch, m, r', hc', hpos, S, ⟨_, _, _, _, han⟩, hop⟩ := h7 comment id es hv
  obtain ⟨n, hn⟩ : ∃ n, routers.length = n + 1 := ⟨routers.length - 1, by omega⟩
  rw [hn] at S
  obtain ⟨s1, _⟩ := document_shows SE cs ch hc' m es i.path n r' S.gathered (analysed_unbound han)
  refine ⟨_, hop, fun e he p hp hb hpn => ?_⟩
  obtain ⟨o, ho, ho1, ho2, ho3⟩ := (s1 e he).query p hp hb
  refine ⟨o, ho, ho1, ho2, fun yaml j hj v hk hv => ?_⟩
  exact parameter_understood doc.schemas hj ho3 (by rw [ho1]; exact hpn) (query_parameter_style SE cs ch hc' _ o ho ho2) hk hv

/-! ### The calls of the handler -/

/-- Every call of a supported method is documented by an entry. -/
theorem calls_documented {P : Prog} (hno : P.customs = []) {file : FileId} {ctx : Str} {nodes : List Node} {es : List Entry}
    (h : Analysed P file ctx nodes es) : ∀ {pkg m : Str} {args : List ArgView}, Calls P file ctx nodes pkg m args → m ∈ supportedMethods →
      ∃ e ∈ es, Documented P.types pkg args m e := by
  obtain ⟨b, h⟩ := h
  generalize true = b0 at h
  induction h with
  | nil => intro _ _ _ h; nomatch h
  | unresolved hl hp hf _ ih =>
    intro _ _ _ h hs
    cases h with
    | here _ h => rw [hf] at h; cases h
    | helper h => exact absurd h hp
    | inside h => exact absurd h (unresolved_not_followed hl hp hf)
    | later h => exact ih h hs
  | lost hl hp ht _ _ ih =>
    intro _ _ _ h hs
    cases h with
    | here h => exact absurd hp h
    | helper _ h => rw [ht] at h; cases h
    | inside h => exact absurd h (lost_not_followed hl hp ht)
    | later h => exact ih h hs
  | noContext hl hp ht hfile hn _ ih =>
    intro _ _ _ h hs
    cases h with
    | here h => exact absurd hp h
    | helper _ h hc => rw [ht] at h; cases h; rw [hfile] at hc; exact absurd hn (context_or_not hc)
    | inside h => exact absurd h (noContext_not_followed hl hp ht hfile hn)
    | later h => exact ih h hs
  | brokenHelper hl hp ht hfile hc h0 _ ih0 ih =>
    intro _ _ _ h hs
    cases h with
    | here h => exact absurd hp h
    | helper _ h4 h5 h6 =>
      rw [ht] at h4
      cases h4
      rw [hfile] at h5 h6
      cases contextParam_unique hc h5
      obtain ⟨e, he, hd⟩ := ih0 h6 hs
      exact ⟨e, List.mem_append_left _ he, hd⟩
    | inside h => exact absurd h (broken_not_followed hl hp ht hfile hc (changes_of_analysed h0))
    | later h => obtain ⟨e, he, hd⟩ := ih h hs; exact ⟨e, List.mem_append_right _ he, hd⟩
  | other _ _ ih1 ih2 =>
    intro _ _ _ h hs
    cases h with
    | under h => obtain ⟨e, he, hd⟩ := ih1 h hs; exact ⟨e, List.mem_append_left _ he, hd⟩
    | later h => obtain ⟨e, he, hd⟩ := ih2 h hs; exact ⟨e, List.mem_append_right _ he, hd⟩
  | custom hc => exact absurd hc (no_customs_take hno)
  | helper _ hp ht hc _ _ _ ih0 ih1 ih2 =>
    intro _ _ _ h hs
    cases h with
    | here h => exact absurd hp h
    | helper _ h4 h5 h6 =>
      rw [ht] at h4
      cases h4
      cases contextParam_unique hc h5
      obtain ⟨e, he, hd⟩ := ih0 h6 hs
      exact ⟨e, by simp [he], hd⟩
    | inside _ h => obtain ⟨e, he, hd⟩ := ih1 h hs; exact ⟨e, by simp [he], hd⟩
    | later h => obtain ⟨e, he, hd⟩ := ih2 h hs; exact ⟨e, by simp [he], hd⟩
  | plain _ hp hf _ _ ih1 ih2 =>
    intro _ _ _ h hs
    cases h with
    | here _ h => rw [hf] at h; cases h
    | helper h => exact absurd h hp
    | inside _ h => obtain ⟨e, he, hd⟩ := ih1 h hs; exact ⟨e, List.mem_append_left _ he, hd⟩
    | later h => obtain ⟨e, he, hd⟩ := ih2 h hs; exact ⟨e, List.mem_append_right _ he, hd⟩
  | unsupported _ hp hf hm _ _ ih1 ih2 =>
    intro _ _ _ h hs
    cases h with
    | here _ h => rw [hf] at h; cases h; exact absurd hs hm
    | helper h => exact absurd h hp
    | inside _ h => obtain ⟨e, he, hd⟩ := ih1 h hs; exact ⟨e, List.mem_append_left _ he, hd⟩
    | later h => obtain ⟨e, he, hd⟩ := ih2 h hs; exact ⟨e, List.mem_append_right _ he, hd⟩
  | context _ hp hf hd _ _ ih1 ih2 =>
    intro _ _ _ h hs
    cases h with
    | here _ h => rw [hf] at h; cases h; exact ⟨_, by simp, hd⟩
    | helper h => exact absurd h hp
    | inside _ h => obtain ⟨e, he, hd⟩ := ih1 h hs; exact ⟨e, by simp [he], hd⟩
    | later h => obtain ⟨e, he, hd⟩ := ih2 h hs; exact ⟨e, by simp [he], hd⟩

theorem queryMethods_supported {m : Str} {v : QueryValue} (h : MethodKind m v) : m ∈ supportedMethods := by
  cases v <;> (unfold MethodKind at h; simp only [List.mem_cons, List.not_mem_nil, or_false] at h; rcases h with rfl | rfl <;> decide)

theorem queryMethod_entry {Γ : TypeEnv} {pkg m : Str} {args : List ArgView} {e : Entry} (hd : Documented Γ pkg args m e) {v : QueryValue}
    (h : MethodKind m v) : ∃ p ∈ e.queryParams, p.isBound = false ∧ ReadAs p v ∧ IsName args 0 p.name := by
  have hm : m ∈ [c!"Query", c!"GetQuery", c!"QueryArray", c!"GetQueryArray", c!"QueryMap", c!"GetQueryMap"] := by
    cases v <;> (unfold MethodKind at h; simp only [List.mem_cons, List.not_mem_nil, or_false] at h; rcases h with rfl | rfl <;> decide)
  cases hd with
  | query k hn =>
    refine ⟨_, List.mem_singleton.mpr rfl, rfl, ?_, hn⟩
    cases v with
    | one v => exact ⟨rfl, rfl⟩
    | many vs => simp only [List.mem_cons, List.not_mem_nil, or_false] at k; rcases k with rfl | rfl <;> (simp only [MethodKind] at h; exact absurd h (by decide))
    | table kvs => simp only [List.mem_cons, List.not_mem_nil, or_false] at k; rcases k with rfl | rfl <;> (simp only [MethodKind] at h; exact absurd h (by decide))
  | queryArray k hn =>
    refine ⟨_, List.mem_singleton.mpr rfl, rfl, ?_, hn⟩
    cases v with
    | one v => simp only [List.mem_cons, List.not_mem_nil, or_false] at k; rcases k with rfl | rfl <;> (simp only [MethodKind] at h; exact absurd h (by decide))
    | many vs => exact rfl
    | table kvs => simp only [List.mem_cons, List.not_mem_nil, or_false] at k; rcases k with rfl | rfl <;> (simp only [MethodKind] at h; exact absurd h (by decide))
  | queryMap k hn =>
    refine ⟨_, List.mem_singleton.mpr rfl, rfl, ?_, hn⟩
    cases v with
    | one v => simp only [List.mem_cons, List.not_mem_nil, or_false] at k; rcases k with rfl | rfl <;> (simp only [MethodKind] at h; exact absurd h (by decide))
    | many vs => simp only [List.mem_cons, List.not_mem_nil, or_false] at k; rcases k with rfl | rfl <;> (simp only [MethodKind] at h; exact absurd h (by decide))
    | table kvs => exact ⟨rfl, rfl⟩
  | xml => exact absurd hm (by decide)
  | yaml => exact absurd hm (by decide)
  | protobuf => exact absurd hm (by decide)
  | string => exact absurd hm (by decide)
  | formFile => exact absurd hm (by decide)
  | getHeader => exact absurd hm (by decide)
  | header => exact absurd hm (by decide)
  | status k => simp only [List.mem_cons, List.not_mem_nil, or_false] at k; rcases k with rfl | rfl | rfl <;> exact absurd hm (by decide)
  | json k => simp only [List.mem_cons, List.not_mem_nil, or_false] at k; rcases k with rfl | rfl <;> exact absurd hm (by decide)
  | bindQuery k => simp only [List.mem_cons, List.not_mem_nil, or_false] at k; rcases k with rfl | rfl <;> exact absurd hm (by decide)
  | bind k => simp only [List.mem_cons, List.not_mem_nil, or_false] at k; rcases k with rfl | rfl <;> exact absurd hm (by decide)
  | bindJSON k => simp only [List.mem_cons, List.not_mem_nil, or_false] at k; rcases k with rfl | rfl <;> exact absurd hm (by decide)
  | bindXML k => simp only [List.mem_cons, List.not_mem_nil, or_false] at k; rcases k with rfl | rfl <;> exact absurd hm (by decide)
  | bindYAML k => simp only [List.mem_cons, List.not_mem_nil, or_false] at k; rcases k with rfl | rfl <;> exact absurd hm (by decide)
  | postForm k => simp only [List.mem_cons, List.not_mem_nil, or_false] at k; rcases k with rfl | rfl <;> exact absurd hm (by decide)
  | postFormArray k => simp only [List.mem_cons, List.not_mem_nil, or_false] at k; rcases k with rfl | rfl <;> exact absurd hm (by decide)
  | postFormMap k => simp only [List.mem_cons, List.not_mem_nil, or_false] at k; rcases k with rfl | rfl <;> exact absurd hm (by decide)
  | bindHeader k => simp only [List.mem_cons, List.not_mem_nil, or_false] at k; rcases k with rfl | rfl <;> exact absurd hm (by decide)

/-- C100 for the calls: as `run_query_understood`, for a service without custom functions, and said about the calls in the source of the handler
and of the helpers it passes the context to. Whatever value a client means, if one of the calls reads values of its kind by the name `n`, then
the operation has a parameter `n` in the query, and a client who has its object in the file is understood. -/
theorem run_query_calls_understood (L : Lib) (E : ParseCtx → RouteEnv) (hE : ByModel L E) (U : FPath → Prop) (hL : Tame L U)
    (hch : ∀ n, ValidChoice (L.choices.route n)) (getwd : Str) (φ : Faults)
    (w w' : World Proc) (d : FPath)
    (hd : DirAt w.cwd w.st.svc.workDir d) (hg : resolve w.cwd getwd = some w.cwd) (hnames : ProperNames w.fs) (hc : ∀ x ∈ w.cwd, '/' ∉ x)
    (routers : List (List RouteInfo)) (hin : Each GinInput w.st.svc.inputs routers) (hroutes : w.st.svc.routes = [])
    (hnd : DistinctRoutes (allowed w.st.svc.denyList routers.flatten))
    (before after : List Output) (o : Output) (hout : w.st.svc.outputs = before ++ o :: after) (hown : OwnCells w.st.svc.outputs)
    (hbefore : ∀ b ∈ before, Plain b) (loc : Nat) (ho : o.generate = .openapi loc) (q : FPath) (hq : OutputPlace d w.st.svc o.generate q)
    (hplace : OwnPlace w.cwd d w.st.svc after q) (hU : ¬ U q) (hno : ∀ ctx, (E ctx).prog.customs = [])
    (h : Astra.parseAll L getwd φ w = (w', .ok ())) :
    ∃ doc text, w'.fs.look q = some (.file text) ∧
      L.render (isYaml (withExtension [c!".json", c!".yaml", c!".yml"] (w.st.svc.cells.getD loc []))) doc = .ok text ∧
      ∀ i ∈ allowed w.st.svc.denyList routers.flatten, i.method ∈ documentedMethods →
        (∀ j ∈ allowed w.st.svc.denyList routers.flatten, openapiPath j.path = openapiPath i.path → j.method = i.method → j = i) →
        ∃ (relative : Str) (mains : List Str), L.rel i.file = .ok relative ∧ mains.length = routers.length ∧ ∀ (comment id : Str) (es : List Entry),
          (∀ main ∈ mains, HandlerView (E { workDir := workDirAfter getwd w.st.svc, mainPkg := main, customFuncs := w.st.svc.customFuncs })
            i.handler relative i.line comment id es) →
            ∃ op, Document.operation doc (openapiPath i.path) i.method = some op ∧
              ∀ main ∈ mains, ∀ (R : RouteEnv),
                R = E { workDir := workDirAfter getwd w.st.svc, mainPkg := main, customFuncs := w.st.svc.customFuncs } →
                ∀ file name f named ctx pkg m args n v, HandlerIs R i.handler relative i.line file name f named → ContextParam R.prog f file ctx →
                  Calls R.prog file ctx (R.prog.funcs f).body pkg m args → MethodKind m v → IsName args 0 n → ParameterName n → Writable v →
                  ∃ o ∈ op.parameters, o.name = n ∧ o.loc = c!"query" ∧ ∀ yaml j, ShowsParameter yaml o j → Understood doc.schemas o j v := by
  obtain ⟨doc, text, h3, h4, h6⟩ := run_query_understood L E hE U hL hch getwd φ w w' d hd hg hnames hc routers hin
    hroutes hnd before after o hout hown hbefore loc ho q hq hplace hU h
  refine ⟨doc, text, h3, h4, fun i hi hm huniq => ?_⟩
  obtain ⟨relative, mains, hrel, hlen, h7⟩ := h6 i hi hm huniq
  refine ⟨relative, mains, hrel, hlen, fun comment id es hv => ?_⟩
  obtain ⟨op, hop, h8⟩ := h7 comment id es hv
  refine ⟨op, hop, ?_⟩
  rintro main hmain R rfl file name f named ctx pkg m args n v hh hp hcall hmk hname hpn hw
  obtain ⟨file', name', f', named', ctx', hh', hp', han, _, _⟩ := hv main hmain
  obtain ⟨rfl, rfl, rfl⟩ := handler_unique hh hh'
  cases contextParam_unique hp hp'
  obtain ⟨e, he, hdoc⟩ := calls_documented (hno _) han hcall (queryMethods_supported hmk)
  obtain ⟨p, hp1, hp2, hp3, hp4⟩ := queryMethod_entry hdoc hmk
  have hnn : p.name = n := by
    obtain ⟨a, ha, hav⟩ := hp4
    obtain ⟨a', ha', hav'⟩ := hname
    rw [ha] at ha'
    cases ha'
    rw [hav] at hav'
    cases hav'
    rfl
  subst hnn
  obtain ⟨o, ho, ho1, ho2, ho3⟩ := h8 e he p hp1 hp2 hpn
  exact ⟨o, ho, ho1, ho2, fun yaml j hj => ho3 yaml j hj v hp3 hw⟩

/-! ### What the file does not say -/

/-- C100 depends on what the file leaves out. Astra documents arrays as not exploded (C57), and its source says that comma separated values are
meant. If the file said so, gin would read the list `x`, `y` as the list of the one text `x,y`. The file does not say it, because a flag that is
false is left out, and the standard then takes the parameter as exploded. -/
theorem comma_separated_misread (name : Str) :
    written c!"form" false name (.many [c!"x", c!"y"]) = some [(name, c!"x,y")] ∧
    Reads [(name, c!"x,y")] name (.many [c!"x,y"]) ∧ ¬ Reads [(name, c!"x,y")] name (.many [c!"x", c!"y"]) ∧
    written c!"form" true name (.many [c!"x", c!"y"]) = some [(name, c!"x"), (name, c!"y")] ∧
    Reads [(name, c!"x"), (name, c!"y")] name (.many [c!"x", c!"y"]) := by
  refine ⟨rfl, ?_, ?_, rfl, ?_⟩
  · simp [Reads, valuesOf]
  · simp [Reads, valuesOf]
  · simp [Reads, valuesOf]

end Astra.Props
