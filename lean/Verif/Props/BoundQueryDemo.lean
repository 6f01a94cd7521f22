/-
C110: a run for a handler that binds structs to the query and to the header.
-/
import Verif.Props.BoundQuery
import Verif.Props.HeadersDemo

namespace Astra.Props
open Astra.Spec

/-- The text of a tag with one value. -/
def oneTag (key v : Str) : Str := key ++ (':' :: '"' :: (v ++ ['"']))

theorem oneTag_text (key v : Str) (hk : key ≠ []) (hc : ∀ c ∈ key, KeyChar c) (h : ∀ c ∈ v, c ≠ '"' ∧ c ≠ '\\' ∧ c ≠ '\n') :
    TagText (oneTag key v) [(key, v)] := by
  have := TagText.pair (spaces := []) (key := key) (rest := []) (by simp) hk hc (literal_raw v h) (.done (by simp))
  simpa [oneTag] using this

theorem formTag_text (v : Str) (h : ∀ c ∈ v, c ≠ '"' ∧ c ≠ '\\' ∧ c ≠ '\n') : TagText (oneTag c!"form" v) [(c!"form", v)] :=
  oneTag_text _ v (by simp) (by unfold KeyChar; decide) h

def termField : StructField × GoType := ({ name := c!"Term", tag := oneTag c!"form" c!"q" }, .basic .string c!"string")
def limitField : StructField × GoType := ({ name := c!"Limit", tag := oneTag c!"form" c!"limit,default=10" }, .pointer (.basic .int c!"int"))
def labelsField : StructField × GoType := ({ name := c!"Labels" }, .slice (.basic .string c!"string"))
def secretField : StructField × GoType := ({ name := c!"Secret", tag := oneTag c!"form" c!"-" }, .basic .bool c!"bool")
def noteField : StructField × GoType := ({ name := c!"note", exported := false }, .named (some shopPkg) c!"Note" [])

/-- `type Filter struct { Term string; Limit *int; Labels []string; Secret bool; note Note }`, tagged for forms. -/
def filterFields : List (StructField × GoType) := [termField, limitField, labelsField, secretField, noteField]

/-- `type Page struct { Size int; Sort string }`, one tagged for forms, the other for JSON. -/
def pageFields : List (StructField × GoType) :=
  [({ name := c!"Size", tag := oneTag c!"form" c!"size" }, .basic .int c!"int"),
   ({ name := c!"Sort", tag := oneTag c!"json" c!"sort" }, .basic .string c!"string")]

/-- `type Meta struct { Trace string }`, tagged for the header. -/
def metaFields : List (StructField × GoType) := [({ name := c!"Trace", tag := oneTag c!"header" c!"X-Trace" }, .basic .string c!"string")]

def seekEnv : TypeEnv where
  loadable := fun p => p = shopPkg
  underlying := fun _ n _ => if n = c!"Filter" then .struct filterFields else if n = c!"Page" then .struct pageFields
    else if n = c!"Meta" then .struct metaFields else .interface
  files := fun _ => [[.type none [{ name := c!"Filter" }, { name := c!"Page" }, { name := c!"Meta" }]]]
  nodeAt := fun _ _ => .other
  parseFloat := fun _ => none

def seekTypes (x : TName) : Prop := x = (shopPkg, c!"Filter", []) ∨ x = (shopPkg, c!"Page", []) ∨ x = (shopPkg, c!"Meta", [])

def filterPtr : GoType := .pointer (.named (some shopPkg) c!"Filter" [])
def pagePtr : GoType := .pointer (.named (some shopPkg) c!"Page" [])
def metaPtr : GoType := .pointer (.named (some shopPkg) c!"Meta" [])

/-- `List` calls `ShouldBindQuery(&filter)`, `BindQuery(&page)`, `BindHeader(&meta)` and `Status(204)`. -/
def seekProg : Prog :=
  { types := seekEnv, filePkg := fun _ => shopPkg
    funcs := fun f => if f = 0 then { params := fun _ => ctxParams, body := [.call 0 [], .call 1 [], .call 2 [], .call 3 []], doc := some c!"List.\n" } else {}
    view := fun _ id =>
      if id = 0 then { func := .ok (true, c!"ShouldBindQuery"), args := [{ type := .ok filterPtr }] }
      else if id = 1 then { func := .ok (true, c!"BindQuery"), args := [{ type := .ok pagePtr }] }
      else if id = 2 then { func := .ok (true, c!"BindHeader"), args := [{ type := .ok metaPtr }] }
      else if id = 3 then { func := .ok (true, c!"Status"), args := [{ value := .ok c!"204" }] }
      else {} }

def seekRoutes : RouteEnv where
  prog := seekProg
  loadable p := p = shopPkg
  fileOf _ f := if f = c!"shop.go" then some 0 else none
  decls _ := [⟨c!"List", 10, 0, []⟩]
  lowerCamel s := s

def seekLib : Lib :=
  { routerLib with parse := fun _ cs r => match parseRoute seekRoutes 3 cs r with | some x => x | none => (cs, .err []) }

theorem seekLib_byModel : ByModel seekLib (fun _ => seekRoutes) := by
  refine ⟨fun _ f hf => (by cases hf), fun ctx cs r cs' r' h => ⟨3, ?_⟩⟩
  have h : (match parseRoute seekRoutes 3 cs r with | some x => x | none => (cs, .err [])) = (cs', .ok r') := h
  cases hp : parseRoute seekRoutes 3 cs r with
  | none => rw [hp] at h; cases h
  | some x => rw [hp] at h; rw [← h]

def seekInfo : RouteInfo := ⟨c!"GET", c!"/items", c!"example.com/shop.List", c!"shop.go", 10⟩

def seekWorld : World Proc :=
  { fs := itemWorld.fs, cwd := [c!"w"]
    st := { svc := newService [.workDir c!"/w", .ginInput (some [seekInfo]), .openApiOutput c!"api.json",
      .config (some { title := c!"t", host := c!"localhost", port := 8000, basePath := c!"/" })] } }

/-! ### The structs -/

theorem formName_of {f : StructField} {pairs : List (Str × Str)} {v name : Str} {opts : List Str} (h : TagText f.tag pairs)
    (hv : tagValue pairs c!"form" = some v) (hs : split ',' v = name :: opts) (hn : name ≠ []) {k : Str} (hm : FormName f k) : k = name ∧ v ≠ c!"-" := by
  have e : ∀ {pairs' : List (Str × Str)}, TagText f.tag pairs' → tagValue pairs' c!"form" = some v := by
    intro pairs' h'
    rw [← lookup_tagValue h', lookup_tagValue h, hv]
  cases hm with
  | untagged h1 h2 => rw [e h1] at h2; cases h2
  | tagged h1 h2 h3 h4 _ =>
    rw [e h1] at h2; cases h2
    rw [hs] at h4; cases h4
    exact ⟨rfl, h3⟩
  | unnamed h1 h2 h3 =>
    rw [e h1] at h2; cases h2
    rw [hs] at h3; cases h3
    exact absurd rfl hn

theorem term_text : TagText termField.1.tag [(c!"form", c!"q")] := formTag_text c!"q" (by decide)
theorem limit_text : TagText limitField.1.tag [(c!"form", c!"limit,default=10")] := formTag_text c!"limit,default=10" (by decide)
theorem labels_text : TagText labelsField.1.tag [] := .done (by simp [labelsField])
theorem secret_text : TagText secretField.1.tag [(c!"form", c!"-")] := formTag_text c!"-" (by decide)

theorem term_name {k : Str} (h : FormName termField.1 k) : k = c!"q" :=
  (formName_of term_text rfl (opts := []) (by decide) (by decide) h).1
theorem limit_name {k : Str} (h : FormName limitField.1 k) : k = c!"limit" :=
  (formName_of limit_text rfl (opts := [c!"default=10"]) (by decide) (by decide) h).1
theorem secret_name {k : Str} (h : FormName secretField.1 k) : False :=
  (formName_of secret_text rfl (name := c!"-") (opts := []) (by decide) (by decide) h).2 rfl
theorem labels_name {k : Str} (h : FormName labelsField.1 k) : k = c!"Labels" := by
  cases h with
  | untagged _ _ => rfl
  | unnamed _ _ _ => rfl
  | tagged t e _ _ _ => rw [← lookup_tagValue t, lookup_tagValue labels_text] at e; cases e

theorem filter_struct : QueryStruct filterFields := by
  have hex : ∀ e ∈ filterFields, e.1.exported = true → e = termField ∨ e = limitField ∨ e = labelsField ∨ e = secretField := by
    intro e he hx
    simp only [filterFields, List.mem_cons, List.not_mem_nil, or_false] at he
    rcases he with h | h | h | h | rfl
    · exact Or.inl h
    · exact Or.inr (Or.inl h)
    · exact Or.inr (Or.inr (Or.inl h))
    · exact Or.inr (Or.inr (Or.inr h))
    · cases hx
  refine ⟨by decide, ?_, by decide, ?_, ?_, ?_⟩
  · intro e he hx
    rcases hex e he hx with rfl | rfl | rfl | rfl <;> decide
  · intro e he hx
    rcases hex e he hx with rfl | rfl | rfl | rfl
    · exact ⟨_, term_text, Or.inl ⟨_, rfl, Or.inr (by decide)⟩⟩
    · exact ⟨_, limit_text, Or.inl ⟨_, rfl, Or.inr (by decide)⟩⟩
    · exact ⟨_, labels_text, Or.inr (fun _ _ => rfl)⟩
    · exact ⟨_, secret_text, Or.inl ⟨_, rfl, Or.inl rfl⟩⟩
  · show List.Pairwise _ [termField, limitField, labelsField, secretField]
    simp only [List.pairwise_cons, List.mem_cons, List.not_mem_nil, or_false, List.Pairwise.nil, and_true]
    refine ⟨?_, ?_, ?_, by simp⟩
    · rintro y (rfl | rfl | rfl) k h h'
      · have e := term_name h; rw [limit_name h'] at e; exact absurd e (by decide)
      · have e := term_name h; rw [labels_name h'] at e; exact absurd e (by decide)
      · exact secret_name h'
    · rintro y (rfl | rfl) k h h'
      · have e := limit_name h; rw [labels_name h'] at e; exact absurd e (by decide)
      · exact secret_name h'
    · rintro y rfl k h h'
      exact secret_name h'
  · intro e he hx
    rcases hex e he hx with rfl | rfl | rfl | rfl
    · exact .basic (by decide)
    · exact .pointer (.basic (by decide))
    · exact .slice (by decide) (by decide)
    · exact .basic (by decide)

theorem page_struct : MixedStruct pageFields := by
  refine ⟨by decide, by decide, ?_, _, List.mem_cons_of_mem _ List.mem_cons_self, rfl, [(c!"json", c!"sort")], c!"json", ?_, by decide, by decide, by decide⟩
  · intro e he _
    simp only [pageFields, List.mem_cons, List.not_mem_nil, or_false] at he
    rcases he with rfl | rfl <;> exact .basic (by decide)
  · exact oneTag_text c!"json" c!"sort" (by simp) (by unfold KeyChar; decide) (by decide)

/-! ### The hypotheses -/

theorem seek_typed : TypedProgram (fun _ => seekRoutes) seekEnv seekTypes := by
  refine ⟨fun _ => rfl, fun _ => rfl, ?_⟩
  intro _ file id name a t x hf ha hat hx
  simp only [seekRoutes, seekProg] at ha
  by_cases h0 : id = 0
  · simp only [h0, if_true, List.mem_singleton] at ha
    subst ha
    cases hat
    cases hx with
    | pointer hx => cases hx; exact Or.inl rfl
  · by_cases h1 : id = 1
    · simp only [h1, if_true, if_neg (show ¬ (1 : Nat) = 0 by decide), List.mem_singleton] at ha
      subst ha
      cases hat
      cases hx with
      | pointer hx => cases hx; exact Or.inr (Or.inl rfl)
    · by_cases h2 : id = 2
      · simp only [h2, if_true, if_neg (show ¬ (2 : Nat) = 0 by decide), if_neg (show ¬ (2 : Nat) = 1 by decide), List.mem_singleton] at ha
        subst ha
        cases hat
        cases hx with
        | pointer hx => cases hx; exact Or.inr (Or.inr rfl)
      · by_cases h3 : id = 3
        · simp only [h3, if_true, if_neg (show ¬ (3 : Nat) = 0 by decide), if_neg (show ¬ (3 : Nat) = 1 by decide), if_neg (show ¬ (3 : Nat) = 2 by decide),
            List.mem_singleton] at ha
          subst ha
          cases hat
        · simp [h0, h1, h2, h3] at ha

theorem seek_apart (m : Str) : NamedApart seekEnv m seekTypes := by
  have hfin : finalPackage m shopPkg = c!"main" ∨ finalPackage m shopPkg = shopPkg := by
    unfold finalPackage
    split
    · exact Or.inl rfl
    · exact Or.inr rfl
  refine ⟨?_, ?_, ?_, ?_, ?_, ?_, ?_⟩
  · rintro x (rfl | rfl | rfl) y hu
    · have hu : Occurs (.struct filterFields) y := hu
      cases hu with
      | field he hx h => exact absurd h ((query_describable (Γ := seekEnv) (filter_struct.types _ he hx)).2 y)
    · have hu : Occurs (.struct pageFields) y := hu
      cases hu with
      | field he hx h => exact absurd h ((query_describable (Γ := seekEnv) (page_struct.types _ he hx)).2 y)
    · have hu : Occurs (.struct metaFields) y := hu
      cases hu with
      | field hm _ ho =>
        simp only [metaFields, List.mem_cons, Prod.mk.injEq, List.not_mem_nil, or_false] at hm
        rcases hm with ⟨_, rfl⟩
        cases ho
  · rintro x (rfl | rfl | rfl) <;>
    · refine ⟨by decide, by decide, by decide, by decide, ?_⟩
      rcases hfin with h | h <;> rw [h] <;> decide
  · rintro x (rfl | rfl | rfl) <;> decide
  · rintro x (rfl | rfl | rfl) y (rfl | rfl | rfl) _ h <;> first | rfl | exact absurd h (by decide)
  · rintro x (rfl | rfl | rfl) h <;> exact absurd h (by decide)
  · rintro x (rfl | rfl | rfl) <;> trivial
  · intro pkgs h g
    refine ⟨0, fun p hp q hq _ _ hne => absurd ?_ hne⟩
    obtain ⟨x, hx, rfl⟩ := h p hp
    obtain ⟨y, hy, rfl⟩ := h q hq
    rcases hx with rfl | rfl | rfl <;> rcases hy with rfl | rfl | rfl <;> rfl

theorem seek_target (m : Str) (n : Str) (hn : n ∈ [c!"Filter", c!"Page"]) {fs : List (StructField × GoType)} (hu : seekEnv.underlying shopPkg n [] = .struct fs) :
    StructTarget seekEnv seekWorld.st.svc.maps.merged m (.pointer (.named (some shopPkg) n [])) fs := by
  have hreg : registeredFormat seekWorld.st.svc.maps.merged (finalPackage m shopPkg) n = none := by
    unfold finalPackage
    simp only [List.mem_cons, List.not_mem_nil, or_false] at hn
    split <;> rcases hn with rfl | rfl <;> decide +kernel
  refine ⟨(shopPkg, n, []), .pointer _ _ _, ?_, hu, hreg⟩
  simp only [List.mem_cons, List.not_mem_nil, or_false] at hn
  rcases hn with rfl | rfl <;> decide

theorem seek_handler_is : HandlerIs seekRoutes c!"example.com/shop.List" c!"shop.go" 10 0 c!"List" 0 true :=
  ⟨⟨c!"example.com/shop", ⟨c!"shop", c!"List", Or.inr ⟨c!"example.com", rfl⟩, by decide, by decide, rfl, by decide, by decide, Or.inl rfl⟩, by decide +kernel⟩,
    by decide +kernel⟩

theorem seek_context : ContextParam seekProg 0 0 c!"c" := (context_parameter_found seekProg 0 0 c!"c" (by decide)).1 rfl

theorem seek_passes (id : Nat) (h : id = 0 ∨ id = 1 ∨ id = 2 ∨ id = 3) : ¬ PassesContext (seekProg.view 0 id) c!"c" := by
  rintro ⟨a, ha, hi⟩
  rcases h with rfl | rfl | rfl | rfl
  all_goals cases ha with | head => cases hi | tail _ h => cases h

theorem seek_field (t : GoType) (args : List ArgView) (ha : args[0]? = some { type := .ok t })
    (h : ((typeResult seekEnv true 3 [] (some shopPkg) [] t).map (fun x => x.2.isOk)) = some true) : ∃ f, IsField seekEnv shopPkg args 0 f := by
  cases hr : typeResult seekEnv true 3 [] (some shopPkg) [] t with
  | none => rw [hr] at h; cases h
  | some x =>
    obtain ⟨c', r⟩ := x
    cases r with
    | ok r => exact ⟨_, _, _, _, _, r, ha, rfl, ⟨3, hr⟩, rfl⟩
    | err _ => rw [hr] at h; cases h
    | panic _ => rw [hr] at h; cases h

theorem seek_view : ∃ comment id es, HandlerView seekRoutes c!"example.com/shop.List" c!"shop.go" 10 comment id es := by
  have hl : ∀ call, AllLeave seekProg c!"c" call := by intro call f hf; cases hf
  obtain ⟨f0, t0⟩ := seek_field filterPtr (seekProg.view 0 0).args rfl (by decide +kernel)
  obtain ⟨f1, t1⟩ := seek_field pagePtr (seekProg.view 0 1).args rfl (by decide +kernel)
  obtain ⟨f2, t2⟩ := seek_field metaPtr (seekProg.view 0 2).args rfl (by decide +kernel)
  exact ⟨_, _, _, 0, c!"List", 0, true, c!"c", seek_handler_is, seek_context,
    ⟨true, .context (hl _) (seek_passes 0 (by simp)) rfl (.bindQuery (by simp) t0) .nil
    (.context (hl _) (seek_passes 1 (by simp)) rfl (.bindQuery (by simp) t1) .nil
    (.context (hl _) (seek_passes 2 (by simp)) rfl (.bindHeader (by simp) t2) .nil
    (.context (hl _) (seek_passes 3 (by simp)) rfl (.status (code := 204) (by decide) ⟨_, c!"204", rfl, rfl, by decide +kernel⟩) .nil .nil)))⟩, rfl, rfl⟩

theorem seek_calls {pkg m : Str} {args : List ArgView} (h : Calls seekProg 0 c!"c" (seekProg.funcs 0).body pkg m args) :
    (m = c!"ShouldBindQuery" ∧ args = (seekProg.view 0 0).args) ∨ (m = c!"BindQuery" ∧ args = (seekProg.view 0 1).args) ∨
      m = c!"BindHeader" ∨ m = c!"Status" := by
  have h : Calls seekProg 0 c!"c" [.call 0 [], .call 1 [], .call 2 [], .call 3 []] pkg m args := h
  have name : ∀ {n : Str}, (Res.ok (true, n) : Res (Bool × Str)) = .ok (true, m) → m = n := by
    intro n h
    injection h with h
    exact (Prod.mk.inj h).2.symm
  cases h with
  | here _ hf => exact Or.inl ⟨name hf, rfl⟩
  | helper h => exact absurd h (seek_passes 0 (by simp))
  | inside _ h => cases h
  | later h =>
    cases h with
    | here _ hf => exact Or.inr (Or.inl ⟨name hf, rfl⟩)
    | helper h => exact absurd h (seek_passes 1 (by simp))
    | inside _ h => cases h
    | later h =>
      cases h with
      | here _ hf => exact Or.inr (Or.inr (Or.inl (name hf)))
      | helper h => exact absurd h (seek_passes 2 (by simp))
      | inside _ h => cases h
      | later h =>
        cases h with
        | here _ hf => exact Or.inr (Or.inr (Or.inr (name hf)))
        | helper h => exact absurd h (seek_passes 3 (by simp))
        | inside _ h => cases h
        | later h => cases h

theorem seek_binds : HandlerCallsWith seekRoutes c!"example.com/shop.List" c!"shop.go" 10 (queryBinders c!"GET") filterPtr :=
  ⟨0, c!"List", 0, true, c!"c", seek_handler_is, seek_context, shopPkg, c!"ShouldBindQuery", _, _, .here (seek_passes 0 (by simp)) rfl, by decide, rfl, rfl⟩

theorem seek_binds_only {t : GoType} (h : HandlerCallsWith seekRoutes c!"example.com/shop.List" c!"shop.go" 10
    [c!"BindQuery", c!"ShouldBindQuery", c!"Bind", c!"ShouldBind"] t) : t = filterPtr ∨ t = pagePtr := by
  obtain ⟨_, _, _, _, _, hh, hctx, pkg, m, args, a, hC, hm, ha, hat⟩ := h
  obtain ⟨rfl, rfl, rfl⟩ := handler_unique seek_handler_is hh
  have := contextParam_unique seek_context hctx
  subst this
  rcases seek_calls hC with ⟨rfl, rfl⟩ | ⟨rfl, rfl⟩ | rfl | rfl
  · cases ha; cases hat; exact Or.inl rfl
  · cases ha; cases hat; exact Or.inr rfl
  · exact absurd hm (by decide)
  · exact absurd hm (by decide)

theorem seek_names_none {methods : List Str} (hd : ∀ m ∈ methods, m ∉ [c!"ShouldBindQuery", c!"BindQuery", c!"BindHeader", c!"Status"]) {n : Str} :
    ¬ HandlerNames seekRoutes c!"example.com/shop.List" c!"shop.go" 10 methods n := by
  rintro ⟨_, _, _, _, _, pkg, m, args, hh, hctx, hC, hm, _⟩
  obtain ⟨rfl, rfl, rfl⟩ := handler_unique seek_handler_is hh
  have := contextParam_unique seek_context hctx
  subst this
  refine hd m hm ?_
  rcases seek_calls hC with ⟨rfl, _⟩ | ⟨rfl, _⟩ | rfl | rfl <;> decide

theorem seek_allowed : allowed seekWorld.st.svc.denyList [[seekInfo]].flatten = [seekInfo] := by
  show [[seekInfo]].flatten.filter _ = _
  rfl

theorem seek_ok : Astra.parseAll seekLib c!"/w" noFaults seekWorld = ((Astra.parseAll seekLib c!"/w" noFaults seekWorld).1, .ok ()) := by
  have hok : (Astra.parseAll seekLib c!"/w" noFaults seekWorld).2 = .ok () := by decide +kernel
  rw [← hok]

theorem seek_place : OwnPlace seekWorld.cwd [c!"w"] seekWorld.st.svc [] [c!"w", c!"api.json"] := by
  refine ⟨by decide, ?_, by simp⟩
  rintro ⟨h, _⟩
  cases h

/-! ### The run -/

/-- The run succeeds and meets all hypotheses: a client who says `limit=20` or `Labels=a&Labels=b` as documented is understood. C110, violated: the
handler binds `Page` too, gin looks `size` up in the query, and the operation has no parameter for it. -/
theorem seek_run : ∃ doc text, (Astra.parseAll seekLib c!"/w" noFaults seekWorld).1.fs.look [c!"w", c!"api.json"] = some (.file text) ∧
    seekLib.render false doc = .ok text ∧ ∃ op, Document.operation doc c!"/items" c!"GET" = some op ∧
      (∃ o ∈ op.parameters, o.name = c!"limit" ∧ o.loc = c!"query" ∧ ∀ yaml j, ShowsParameter yaml o j →
        FieldUnderstood doc.schemas o j limitField.2 (.num (itoa 20))) ∧
      (∃ o ∈ op.parameters, o.name = c!"Labels" ∧ o.loc = c!"query" ∧ ∀ yaml j, ShowsParameter yaml o j →
        FieldUnderstood doc.schemas o j labelsField.2 (.arr [.str c!"a", .str c!"b"])) ∧
      (∃ e ∈ pageFields, e.1.exported = true ∧ FormName e.1 c!"size") ∧
      ∀ o ∈ op.parameters, o.loc = c!"query" → o.name ∈ [c!"q", c!"limit", c!"Labels"] := by
  obtain ⟨m, _, _, doc, text, _, h1, h2, h3⟩ := run_bound_query_understood_partial seekLib (fun _ => seekRoutes) seekLib_byModel (fun _ => False)
    (fun _ _ _ => ⟨fun _ _ => rfl, id, rfl, rfl, rfl, rfl, rfl, rfl, rfl, rfl⟩) c!"/w" noFaults seekWorld _ [c!"w"]
    (Or.inr (by decide)) (by decide) item_names (by decide) [[seekInfo]] (ginInput_one rfl) rfl (by rw [seek_allowed]; unfold DistinctRoutes; decide)
    [] [] _ rfl (options_shape _).2 (by simp) 0 rfl [c!"w", c!"api.json"] (show [c!"w", c!"api.json"] = _ by decide) seek_place id
    rfl rfl (fun _ => List.Perm.refl _) (fun _ => someChoice_valid) (by decide +kernel) seekEnv seekTypes seek_typed seek_ok
  obtain ⟨relative, mains, hrel, hlen, h4⟩ := h3 (seek_apart m) seekInfo (by rw [seek_allowed]; simp) (by decide) (by
    rw [seek_allowed]; intro j hj; simp at hj; intro _ _; exact hj)
  have hrel' : relative = c!"shop.go" := by cases hrel; rfl
  subst hrel'
  obtain ⟨comment, id, es, hv⟩ := seek_view
  obtain ⟨main, hmain⟩ := List.exists_mem_of_length_pos (show 0 < mains.length by rw [hlen]; decide)
  obtain ⟨op, hop, p1, p2⟩ := h4 comment id es (fun _ _ => hv)
  have key := p1 main hmain _ _ seek_binds (seek_target m c!"Filter" (by simp) (fs := filterFields) rfl) filter_struct
  obtain ⟨o1, a1, a2, a3, a4⟩ := key limitField (by simp [filterFields]) rfl c!"limit"
    (.tagged (opts := [c!"default=10"]) limit_text rfl (by decide) (by decide) (by decide))
  obtain ⟨o2, b1, b2, b3, b4⟩ := key labelsField (by simp [filterFields]) rfl c!"Labels" (.untagged labels_text rfl)
  refine ⟨doc, text, h1, h2, op, hop, ⟨o1, a1, a2, a3, fun yaml j hj => a4 yaml j hj _ (.pointer (.integer 20 (by decide))) (by simp)⟩,
    ⟨o2, b1, b2, b3, fun yaml j hj => b4 yaml j hj _ (.slice (by rintro (h | h) <;> exact absurd h (by decide)) (by
      intro x hx; simp at hx; rcases hx with rfl | rfl <;> exact .string _)) (by simp)⟩,
    ⟨_, List.mem_cons_self, rfl, .tagged (opts := []) (formTag_text c!"size" (by decide)) rfl (by decide) (by decide) (by decide)⟩, ?_⟩
  intro o ho hl
  obtain ⟨main', _, hn | ⟨t, fs, e, hcall, htar, hqs, he, hex, hk⟩⟩ := p2 (by
    intro main' _ t ht
    rcases seek_binds_only ht with rfl | rfl
    · exact ⟨_, seek_target m c!"Filter" (by simp) (fs := filterFields) rfl, Or.inl filter_struct⟩
    · exact ⟨_, seek_target m c!"Page" (by simp) (fs := pageFields) rfl, Or.inr page_struct⟩) o ho hl
  · exact absurd hn (seek_names_none (by decide))
  · obtain ⟨x, hb, _, hu, _⟩ := htar
    rcases seek_binds_only hcall with rfl | rfl
    · cases hb
      have hu : GoType.struct filterFields = .struct fs := hu
      cases hu
      simp only [filterFields, List.mem_cons, List.not_mem_nil, or_false] at he
      rcases he with rfl | rfl | rfl | rfl | rfl
      · rw [term_name hk]; decide
      · rw [limit_name hk]; decide
      · rw [labels_name hk]; decide
      · exact (secret_name hk).elim
      · cases hex
    · cases hb
      have hu : GoType.struct pageFields = .struct fs := hu
      cases hu
      obtain ⟨pairs, ht, h⟩ := hqs.tags _ (List.mem_cons_of_mem _ List.mem_cons_self) rfl
      have hv : ∀ key, tagValue pairs key = tagValue [(c!"json", c!"sort")] key := by
        intro key
        rw [← lookup_tagValue ht, ← lookup_tagValue (f := { name := c!"Sort", tag := oneTag c!"json" c!"sort" }) (oneTag_text c!"json" c!"sort" (by simp) (by unfold KeyChar; decide) (by decide))]
      rcases h with ⟨v, hv', _⟩ | h
      · rw [hv] at hv'; cases hv'
      · have := h c!"json" (by decide)
        rw [hv] at this
        cases this

/-- C110, violated: the operation has a parameter in the header for `Meta`, which tells a client nothing. -/
theorem seek_run_headers : ∃ doc text, (Astra.parseAll seekLib c!"/w" noFaults seekWorld).1.fs.look [c!"w", c!"api.json"] = some (.file text) ∧
    seekLib.render false doc = .ok text ∧ ∃ op, Document.operation doc c!"/items" c!"GET" = some op ∧
      ∀ o ∈ op.parameters, o.loc = c!"header" → ∀ yaml j, ShowsParameter yaml o j → ∀ v, headerWritten j v = none := by
  obtain ⟨doc, text, h1, h2, h3⟩ := run_bound_headers_untold seekLib (fun _ => seekRoutes) seekLib_byModel (fun _ => False)
    (fun _ _ _ => ⟨fun _ _ => rfl, id, rfl, rfl, rfl, rfl, rfl, rfl, rfl, rfl⟩) (fun _ => someChoice_valid) c!"/w" noFaults seekWorld _ [c!"w"]
    (Or.inr (by decide)) (by decide) item_names (by decide) [[seekInfo]] (ginInput_one rfl) rfl (by rw [seek_allowed]; unfold DistinctRoutes; decide)
    [] [] _ rfl (options_shape _).2 (by simp) 0 rfl [c!"w", c!"api.json"] (show [c!"w", c!"api.json"] = _ by decide) seek_place id
    (fun _ => rfl) seek_ok
  obtain ⟨relative, mains, hrel, hlen, h4⟩ := h3 seekInfo (by rw [seek_allowed]; simp) (by decide) (by
    rw [seek_allowed]; intro j hj; simp at hj; intro _ _; exact hj)
  have hrel' : relative = c!"shop.go" := by cases hrel; rfl
  subst hrel'
  obtain ⟨comment, id, es, hv⟩ := seek_view
  obtain ⟨op, hop, p⟩ := h4 comment id es (fun _ _ => hv)
  refine ⟨doc, text, h1, h2, op, hop, fun o ho hl => ?_⟩
  rcases p o ho hl with ⟨_, _, hn⟩ | h
  · exact absurd hn (seek_names_none (by decide))
  · exact h

/-- The file of the run: three parameters in the query, and one in the header, without a name. -/
theorem seek_text :
    let text := match (Astra.parseAll seekLib c!"/w" noFaults seekWorld).1.fs.look [c!"w", c!"api.json"] with | some (.file t) => t | _ => []
    occurrences c!"\"name\": \"limit\"" text = 1 ∧ occurrences c!"\"in\": \"query\"" text = 3 ∧ occurrences c!"\"in\": \"header\"" text = 1 ∧
      occurrences c!"X-Trace" text = 1 ∧ occurrences c!"\"size\"" text = 0 := by
  refine ⟨?_, ?_, ?_, ?_, ?_⟩ <;> decide +kernel

end Astra.Props
