/-
C114: a run for a handler that answers in several formats.
-/
import Verif.Props.MediaTypes
import Verif.Props.FormsDemo

namespace Astra.Props
open Astra.Spec

/-- `Show` calls `String(200, …)`, `XML(200, n)`, `ProtoBuf(201, n)`, `IndentedJSON(202, n)` and `AbortWithStatus(404)`. -/
def showProg : Prog :=
  { types := itemEnv, filePkg := fun _ => shopPkg
    funcs := fun f => if f = 0 then { params := fun _ => ctxParams, body := [.call 0 [], .call 1 [], .call 2 [], .call 3 [], .call 4 []], doc := some c!"Show.\n" } else {}
    view := fun _ id =>
      if id = 0 then { func := .ok (true, c!"String"), args := [{ value := .ok c!"200" }, {}] }
      else if id = 1 then { func := .ok (true, c!"XML"), args := [{ value := .ok c!"200" }, { type := .ok (.basic .int c!"int") }] }
      else if id = 2 then { func := .ok (true, c!"ProtoBuf"), args := [{ value := .ok c!"201" }, { type := .ok (.basic .int c!"int") }] }
      else if id = 3 then { func := .ok (true, c!"IndentedJSON"), args := [{ value := .ok c!"202" }, { type := .ok (.basic .int c!"int") }] }
      else if id = 4 then { func := .ok (true, c!"AbortWithStatus"), args := [{ value := .ok c!"404" }] }
      else {} }

def showRoutes : RouteEnv where
  prog := showProg
  loadable p := p = shopPkg
  fileOf _ f := if f = c!"shop.go" then some 0 else none
  decls _ := [⟨c!"Show", 10, 0, []⟩]
  lowerCamel s := s

def showLib : Lib :=
  { routerLib with parse := fun _ cs r => match parseRoute showRoutes 3 cs r with | some x => x | none => (cs, .err []) }

theorem showLib_byModel : ByModel showLib (fun _ => showRoutes) := by
  refine ⟨fun _ f hf => (by cases hf), fun ctx cs r cs' r' h => ⟨3, ?_⟩⟩
  have h : (match parseRoute showRoutes 3 cs r with | some x => x | none => (cs, .err [])) = (cs', .ok r') := h
  cases hp : parseRoute showRoutes 3 cs r with
  | none => rw [hp] at h; cases h
  | some x => rw [hp] at h; rw [← h]

def showInfo : RouteInfo := ⟨c!"GET", c!"/show", c!"example.com/shop.Show", c!"shop.go", 10⟩

def showWorld : World Proc :=
  { fs := itemWorld.fs, cwd := [c!"w"]
    st := { svc := newService [.workDir c!"/w", .ginInput (some [showInfo]), .openApiOutput c!"api.json",
      .config (some { title := c!"t", host := c!"localhost", port := 8000, basePath := c!"/" })] } }

theorem show_handler_is : HandlerIs showRoutes c!"example.com/shop.Show" c!"shop.go" 10 0 c!"Show" 0 true :=
  ⟨⟨c!"example.com/shop", ⟨c!"shop", c!"Show", Or.inr ⟨c!"example.com", rfl⟩, by decide, by decide, rfl, by decide, by decide, Or.inl rfl⟩, by decide +kernel⟩,
    by decide +kernel⟩

theorem show_context : ContextParam showProg 0 0 c!"c" := (context_parameter_found showProg 0 0 c!"c" (by decide)).1 rfl

theorem show_passes (id : Nat) (h : id < 5) : ¬ PassesContext (showProg.view 0 id) c!"c" := by
  rintro ⟨a, ha, hi⟩
  have h : id = 0 ∨ id = 1 ∨ id = 2 ∨ id = 3 ∨ id = 4 := by omega
  rcases h with rfl | rfl | rfl | rfl | rfl
  · cases ha with
    | head => cases hi
    | tail _ h => cases h with | head => cases hi | tail _ h => cases h
  · cases ha with
    | head => cases hi
    | tail _ h => cases h with | head => cases hi | tail _ h => cases h
  · cases ha with
    | head => cases hi
    | tail _ h => cases h with | head => cases hi | tail _ h => cases h
  · cases ha with
    | head => cases hi
    | tail _ h => cases h with | head => cases hi | tail _ h => cases h
  · cases ha with | head => cases hi | tail _ h => cases h

theorem show_field {args : List ArgView} (ha : args[1]? = some { type := .ok (.basic .int c!"int") }) : ∃ f, IsField itemEnv shopPkg args 1 f := by
  have h : ((typeResult itemEnv true 3 [] (some shopPkg) [] (.basic .int c!"int")).map (fun x => x.2.isOk)) = some true := by decide +kernel
  cases hr : typeResult itemEnv true 3 [] (some shopPkg) [] (.basic .int c!"int") with
  | none => rw [hr] at h; cases h
  | some x =>
    obtain ⟨c', r⟩ := x
    cases r with
    | ok r => exact ⟨_, _, _, _, _, r, ha, rfl, ⟨3, hr⟩, rfl⟩
    | err _ => rw [hr] at h; cases h
    | panic _ => rw [hr] at h; cases h

theorem show_status0 : IsStatus (showProg.view 0 0).args 0 200 := ⟨_, c!"200", rfl, rfl, by decide +kernel⟩
theorem show_status1 : IsStatus (showProg.view 0 1).args 0 200 := ⟨_, c!"200", rfl, rfl, by decide +kernel⟩
theorem show_status2 : IsStatus (showProg.view 0 2).args 0 201 := ⟨_, c!"201", rfl, rfl, by decide +kernel⟩
theorem show_status3 : IsStatus (showProg.view 0 3).args 0 202 := ⟨_, c!"202", rfl, rfl, by decide +kernel⟩
theorem show_status4 : IsStatus (showProg.view 0 4).args 0 404 := ⟨_, c!"404", rfl, rfl, by decide +kernel⟩

theorem show_view : ∃ es, HandlerView showRoutes c!"example.com/shop.Show" c!"shop.go" 10 (docOf showProg 0 []) c!"Show" es := by
  have hl : ∀ call, AllLeave showProg c!"c" call := by intro call f hf; cases hf
  obtain ⟨f1, h1⟩ := show_field (args := (showProg.view 0 1).args) rfl
  obtain ⟨f2, h2⟩ := show_field (args := (showProg.view 0 2).args) rfl
  exact ⟨_, 0, c!"Show", 0, true, c!"c", show_handler_is, show_context,
    ⟨true, .context (hl _) (show_passes 0 (by decide)) rfl (.string show_status0) .nil
    (.context (hl _) (show_passes 1 (by decide)) rfl (.xml show_status1 h1) .nil
    (.context (hl _) (show_passes 2 (by decide)) rfl (.protobuf show_status2 h2) .nil
    (.unsupported (hl _) (show_passes 3 (by decide)) rfl (by decide) .nil
    (.context (hl _) (show_passes 4 (by decide)) rfl (.status (by decide) show_status4) .nil .nil))))⟩, rfl, rfl⟩

theorem show_calls {ids : List Nat} (hid : ∀ x ∈ ids, x < 5) {nodes : List Node} (hn : nodes = ids.map (fun x => Node.call x [])) {pkg m : Str} {args : List ArgView}
    (h : Calls showProg 0 c!"c" nodes pkg m args) : ∃ x ∈ ids, (showProg.view 0 x).func = .ok (true, m) ∧ (showProg.view 0 x).args = args := by
  induction ids generalizing nodes with
  | nil => subst hn; nomatch h
  | cons x ids ih =>
    subst hn
    rw [List.map_cons] at h
    cases h with
    | here _ hf => exact ⟨x, List.mem_cons_self .., hf, rfl⟩
    | helper hp => exact absurd hp (show_passes x (hid x (List.mem_cons_self ..)))
    | inside _ h => nomatch h
    | later h =>
      obtain ⟨y, hy, k⟩ := ih (fun z hz => hid z (List.mem_cons_of_mem _ hz)) rfl h
      exact ⟨y, List.mem_cons_of_mem _ hy, k⟩

theorem show_allowed : allowed showWorld.st.svc.denyList [[showInfo]].flatten = [showInfo] := by
  show [[showInfo]].flatten.filter _ = _
  rfl

theorem show_ok : Astra.parseAll showLib c!"/w" noFaults showWorld = ((Astra.parseAll showLib c!"/w" noFaults showWorld).1, .ok ()) := by
  have hok : (Astra.parseAll showLib c!"/w" noFaults showWorld).2 = .ok () := by decide +kernel
  rw [← hok]

theorem show_place : OwnPlace showWorld.cwd [c!"w"] showWorld.st.svc [] [c!"w", c!"api.json"] := by
  refine ⟨by decide, ?_, by simp⟩
  rintro ⟨h, _⟩
  cases h

/-- The run succeeds and meets all hypotheses: the text and the XML of status 200 are told.
C114, violated: the handler answers `IndentedJSON(202, n)`, and the operation has no response 202; it answers `ProtoBuf(201, n)`, and the
response 201 does not tell `application/x-protobuf`, with which gin sends it, but `application/protobuf`. -/
theorem show_run : ∃ doc text, (Astra.parseAll showLib c!"/w" noFaults showWorld).1.fs.look [c!"w", c!"api.json"] = some (.file text) ∧
    showLib.render false doc = .ok text ∧ ∃ op, Document.operation doc c!"/show" c!"GET" = some op ∧
      TellsMedia op 200 c!"text/plain" ∧ TellsMedia op 200 c!"application/xml" ∧ c!"404" ∈ mkeys op.responses ∧
      AnswersBy (Calls showProg 0 c!"c" (showProg.funcs 0).body) c!"IndentedJSON" 202 ∧ c!"202" ∉ mkeys op.responses ∧
      AnswersBy (Calls showProg 0 c!"c" (showProg.funcs 0).body) c!"ProtoBuf" 201 ∧ ¬ TellsMedia op 201 c!"application/x-protobuf" := by
  obtain ⟨doc, text, h1, h2, h3⟩ := run_media_types_partial showLib (fun _ => showRoutes) showLib_byModel (fun _ => False)
    (fun _ _ _ => ⟨fun _ _ => rfl, id, rfl, rfl, rfl, rfl, rfl, rfl, rfl, rfl⟩) (fun _ => someChoice_valid) c!"/w" noFaults showWorld _ [c!"w"]
    (Or.inr (by decide)) (by decide) item_names (by decide) [[showInfo]] (ginInput_one rfl) rfl (by rw [show_allowed]; unfold DistinctRoutes; decide)
    [] [] _ rfl (options_shape _).2 (by simp) 0 rfl [c!"w", c!"api.json"] (show [c!"w", c!"api.json"] = _ by decide) show_place id
    (fun _ => rfl) show_ok
  obtain ⟨relative, mains, hrel, hlen, h4⟩ := h3 showInfo (by rw [show_allowed]; simp) (by decide) (by
    rw [show_allowed]; intro j hj; simp at hj; intro _ _; exact hj)
  have hrel' : relative = c!"shop.go" := by cases hrel; rfl
  subst hrel'
  obtain ⟨main, hmain⟩ := List.exists_mem_of_length_pos (show 0 < mains.length by rw [hlen]; decide)
  obtain ⟨es, hview⟩ := show_view
  obtain ⟨op, hop, h5⟩ := h4 _ _ _ (fun _ _ => hview)
  obtain ⟨k1, k2, k3, k4, k5⟩ := h5 main hmain _ rfl 0 c!"Show" 0 true c!"c" show_handler_is show_context _ (fun _ _ _ => Iff.rfl)
  have hcalls : ∀ {pkg m args}, Calls showProg 0 c!"c" (showProg.funcs 0).body pkg m args → ∃ x ∈ [0, 1, 2, 3, 4],
      (showProg.view 0 x).func = .ok (true, m) ∧ (showProg.view 0 x).args = args := fun h => show_calls (by decide) rfl h
  obtain ⟨resp, t1, t2⟩ := k3 200 ⟨_, _, .here (show_passes 0 (by decide)) rfl, show_status0⟩
  refine ⟨doc, text, h1, h2, op, hop, ⟨resp, _, t1, t2⟩, ?_, ?_, ?_, ?_, ?_, ?_⟩
  · refine k4 200 c!"XML" c!"application/xml" (by decide) (by decide) (by decide) ⟨_, _, .later (.here (show_passes 1 (by decide)) rfl), show_status1⟩ ?_
    intro pkg m' args a hC hg hs ha t ht
    obtain ⟨x, hx, hf, rfl⟩ := hcalls hC
    have hm : m' = c!"XML" := by
      have : ∀ y ∈ ginAnswers, y.2 = c!"application/xml" → y.1 = c!"XML" := by decide
      exact this _ hg rfl
    subst hm
    simp only [List.mem_cons, List.not_mem_nil, or_false] at hx
    rcases hx with rfl | rfl | rfl | rfl | rfl
    · exact absurd hf (by simp [showProg])
    · cases ha; cases ht; exact .basic (by decide)
    · exact absurd hf (by simp [showProg])
    · exact absurd hf (by simp [showProg])
    · exact absurd hf (by simp [showProg])
  · exact (k1 c!"404").mpr ⟨c!"AbortWithStatus", by decide, 404, ⟨_, _, .later (.later (.later (.later (.here (show_passes 4 (by decide)) rfl)))), show_status4⟩,
      by decide +kernel⟩
  · exact ⟨_, _, .later (.later (.later (.here (show_passes 3 (by decide)) rfl))), show_status3⟩
  · intro h
    obtain ⟨m, hm, code, ⟨pkg, args, hC, hs⟩, hk⟩ := (k1 c!"202").mp h
    obtain ⟨x, hx, hf, rfl⟩ := hcalls hC
    simp only [List.mem_cons, List.not_mem_nil, or_false] at hx
    rcases hx with rfl | rfl | rfl | rfl | rfl
    · rw [status_unique hs show_status0] at hk; exact absurd hk (by decide +kernel)
    · rw [status_unique hs show_status1] at hk; exact absurd hk (by decide +kernel)
    · rw [status_unique hs show_status2] at hk; exact absurd hk (by decide +kernel)
    · cases hf; exact absurd hm (by decide)
    · rw [status_unique hs show_status4] at hk; exact absurd hk (by decide +kernel)
  · exact ⟨_, _, .later (.later (.here (show_passes 2 (by decide)) rfl)), show_status2⟩
  · exact k5 201 c!"ProtoBuf" c!"application/x-protobuf" (by decide) (by decide)

/-- The file of the run. -/
theorem show_text :
    let text := match (Astra.parseAll showLib c!"/w" noFaults showWorld).1.fs.look [c!"w", c!"api.json"] with | some (.file t) => t | _ => []
    occurrences c!"\"text/plain\": {" text = 1 ∧ occurrences c!"\"application/protobuf\": {" text = 1 ∧
      occurrences c!"application/x-protobuf" text = 0 ∧ occurrences c!"\"202\": {" text = 0 ∧ occurrences c!"\"404\": {" text = 1 := by
  refine ⟨?_, ?_, ?_, ?_, ?_⟩ <;> decide +kernel

end Astra.Props
