/-
C108: a run for a handler that reads and sets headers.
-/
import Verif.Props.Headers
import Verif.Props.FormsDemo

namespace Astra.Props
open Astra.Spec

/-- `Login` calls `GetHeader("X-Request-ID")`, `GetHeader("Authorization")`, `Header("Location", …)` and `Status(204)`. -/
def loginProg : Prog :=
  { types := itemEnv, filePkg := fun _ => shopPkg
    funcs := fun f => if f = 0 then { params := fun _ => ctxParams, body := [.call 0 [], .call 1 [], .call 2 [], .call 3 []], doc := some c!"Login.\n" } else {}
    view := fun _ id =>
      if id = 0 then { func := .ok (true, c!"GetHeader"), args := [{ value := .ok c!"X-Request-ID" }] }
      else if id = 1 then { func := .ok (true, c!"GetHeader"), args := [{ value := .ok c!"Authorization" }] }
      else if id = 2 then { func := .ok (true, c!"Header"), args := [{ value := .ok c!"Location" }, {}] }
      else if id = 3 then { func := .ok (true, c!"Status"), args := [{ value := .ok c!"204" }] }
      else {} }

def loginRoutes : RouteEnv where
  prog := loginProg
  loadable p := p = shopPkg
  fileOf _ f := if f = c!"shop.go" then some 0 else none
  decls _ := [⟨c!"Login", 10, 0, []⟩]
  lowerCamel s := s

def loginLib : Lib :=
  { routerLib with parse := fun _ cs r => match parseRoute loginRoutes 3 cs r with | some x => x | none => (cs, .err []) }

theorem loginLib_byModel : ByModel loginLib (fun _ => loginRoutes) := by
  refine ⟨fun _ f hf => (by cases hf), fun ctx cs r cs' r' h => ⟨3, ?_⟩⟩
  have h : (match parseRoute loginRoutes 3 cs r with | some x => x | none => (cs, .err [])) = (cs', .ok r') := h
  cases hp : parseRoute loginRoutes 3 cs r with
  | none => rw [hp] at h; cases h
  | some x => rw [hp] at h; rw [← h]

def loginInfo : RouteInfo := ⟨c!"POST", c!"/login", c!"example.com/shop.Login", c!"shop.go", 10⟩

def loginWorld : World Proc :=
  { fs := itemWorld.fs, cwd := [c!"w"]
    st := { svc := newService [.workDir c!"/w", .ginInput (some [loginInfo]), .openApiOutput c!"api.json",
      .config (some { title := c!"t", host := c!"localhost", port := 8000, basePath := c!"/" })] } }

theorem login_handler_is : HandlerIs loginRoutes c!"example.com/shop.Login" c!"shop.go" 10 0 c!"Login" 0 true :=
  ⟨⟨c!"example.com/shop", ⟨c!"shop", c!"Login", Or.inr ⟨c!"example.com", rfl⟩, by decide, by decide, rfl, by decide, by decide, Or.inl rfl⟩, by decide +kernel⟩,
    by decide +kernel⟩

theorem login_context : ContextParam loginProg 0 0 c!"c" := (context_parameter_found loginProg 0 0 c!"c" (by decide)).1 rfl

theorem login_passes (id : Nat) (h : id = 0 ∨ id = 1 ∨ id = 2 ∨ id = 3) : ¬ PassesContext (loginProg.view 0 id) c!"c" := by
  rintro ⟨a, ha, hi⟩
  rcases h with rfl | rfl | rfl | rfl
  · cases ha with | head => cases hi | tail _ h => cases h
  · cases ha with | head => cases hi | tail _ h => cases h
  · cases ha with
    | head => cases hi
    | tail _ h => cases h with | head => cases hi | tail _ h => cases h
  · cases ha with | head => cases hi | tail _ h => cases h

theorem login_view : HandlerView loginRoutes c!"example.com/shop.Login" c!"shop.go" 10 (docOf loginProg 0 []) c!"Login"
    [{ requestHeaders := [{ name := c!"X-Request-ID", field := { type := c!"string" } }] },
     { requestHeaders := [{ name := c!"Authorization", field := { type := c!"string" } }] },
     { responseHeaders := [{ name := c!"Location", field := { type := c!"string" } }] },
     { responses := [{ statusCode := 204, field := { type := c!"nil" } }] }] := by
  have hl : ∀ call, AllLeave loginProg c!"c" call := by intro call f hf; cases hf
  exact ⟨0, c!"Login", 0, true, c!"c", login_handler_is, login_context,
    ⟨true, .context (hl _) (login_passes 0 (by simp)) rfl (.getHeader ⟨_, rfl, rfl⟩) .nil
    (.context (hl _) (login_passes 1 (by simp)) rfl (.getHeader ⟨_, rfl, rfl⟩) .nil
    (.context (hl _) (login_passes 2 (by simp)) rfl (.header ⟨_, rfl, rfl⟩) .nil
    (.context (hl _) (login_passes 3 (by simp)) rfl (.status (by decide) ⟨_, c!"204", rfl, rfl, by decide +kernel⟩) .nil .nil)))⟩, rfl, rfl⟩

theorem login_allowed : allowed loginWorld.st.svc.denyList [[loginInfo]].flatten = [loginInfo] := by
  show [[loginInfo]].flatten.filter _ = _
  rfl

theorem login_ok : Astra.parseAll loginLib c!"/w" noFaults loginWorld = ((Astra.parseAll loginLib c!"/w" noFaults loginWorld).1, .ok ()) := by
  have hok : (Astra.parseAll loginLib c!"/w" noFaults loginWorld).2 = .ok () := by decide +kernel
  rw [← hok]

theorem login_place : OwnPlace loginWorld.cwd [c!"w"] loginWorld.st.svc [] [c!"w", c!"api.json"] := by
  refine ⟨by decide, ?_, by simp⟩
  rintro ⟨h, _⟩
  cases h

/-- The run succeeds and meets all hypotheses: a client who sends `X-Request-ID` as documented is understood, and the response tells of `Location`.
C108, violated: the handler reads `Authorization`, and the document has a parameter for it, which the standard says to ignore. -/
theorem login_run : ∃ doc text, (Astra.parseAll loginLib c!"/w" noFaults loginWorld).1.fs.look [c!"w", c!"api.json"] = some (.file text) ∧
    loginLib.render false doc = .ok text ∧ ∃ op, Document.operation doc c!"/login" c!"POST" = some op ∧
      (∃ o ∈ op.parameters, o.name = c!"X-Request-ID" ∧ o.loc = c!"header" ∧ ∀ yaml j, ShowsParameter yaml o j →
        HeaderUnderstood doc.schemas o j c!"a-17") ∧
      (∃ o ∈ op.parameters, o.name = c!"Authorization" ∧ o.loc = c!"header" ∧ (∃ yaml j, ShowsParameter yaml o j) ∧
        ∀ yaml j, ShowsParameter yaml o j → ¬ HeaderUnderstood doc.schemas o j c!"Bearer x") ∧
      (∃ resp h, mget op.responses c!"204" = some resp ∧ TellsHeader resp c!"Location" h) := by
  obtain ⟨doc, text, h1, h2, h3⟩ := run_headers_exact_partial loginLib (fun _ => loginRoutes) loginLib_byModel (fun _ => False)
    (fun _ _ _ => ⟨fun _ _ => rfl, id, rfl, rfl, rfl, rfl, rfl, rfl, rfl, rfl⟩) (fun _ => someChoice_valid) c!"/w" noFaults loginWorld _ [c!"w"]
    (Or.inr (by decide)) (by decide) item_names (by decide) [[loginInfo]] (ginInput_one rfl) rfl (by rw [login_allowed]; unfold DistinctRoutes; decide)
    [] [] _ rfl (options_shape _).2 (by simp) 0 rfl [c!"w", c!"api.json"] (show [c!"w", c!"api.json"] = _ by decide) login_place id
    (fun _ => rfl) login_ok
  obtain ⟨relative, mains, hrel, hlen, h4⟩ := h3 loginInfo (by rw [login_allowed]; simp) (by decide) (by
    rw [login_allowed]; intro j hj; simp at hj; intro _ _; exact hj)
  have hrel' : relative = c!"shop.go" := by cases hrel; rfl
  subst hrel'
  obtain ⟨main, hmain⟩ := List.exists_mem_of_length_pos (show 0 < mains.length by rw [hlen]; decide)
  obtain ⟨op, hop, hr, h5⟩ := h4 _ _ _ (fun _ _ => login_view)
  have k := fun args n => h5 main hmain _ rfl 0 c!"Login" 0 true c!"c" shopPkg args n login_handler_is login_context
  obtain ⟨o1, a1, a2, a3, a4⟩ := (k _ c!"X-Request-ID" ⟨_, rfl, rfl⟩).1 (.here (login_passes 0 (by simp)) rfl) ⟨by decide, by decide⟩
  obtain ⟨o2, b1, b2, b3, b4⟩ := (k _ c!"Authorization" ⟨_, rfl, rfl⟩).1 (.later (.here (login_passes 1 (by simp)) rfl)) ⟨by decide, by decide⟩
  refine ⟨doc, text, h1, h2, op, hop, ⟨o1, a1, a2, a3, fun yaml j hj => (a4 yaml j hj _ (by decide)).mpr (by decide)⟩,
    ⟨o2, b1, b2, b3, ⟨false, _, shows_param false o2⟩, fun yaml j hj hu => (b4 yaml j hj _ (by decide)).mp hu (by decide)⟩, ?_⟩
  obtain ⟨resp, hresp⟩ := hr { responses := [{ statusCode := 204, field := { type := c!"nil" } }] } (by simp) _ (List.mem_singleton.mpr rfl)
  rw [show itoa 204 = c!"204" by decide +kernel] at hresp
  obtain ⟨h, _, _, _, ht⟩ := (k _ c!"Location" ⟨_, rfl, rfl⟩).2 (.later (.later (.here (login_passes 2 (by simp)) rfl))) _ _ hresp
  exact ⟨resp, h, hresp, ht.mpr (by decide)⟩

/-- The file of the run. -/
theorem login_text :
    let text := match (Astra.parseAll loginLib c!"/w" noFaults loginWorld).1.fs.look [c!"w", c!"api.json"] with | some (.file t) => t | _ => []
    occurrences c!"\"name\": \"Authorization\"" text = 1 ∧ occurrences c!"\"name\": \"X-Request-ID\"" text = 1 ∧ occurrences c!"\"Location\": {" text = 1 := by
  refine ⟨?_, ?_, ?_⟩ <;> decide +kernel

end Astra.Props
