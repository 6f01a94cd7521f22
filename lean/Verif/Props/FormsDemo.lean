/-
C107: a run for two handlers that read forms.
-/
import Verif.Props.Forms
import Verif.Props.OpenApiFile
import Verif.Props.SentDemo
import Verif.Spec.Routers

namespace Astra.Props
open Astra.Spec

/-- `Upload` calls `PostForm("title")`, and inside a block `FormFile("picture")`. `Tag` calls `PostForm("title")` and `PostFormArray("tag")`. -/
def formProg : Prog :=
  { types := itemEnv, filePkg := fun _ => shopPkg
    funcs := fun f =>
      if f = 0 then { params := fun _ => ctxParams, body := [.call 0 [], .other [.call 1 []]], doc := some c!"Upload.\n" }
      else if f = 1 then { params := fun _ => ctxParams, body := [.call 0 [], .call 2 []], doc := some c!"Tag.\n" } else {}
    view := fun _ id =>
      if id = 0 then { func := .ok (true, c!"PostForm"), args := [{ value := .ok c!"title" }] }
      else if id = 1 then { func := .ok (true, c!"FormFile"), args := [{ value := .ok c!"picture" }] }
      else if id = 2 then { func := .ok (true, c!"PostFormArray"), args := [{ value := .ok c!"tag" }] }
      else {} }

def formRoutes : RouteEnv where
  prog := formProg
  loadable p := p = shopPkg
  fileOf _ f := if f = c!"shop.go" then some 0 else none
  decls _ := [⟨c!"Upload", 10, 0, []⟩, ⟨c!"Tag", 20, 1, []⟩]
  lowerCamel s := s

def formLib : Lib :=
  { routerLib with parse := fun _ cs r => match parseRoute formRoutes 3 cs r with | some x => x | none => (cs, .err []) }

theorem formLib_byModel : ByModel formLib (fun _ => formRoutes) := by
  refine ⟨fun _ f hf => (by cases hf), fun ctx cs r cs' r' h => ⟨3, ?_⟩⟩
  have h : (match parseRoute formRoutes 3 cs r with | some x => x | none => (cs, .err [])) = (cs', .ok r') := h
  cases hp : parseRoute formRoutes 3 cs r with
  | none => rw [hp] at h; cases h
  | some x => rw [hp] at h; rw [← h]

def uploadInfo : RouteInfo := ⟨c!"POST", c!"/upload", c!"example.com/shop.Upload", c!"shop.go", 10⟩
def tagInfo : RouteInfo := ⟨c!"POST", c!"/tag", c!"example.com/shop.Tag", c!"shop.go", 20⟩

def formWorld : World Proc :=
  { fs := itemWorld.fs, cwd := [c!"w"]
    st := { svc := newService [.workDir c!"/w", .ginInput (some [uploadInfo, tagInfo]), .openApiOutput c!"api.json",
      .config (some { title := c!"t", host := c!"localhost", port := 8000, basePath := c!"/" })] } }

theorem upload_handler_is : HandlerIs formRoutes c!"example.com/shop.Upload" c!"shop.go" 10 0 c!"Upload" 0 true :=
  ⟨⟨c!"example.com/shop", ⟨c!"shop", c!"Upload", Or.inr ⟨c!"example.com", rfl⟩, by decide, by decide, rfl, by decide, by decide, Or.inl rfl⟩, by decide +kernel⟩,
    by decide +kernel⟩

theorem tag_handler_is : HandlerIs formRoutes c!"example.com/shop.Tag" c!"shop.go" 20 0 c!"Tag" 1 true :=
  ⟨⟨c!"example.com/shop", ⟨c!"shop", c!"Tag", Or.inr ⟨c!"example.com", rfl⟩, by decide, by decide, rfl, by decide, by decide, Or.inl rfl⟩, by decide +kernel⟩,
    by decide +kernel⟩

theorem upload_context : ContextParam formProg 0 0 c!"c" := (context_parameter_found formProg 0 0 c!"c" (by decide)).1 rfl
theorem tag_context : ContextParam formProg 1 0 c!"c" := (context_parameter_found formProg 1 0 c!"c" (by decide)).1 rfl

theorem form_passes (id : Nat) (h : id = 0 ∨ id = 1 ∨ id = 2) : ¬ PassesContext (formProg.view 0 id) c!"c" := by
  rintro ⟨a, ha, hi⟩
  rcases h with rfl | rfl | rfl <;> (cases ha with | head => cases hi | tail _ h => cases h)

theorem upload_view : HandlerView formRoutes c!"example.com/shop.Upload" c!"shop.go" 10 (docOf formProg 0 []) c!"Upload"
    [{ body := [{ name := c!"title", contentType := c!"application/x-www-form-urlencoded", field := { type := c!"string" } }] },
     { body := [{ name := c!"picture", contentType := c!"multipart/form-data", field := { type := c!"file" } }] }] := by
  have hl : ∀ call, AllLeave formProg c!"c" call := by intro call f hf; cases hf
  exact ⟨0, c!"Upload", 0, true, c!"c", upload_handler_is, upload_context,
    ⟨true, .context (hl _) (form_passes 0 (Or.inl rfl)) rfl (.postForm (by simp) ⟨_, rfl, rfl⟩) .nil
    (.other (.context (hl _) (form_passes 1 (Or.inr (Or.inl rfl))) rfl (.formFile ⟨_, rfl, rfl⟩) .nil .nil) .nil)⟩, rfl, rfl⟩

def tagEntries : List Entry :=
  [{ body := [{ name := c!"title", contentType := c!"application/x-www-form-urlencoded", field := { type := c!"string" } }] },
   { body := [{ name := c!"tag", contentType := c!"application/x-www-form-urlencoded", field := { type := c!"string" }, isArray := true }] }]

theorem tag_view : HandlerView formRoutes c!"example.com/shop.Tag" c!"shop.go" 20 (docOf formProg 1 []) c!"Tag" tagEntries := by
  have hl : ∀ call, AllLeave formProg c!"c" call := by intro call f hf; cases hf
  exact ⟨0, c!"Tag", 1, true, c!"c", tag_handler_is, tag_context,
    ⟨true, .context (hl _) (form_passes 0 (Or.inl rfl)) rfl (.postForm (by simp) ⟨_, rfl, rfl⟩) .nil
    (.context (hl _) (form_passes 2 (Or.inr (Or.inr rfl))) rfl (.postFormArray (by simp) ⟨_, rfl, rfl⟩) .nil .nil)⟩, rfl, rfl⟩

theorem form_allowed : allowed formWorld.st.svc.denyList [[uploadInfo, tagInfo]].flatten = [uploadInfo, tagInfo] := by
  show [[uploadInfo, tagInfo]].flatten.filter _ = _
  rfl

theorem form_ok : Astra.parseAll formLib c!"/w" noFaults formWorld = ((Astra.parseAll formLib c!"/w" noFaults formWorld).1, .ok ()) := by
  have hok : (Astra.parseAll formLib c!"/w" noFaults formWorld).2 = .ok () := by decide +kernel
  rw [← hok]

theorem form_place : OwnPlace formWorld.cwd [c!"w"] formWorld.st.svc [] [c!"w", c!"api.json"] := by
  refine ⟨by decide, ?_, by simp⟩
  rintro ⟨h, _⟩
  cases h

theorem upload_calls {pkg m : Str} {args : List ArgView} (h : Calls formProg 0 c!"c" (formProg.funcs 0).body pkg m args) :
    (m = c!"PostForm" ∧ args = [{ value := .ok c!"title" }]) ∨ (m = c!"FormFile" ∧ args = [{ value := .ok c!"picture" }]) := by
  have h : Calls formProg 0 c!"c" [.call 0 [], .other [.call 1 []]] pkg m args := h
  cases h with
  | here hp hf => cases hf; exact Or.inl ⟨rfl, rfl⟩
  | helper hp => exact absurd hp (form_passes 0 (Or.inl rfl))
  | inside _ h => nomatch h
  | later h =>
    cases h with
    | later h => nomatch h
    | under h =>
      cases h with
      | here hp hf => cases hf; exact Or.inr ⟨rfl, rfl⟩
      | helper hp => exact absurd hp (form_passes 1 (Or.inr (Or.inl rfl)))
      | inside _ h => nomatch h
      | later h => nomatch h

/-- The run succeeds and meets all hypotheses: the title of an upload is understood if it is filled in as the form of texts says, the picture as the
form of several parts says. -/
theorem upload_run : ∃ doc text, (Astra.parseAll formLib c!"/w" noFaults formWorld).1.fs.look [c!"w", c!"api.json"] = some (.file text) ∧
    formLib.render false doc = .ok text ∧ ∃ op, Document.operation doc c!"/upload" c!"POST" = some op ∧
      (∃ content s, op.requestBody = some content ∧ mget content urlencodedForm = some s ∧ ∀ yaml j, ShowsMedia yaml s j →
        FormUnderstood doc.schemas urlencodedForm s j c!"title" (.value (.one c!"Sunset"))) ∧
      (∃ content s, op.requestBody = some content ∧ mget content multipartForm = some s ∧ ∀ yaml j, ShowsMedia yaml s j →
        FormUnderstood doc.schemas multipartForm s j c!"picture" (.file c!"GIF89a")) := by
  obtain ⟨doc, text, h1, h2, h3⟩ := run_form_calls_understood_partial formLib (fun _ => formRoutes) formLib_byModel (fun _ => False)
    (fun _ _ _ => ⟨fun _ _ => rfl, id, rfl, rfl, rfl, rfl, rfl, rfl, rfl, rfl⟩) (fun _ => someChoice_valid) c!"/w" noFaults formWorld _ [c!"w"]
    (Or.inr (by decide)) (by decide) item_names (by decide) [[uploadInfo, tagInfo]] (ginInput_one rfl) rfl (by rw [form_allowed]; unfold DistinctRoutes; decide)
    [] [] _ rfl (options_shape _).2 (by simp) 0 rfl [c!"w", c!"api.json"] (show [c!"w", c!"api.json"] = _ by decide) form_place id
    (fun _ => rfl) form_ok
  obtain ⟨relative, mains, hrel, hlen, h4⟩ := h3 uploadInfo (by rw [form_allowed]; simp) (by decide) (by
    rw [form_allowed]; intro j hj; simp at hj; rcases hj with rfl | rfl <;> intro h _
    · rfl
    · exact absurd h (by decide))
  have hrel' : relative = c!"shop.go" := by cases hrel; rfl
  subst hrel'
  obtain ⟨main, hmain⟩ := List.exists_mem_of_length_pos (show 0 < mains.length by rw [hlen]; decide)
  obtain ⟨op, hop, h5⟩ := h4 _ _ _ (fun _ _ => upload_view)
  refine ⟨doc, text, h1, h2, op, hop, ?_, ?_⟩
  · exact h5 main hmain _ rfl 0 c!"Upload" 0 true c!"c" shopPkg c!"PostForm" _ c!"title" (.value (.one c!"Sunset"))
      upload_handler_is upload_context (.here (form_passes 0 (Or.inl rfl)) rfl) (by unfold FormMethod; simp) ⟨_, rfl, rfl⟩ (by decide)
      (Or.inl ⟨_, rfl⟩) (by
        intro pkg' m' args' hcall hm
        rcases upload_calls hcall with ⟨rfl, rfl⟩ | ⟨rfl, rfl⟩
        · exact ⟨by unfold FormMethod; simp, _, rfl, rfl⟩
        · exact absurd hm (by decide))
  · exact h5 main hmain _ rfl 0 c!"Upload" 0 true c!"c" shopPkg c!"FormFile" _ c!"picture" (.file c!"GIF89a")
      upload_handler_is upload_context (.later (.under (.here (form_passes 1 (Or.inr (Or.inl rfl))) rfl))) rfl ⟨_, rfl, rfl⟩ (by decide)
      (Or.inr ⟨_, rfl⟩) (by
        intro pkg' m' args' hcall hm
        rcases upload_calls hcall with ⟨rfl, rfl⟩ | ⟨rfl, rfl⟩
        · exact absurd hm (by decide)
        · exact ⟨rfl, _, rfl, rfl⟩)

/-- C107, violated: `Tag` reads the text `title` and the list `tag`. The document of the run never tells a client how to give a title, and never
how to give two tags. -/
theorem tag_run_misdescribed : ∃ doc text, (Astra.parseAll formLib c!"/w" noFaults formWorld).1.fs.look [c!"w", c!"api.json"] = some (.file text) ∧
    formLib.render false doc = .ok text ∧ ∃ op content s, Document.operation doc c!"/tag" c!"POST" = some op ∧
      op.requestBody = some content ∧ mget content urlencodedForm = some s ∧ (∃ yaml j, ShowsMedia yaml s j) ∧
      ∀ content ct s yaml j, op.requestBody = some content → ct ∈ [urlencodedForm, multipartForm] → mget content ct = some s → ShowsMedia yaml s j →
        (∀ x, ¬ FormUnderstood doc.schemas ct s j c!"title" (.value (.one x))) ∧
        (∀ vs, ¬ FormUnderstood doc.schemas ct s j c!"tag" (.value (.many vs))) := by
  obtain ⟨doc, text, h1, h2, h3⟩ := run_form_exact formLib (fun _ => formRoutes) formLib_byModel (fun _ => False)
    (fun _ _ _ => ⟨fun _ _ => rfl, id, rfl, rfl, rfl, rfl, rfl, rfl, rfl, rfl⟩) (fun _ => someChoice_valid) c!"/w" noFaults formWorld _ [c!"w"]
    (Or.inr (by decide)) (by decide) item_names (by decide) [[uploadInfo, tagInfo]] (ginInput_one rfl) rfl (by rw [form_allowed]; unfold DistinctRoutes; decide)
    [] [] _ rfl (options_shape _).2 (by simp) 0 rfl [c!"w", c!"api.json"] (show [c!"w", c!"api.json"] = _ by decide) form_place id form_ok
  obtain ⟨relative, mains, hrel, hlen, h4⟩ := h3 tagInfo (by rw [form_allowed]; simp) (by decide) (by
    rw [form_allowed]; intro j hj; simp at hj; rcases hj with rfl | rfl <;> intro h _
    · exact absurd h (by decide)
    · rfl)
  have hrel' : relative = c!"shop.go" := by cases hrel; rfl
  subst hrel'
  obtain ⟨op, hop, k1, _, k3⟩ := h4 _ _ _ (fun _ _ => tag_view)
  have hlast : LastOfType tagEntries urlencodedForm
      { name := c!"tag", contentType := c!"application/x-www-form-urlencoded", field := { type := c!"string" }, isArray := true } :=
    ⟨[_], [], rfl, rfl, by simp⟩
  obtain ⟨content, s, c1, c2, _⟩ := k1 _ hlast ⟨by decide, Or.inl ⟨rfl, rfl⟩⟩
  have hall : ∀ e ∈ tagEntries, ∀ bp ∈ e.body, bp.contentType ∈ [urlencodedForm, multipartForm] → IsFormEntry bp := by
    intro e he bp hbp _
    simp only [tagEntries, List.mem_cons, List.not_mem_nil, or_false] at he
    rcases he with rfl | rfl <;> (simp only [List.mem_cons, List.not_mem_nil, or_false] at hbp; subst hbp; exact ⟨by simp, Or.inl ⟨rfl, rfl⟩⟩)
  refine ⟨doc, text, h1, h2, op, content, s, hop, c1, c2, ⟨false, _, shows_media false s⟩, ?_⟩
  intro content ct s yaml j hb hct hs hj
  refine ⟨fun x hu => ?_, fun vs hu => ?_⟩
  · obtain ⟨bp, ⟨a, b, e1, e2, e3⟩, hn, hk⟩ := k3 hall content ct s yaml j _ _ hb hct hs hj hu
    rcases hk with ⟨rfl, _⟩ | ⟨_, c, hc⟩
    · match a, e1 with
      | [], e1 =>
        have := congrArg List.tail e1
        simp only [List.nil_append, List.tail_cons] at this
        rw [← this] at e3
        exact e3 _ List.mem_cons_self rfl
      | [_], e1 => cases e1; exact absurd hn (by decide)
      | _ :: _ :: _, e1 => have := congrArg List.length e1; simp [tagEntries] at this
    · cases hc
  · obtain ⟨bp, _, _, hk⟩ := k3 hall content ct s yaml j _ _ hb hct hs hj hu
    rcases hk with ⟨_, x, hx⟩ | ⟨_, c, hc⟩
    · cases hx
    · cases hc

/-- The file of the run: neither `title` nor an array is in the operation of `/tag`; each form has one property. -/
theorem form_text :
    let text := match (Astra.parseAll formLib c!"/w" noFaults formWorld).1.fs.look [c!"w", c!"api.json"] with | some (.file t) => t | _ => []
    occurrences c!"\"title\": {" text = 1 ∧ occurrences c!"\"tag\": {" text = 1 ∧ occurrences c!"\"picture\": {" text = 1 ∧
    occurrences c!"\"array\"" text = 0 ∧ occurrences c!"\"format\": \"binary\"" text = 1 := by
  refine ⟨?_, ?_, ?_, ?_, ?_⟩ <;> decide +kernel

end Astra.Props
