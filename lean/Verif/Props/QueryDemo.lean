/-
C100: a run for a handler that reads a list and a table from the query.
-/
import Verif.Props.Query
import Verif.Props.OpenApiFile
import Verif.Props.SentDemo
import Verif.Spec.Routers

namespace Astra.Props
open Astra.Spec

/-- The handler calls `QueryArray("tag")`, and inside a block `QueryMap("filter")`. -/
def searchProg : Prog :=
  { types := itemEnv, filePkg := fun _ => shopPkg
    funcs := fun f => if f = 0 then { params := fun _ => ctxParams, body := [.call 0 [], .other [.call 1 []]], doc := some c!"Search.\n" } else {}
    view := fun _ id =>
      if id = 0 then { func := .ok (true, c!"QueryArray"), args := [{ value := .ok c!"tag" }] }
      else if id = 1 then { func := .ok (true, c!"QueryMap"), args := [{ value := .ok c!"filter" }] }
      else {} }

def searchRoutes : RouteEnv where
  prog := searchProg
  loadable p := p = shopPkg
  fileOf _ f := if f = c!"shop.go" then some 0 else none
  decls _ := [⟨c!"Search", 10, 0, []⟩]
  lowerCamel s := s

def searchLib : Lib :=
  { routerLib with parse := fun _ cs r => match parseRoute searchRoutes 3 cs r with | some x => x | none => (cs, .err []) }

theorem searchLib_byModel : ByModel searchLib (fun _ => searchRoutes) := by
  refine ⟨fun _ f hf => (by cases hf), fun ctx cs r cs' r' h => ⟨3, ?_⟩⟩
  have h : (match parseRoute searchRoutes 3 cs r with | some x => x | none => (cs, .err [])) = (cs', .ok r') := h
  cases hp : parseRoute searchRoutes 3 cs r with
  | none => rw [hp] at h; cases h
  | some x => rw [hp] at h; rw [← h]

def searchInfo : RouteInfo := ⟨c!"GET", c!"/search", c!"example.com/shop.Search", c!"shop.go", 10⟩

def searchWorld : World Proc :=
  { fs := itemWorld.fs, cwd := [c!"w"]
    st := { svc := newService [.workDir c!"/w", .ginInput (some [searchInfo]), .openApiOutput c!"api.json",
      .config (some { title := c!"t", host := c!"localhost", port := 8000, basePath := c!"/" })] } }

theorem search_handler_is : HandlerIs searchRoutes c!"example.com/shop.Search" c!"shop.go" 10 0 c!"Search" 0 true :=
  ⟨⟨c!"example.com/shop", ⟨c!"shop", c!"Search", Or.inr ⟨c!"example.com", rfl⟩, by decide, by decide, rfl, by decide, by decide, Or.inl rfl⟩, by decide +kernel⟩,
    by decide +kernel⟩

theorem search_context : ContextParam searchProg 0 0 c!"c" := (context_parameter_found searchProg 0 0 c!"c" (by decide)).1 rfl

theorem search_passes (id : Nat) (h : id = 0 ∨ id = 1) : ¬ PassesContext (searchProg.view 0 id) c!"c" := by
  rintro ⟨a, ha, hi⟩
  rcases h with rfl | rfl
  · simp only [searchProg, if_true, List.mem_singleton] at ha
    subst ha; cases hi
  · simp only [searchProg, if_true, if_neg (show ¬ (1 : Nat) = 0 by decide), List.mem_singleton] at ha
    subst ha; cases hi

theorem search_view : HandlerView searchRoutes c!"example.com/shop.Search" c!"shop.go" 10 (docOf searchProg 0 []) c!"Search"
    [{ queryParams := [{ name := c!"tag", field := { type := c!"string" }, isArray := true }] },
     { queryParams := [{ name := c!"filter", field := { type := c!"string" }, isMap := true }] }] := by
  have hl : ∀ call, AllLeave searchProg c!"c" call := by intro call f hf; cases hf
  exact ⟨0, c!"Search", 0, true, c!"c", search_handler_is, search_context,
    ⟨true, .context (hl _) (search_passes 0 (Or.inl rfl)) rfl (.queryArray (by simp) ⟨_, rfl, rfl⟩) .nil
    (.other (.context (hl _) (search_passes 1 (Or.inr rfl)) rfl (.queryMap (by simp) ⟨_, rfl, rfl⟩) .nil .nil) .nil)⟩, rfl, rfl⟩

theorem search_allowed : allowed searchWorld.st.svc.denyList [[searchInfo]].flatten = [searchInfo] := by
  show [[searchInfo]].flatten.filter _ = _
  rfl

theorem search_ok : Astra.parseAll searchLib c!"/w" noFaults searchWorld = ((Astra.parseAll searchLib c!"/w" noFaults searchWorld).1, .ok ()) := by
  have hok : (Astra.parseAll searchLib c!"/w" noFaults searchWorld).2 = .ok () := by decide +kernel
  rw [← hok]

theorem search_place : OwnPlace searchWorld.cwd [c!"w"] searchWorld.st.svc [] [c!"w", c!"api.json"] := by
  refine ⟨by decide, ?_, by simp⟩
  rintro ⟨h, _⟩
  cases h

/-- The run succeeds and meets all hypotheses: the list `a`, `b` and the table `min` to `1`, `max` to `9` are understood. -/
theorem search_run : ∃ doc text, (Astra.parseAll searchLib c!"/w" noFaults searchWorld).1.fs.look [c!"w", c!"api.json"] = some (.file text) ∧
    searchLib.render false doc = .ok text ∧ ∃ op, Document.operation doc c!"/search" c!"GET" = some op ∧
      (∃ o ∈ op.parameters, o.name = c!"tag" ∧ ∀ yaml j, ShowsParameter yaml o j → Understood doc.schemas o j (.many [c!"a", c!"b"])) ∧
      (∃ o ∈ op.parameters, o.name = c!"filter" ∧ ∀ yaml j, ShowsParameter yaml o j →
        Understood doc.schemas o j (.table [(c!"min", c!"1"), (c!"max", c!"9")])) := by
  obtain ⟨doc, text, h1, h2, h3⟩ := run_query_calls_understood searchLib (fun _ => searchRoutes) searchLib_byModel (fun _ => False)
    (fun _ _ _ => ⟨fun _ _ => rfl, id, rfl, rfl, rfl, rfl, rfl, rfl, rfl, rfl⟩) (fun _ => someChoice_valid) c!"/w" noFaults searchWorld _ [c!"w"]
    (Or.inr (by decide)) (by decide) item_names (by decide) [[searchInfo]] (ginInput_one rfl) rfl (by rw [search_allowed]; unfold DistinctRoutes; decide)
    [] [] _ rfl (options_shape _).2 (by simp) 0 rfl [c!"w", c!"api.json"] (show [c!"w", c!"api.json"] = _ by decide) search_place id
    (fun _ => rfl) search_ok
  obtain ⟨relative, mains, hrel, hlen, h4⟩ := h3 searchInfo (by rw [search_allowed]; simp) (by decide) (by
    rw [search_allowed]; intro j hj; simp at hj; intros; exact hj)
  have hrel' : relative = c!"shop.go" := by cases hrel; rfl
  subst hrel'
  obtain ⟨main, hmain⟩ := List.exists_mem_of_length_pos (show 0 < mains.length by rw [hlen]; decide)
  obtain ⟨op, hop, h5⟩ := h4 _ _ _ (fun _ _ => search_view)
  refine ⟨doc, text, h1, h2, op, hop, ?_, ?_⟩
  · obtain ⟨o, k1, k2, _, k3⟩ := h5 main hmain _ rfl 0 c!"Search" 0 true c!"c" shopPkg c!"QueryArray" _ c!"tag" (.many [c!"a", c!"b"])
      search_handler_is search_context (.here (search_passes 0 (Or.inl rfl)) rfl) (by unfold MethodKind; simp) ⟨_, rfl, rfl⟩
      ⟨by decide, by decide⟩ trivial
    exact ⟨o, k1, k2, k3⟩
  · obtain ⟨o, k1, k2, _, k3⟩ := h5 main hmain _ rfl 0 c!"Search" 0 true c!"c" shopPkg c!"QueryMap" _ c!"filter"
      (.table [(c!"min", c!"1"), (c!"max", c!"9")])
      search_handler_is search_context (.later (.under (.here (search_passes 1 (Or.inr rfl)) rfl))) (by unfold MethodKind; simp) ⟨_, rfl, rfl⟩
      ⟨by decide, by decide⟩ ⟨by decide, by decide⟩
    exact ⟨o, k1, k2, k3⟩

/-- The file of the run shows the style of the list without a word about `explode`, and the table exploded. -/
theorem search_text :
    let text := match (Astra.parseAll searchLib c!"/w" noFaults searchWorld).1.fs.look [c!"w", c!"api.json"] with | some (.file t) => t | _ => []
    occurrences c!"\"style\": \"form\"" text = 1 ∧ occurrences c!"\"style\": \"deepObject\"" text = 1 ∧ occurrences c!"\"explode\": true" text = 1 ∧
    occurrences c!"\"explode\"" text = 1 := by
  refine ⟨?_, ?_, ?_, ?_⟩ <;> decide +kernel

/-- A parameter object, and the query that a client writes from it. -/
example : writtenBy (.obj [(c!"name", .str c!"filter"), (c!"in", .str c!"query"), (c!"style", .str c!"deepObject"), (c!"explode", .bool true)])
    (.table [(c!"min", c!"1"), (c!"max", c!"9")]) = some [(c!"filter[min]", c!"1"), (c!"filter[max]", c!"9")] := by decide

end Astra.Props
