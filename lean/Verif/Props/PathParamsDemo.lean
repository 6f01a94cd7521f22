/-
C109: a run for a route with parameters in its path and one with a catch-all.
-/
import Verif.Props.PathParams
import Verif.Props.HeadersDemo

namespace Astra.Props
open Astra.Spec

def userInfo : RouteInfo := ⟨c!"GET", c!"/users/:id/v:version", c!"example.com/shop.Login", c!"shop.go", 10⟩
def filesInfo : RouteInfo := ⟨c!"GET", c!"/files/*rest", c!"example.com/shop.Login", c!"shop.go", 10⟩

def pathWorld : World Proc :=
  { fs := itemWorld.fs, cwd := [c!"w"]
    st := { svc := newService [.workDir c!"/w", .ginInput (some [userInfo, filesInfo]), .openApiOutput c!"api.json",
      .config (some { title := c!"t", host := c!"localhost", port := 8000, basePath := c!"/" })] } }

theorem path_allowed : allowed pathWorld.st.svc.denyList [[userInfo, filesInfo]].flatten = [userInfo, filesInfo] := by
  show [[userInfo, filesInfo]].flatten.filter _ = _
  rfl

theorem path_ok : Astra.parseAll loginLib c!"/w" noFaults pathWorld = ((Astra.parseAll loginLib c!"/w" noFaults pathWorld).1, .ok ()) := by
  have hok : (Astra.parseAll loginLib c!"/w" noFaults pathWorld).2 = .ok () := by decide +kernel
  rw [← hok]

theorem path_place : OwnPlace pathWorld.cwd [c!"w"] pathWorld.st.svc [] [c!"w", c!"api.json"] := by
  refine ⟨by decide, ?_, by simp⟩
  rintro ⟨h, _⟩
  cases h

theorem user_path : GinPath userInfo.path := by
  intro seg hseg
  have h : seg = [] ∨ seg = c!"users" ∨ seg = c!":id" ∨ seg = c!"v:version" := by
    simpa [userInfo, split] using hseg
  rcases h with rfl | rfl | rfl | rfl
  · exact Or.inl (by decide)
  · exact Or.inl (by decide)
  · exact Or.inr ⟨[], ':', c!"id", ⟨rfl, by decide, by decide, by decide, by decide⟩, by decide, by decide⟩
  · exact Or.inr ⟨c!"v", ':', c!"version", ⟨rfl, by decide, by decide, by decide, by decide⟩, by decide, by decide⟩

theorem files_path : GinPath filesInfo.path := by
  intro seg hseg
  have h : seg = [] ∨ seg = c!"files" ∨ seg = c!"*rest" := by
    simpa [filesInfo, split] using hseg
  rcases h with rfl | rfl | rfl
  · exact Or.inl (by decide)
  · exact Or.inl (by decide)
  · exact Or.inr ⟨[], '*', c!"rest", ⟨rfl, by decide, by decide, by decide, by decide⟩, by decide, by decide⟩

/-- The run succeeds and meets all hypotheses: a client who fills in the path with the parameters is understood, whatever the values. C109, violated:
no client can fill in the path with the catch-all. -/
theorem path_run : ∃ doc text, (Astra.parseAll loginLib c!"/w" noFaults pathWorld).1.fs.look [c!"w", c!"api.json"] = some (.file text) ∧
    loginLib.render false doc = .ok text ∧
    (∃ template op, Document.operation doc template c!"GET" = some op ∧ ∀ v : Str → Str, (∀ x, PathValue (v x)) →
      PathUnderstood doc.schemas op template c!"/users/:id/v:version" v) ∧
    (∃ template op, Document.operation doc template c!"GET" = some op ∧ ∀ v : Str → Str, (∀ x, PathValue (v x)) →
      ¬ PathUnderstood doc.schemas op template c!"/files/*rest" v) := by
  obtain ⟨doc, text, h1, h2, h3⟩ := run_path_exact_partial loginLib (fun _ => loginRoutes) loginLib_byModel (fun _ => False)
    (fun _ _ _ => ⟨fun _ _ => rfl, id, rfl, rfl, rfl, rfl, rfl, rfl, rfl, rfl⟩) (fun _ => someChoice_valid) c!"/w" noFaults pathWorld _ [c!"w"]
    (Or.inr (by decide)) (by decide) item_names (by decide) [[userInfo, filesInfo]] (ginInput_one rfl) rfl (by rw [path_allowed]; unfold DistinctRoutes; decide)
    [] [] _ rfl (options_shape _).2 (by simp) 0 rfl [c!"w", c!"api.json"] (show [c!"w", c!"api.json"] = _ by decide) path_place id
    (fun _ => rfl) path_ok
  refine ⟨doc, text, h1, h2, ?_, ?_⟩
  · obtain ⟨relative, mains, hrel, hlen, h4⟩ := h3 userInfo (by rw [path_allowed]; simp) (by decide) (by
      rw [path_allowed]; intro j hj; simp at hj; rcases hj with rfl | rfl <;> intro h _
      · rfl
      · exact absurd h (by decide))
    have hrel' : relative = c!"shop.go" := by cases hrel; rfl
    subst hrel'
    obtain ⟨template, op, _, hop, h5⟩ := h4 _ _ _ (fun _ _ => login_view)
    exact ⟨template, op, hop, fun v hv => (h5 user_path (by decide) v hv).mpr (by decide)⟩
  · obtain ⟨relative, mains, hrel, hlen, h4⟩ := h3 filesInfo (by rw [path_allowed]; simp) (by decide) (by
      rw [path_allowed]; intro j hj; simp at hj; rcases hj with rfl | rfl <;> intro h _
      · exact absurd h (by decide)
      · rfl)
    have hrel' : relative = c!"shop.go" := by cases hrel; rfl
    subst hrel'
    obtain ⟨template, op, _, hop, h5⟩ := h4 _ _ _ (fun _ _ => login_view)
    exact ⟨template, op, hop, fun v hv hu => absurd ((h5 files_path (by decide) v hv).mp hu) (by decide)⟩

/-- A request for the first route, and what the handler reads. -/
example : GinMatch (split '/' c!"/users/:id/v:version") (split '/' c!"/users/7/v2") [(c!"id", c!"7"), (c!"version", c!"2")] :=
  .text (seg := []) (by rintro b m n ⟨h, _⟩; simp at h)
    (.text (seg := c!"users") (by intro b m n h; exact absurd (segWild_iff.mpr h) (by simp [segWild]))
      (.param (before := []) (v := c!"7") ⟨rfl, by decide, by decide, by decide, by decide⟩ (by decide)
        (.param (before := c!"v") (v := c!"2") ⟨rfl, by decide, by decide, by decide, by decide⟩ (by decide) .done)))

/-- The catch-all of a request begins with a slash. -/
example : GinMatch (split '/' c!"/*rest") (split '/' c!"/a/b") [(c!"rest", c!"/a/b")] :=
  .text (seg := []) (by rintro b m n ⟨h, _⟩; simp at h) (.catchAll ⟨rfl, by decide, by decide, by decide, by decide⟩ (by decide))

/-- The paths in the file of the run. -/
theorem path_text :
    let text := match (Astra.parseAll loginLib c!"/w" noFaults pathWorld).1.fs.look [c!"w", c!"api.json"] with | some (.file t) => t | _ => []
    occurrences c!"\"/users/{id}/v{version}\": {" text = 1 ∧ occurrences c!"\"/files/{rest*}\": {" text = 1 ∧ occurrences c!"\"name\": \"rest\"" text = 1 := by
  refine ⟨?_, ?_, ?_⟩ <;> decide +kernel

end Astra.Props
