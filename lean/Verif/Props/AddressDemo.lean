/-
C99: runs with two base paths.
-/
import Verif.Props.Address
import Verif.Props.RequiredDemo

namespace Astra.Props
open Astra.Spec

def orderInfo : RouteInfo := ⟨c!"POST", c!"/orders/:id", c!"example.com/shop.Post", c!"shop.go", 10⟩

/-- A service with the given base path. -/
def baseWorld (b : Str) : World Proc :=
  { fs := itemWorld.fs, cwd := [c!"w"]
    st := { svc := newService [.workDir c!"/w", .ginInput (some [orderInfo]), .openApiOutput c!"api.json",
      .config (some { title := c!"t", host := c!"localhost", port := 8000, basePath := b })] } }

/-- The text of the OpenAPI file after the run. -/
def baseText (b : Str) : Str :=
  match (Astra.parseAll purchaseLib c!"/w" noFaults (baseWorld b)).1.fs.look [c!"w", c!"api.json"] with
  | some (.file t) => t
  | _ => []

/-- C99 is false for the base path that the builder sets: the file says that the address is http://localhost:8000/ and then /orders/{id}. -/
theorem base_witness :
    runBuilder [.title c!"t", .port 8000] = .ok { title := c!"t", host := c!"localhost", port := 8000, basePath := c!"/" } ∧
    (Astra.parseAll purchaseLib c!"/w" noFaults (baseWorld c!"/")).2 = .ok () ∧
    occurrences c!"\"url\": \"http://localhost:8000/\"" (baseText c!"/") = 1 ∧ occurrences c!"\"/orders/{id}\": {" (baseText c!"/") = 1 := by
  refine ⟨rfl, ?_, ?_, ?_⟩ <;> decide +kernel

theorem base_ok (b : Str) (h : (Astra.parseAll purchaseLib c!"/w" noFaults (baseWorld b)).2 = .ok ()) :
    Astra.parseAll purchaseLib c!"/w" noFaults (baseWorld b) = ((Astra.parseAll purchaseLib c!"/w" noFaults (baseWorld b)).1, .ok ()) := by
  rw [← h]

/-- The runs meet the hypotheses of `run_addresses_partial`: with the base path `/api` all documented addresses are right. -/
example : ∃ doc text server, (Astra.parseAll purchaseLib c!"/w" noFaults (baseWorld c!"/api")).1.fs.look [c!"w", c!"api.json"] = some (.file text) ∧
    purchaseLib.render false doc = .ok text ∧ doc.servers = [server] ∧
    ∃ path op, Document.operation doc path c!"POST" = some op ∧
      ∀ v, documentedAt server (expand v path) = c!"http://localhost:8000/api" ++ requestPath v c!"/orders/:id" := by
  have hal : allowed (baseWorld c!"/api").st.svc.denyList [[orderInfo]].flatten = [orderInfo] := by
    show [[orderInfo]].flatten.filter _ = _
    rfl
  have hplace : OwnPlace (baseWorld c!"/api").cwd [c!"w"] (baseWorld c!"/api").st.svc [] [c!"w", c!"api.json"] := by
    refine ⟨by decide, ?_, by simp⟩
    rintro ⟨h, _⟩
    cases h
  obtain ⟨cfg, doc, text, server, h0, h1, h2, h3, h4⟩ := run_addresses_partial purchaseLib purchaseLib_byModel.keeps (fun _ => False)
    (fun _ _ _ => ⟨fun _ _ => rfl, id, rfl, rfl, rfl, rfl, rfl, rfl, rfl, rfl⟩)
    c!"/w" noFaults (baseWorld c!"/api") _ [c!"w"]
    (Or.inr (by decide)) (by decide) item_names (by decide) [[orderInfo]] (ginInput_one rfl) rfl (by rw [hal]; unfold DistinctRoutes; decide)
    [] [] _ rfl (options_shape _).2 (by simp) 0 rfl [c!"w", c!"api.json"] (show [c!"w", c!"api.json"] = _ by decide) hplace id
    (base_ok c!"/api" (by decide +kernel))
  obtain ⟨path, _, h5, h6⟩ := h4 orderInfo (by rw [hal]; simp)
  obtain ⟨op, hop⟩ := h5 (by decide)
  obtain rfl := Option.some.inj h0
  refine ⟨doc, text, server, h1, h2, h3, path, op, hop, fun v => ?_⟩
  rw [(h6 (by decide)).mpr ⟨⟨[c!"api"], by decide, by decide⟩, by decide⟩ v]
  rfl

end Astra.Props
