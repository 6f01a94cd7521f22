/-
C97: a run of a program with a mandatory field, a query parameter and two kinds of path segments.
-/
import Verif.Props.Required
import Verif.Props.MappingDemo

namespace Astra.Props
open Astra.Spec

/-- `type Order struct { Name string }` with the tag `json:"name" binding:"required"`. -/
def purchaseFields : List (StructField × GoType) :=
  [({ name := c!"Name", tag := c!"json:\"name\" binding:\"required\"" }, .basic .string c!"string")]

def purchaseEnv : TypeEnv :=
  { itemEnv with
    underlying := fun _ n _ => if n = c!"Order" then .struct purchaseFields else .interface
    files := fun _ => [[.type none [{ name := c!"Order" }]]] }

/-- `c.Query("q"); c.BindJSON(&order); c.Header("X-A", ""); c.JSON(200, order)`. -/
def purchaseProg : Prog :=
  { types := purchaseEnv, filePkg := fun _ => shopPkg
    funcs := fun f => if f = 0 then { params := fun _ => ctxParams, body := [.call 0 [], .call 1 [], .call 2 [], .call 3 []] } else {}
    view := fun _ id =>
      if id = 0 then { func := .ok (true, c!"Query"), args := [{ value := .ok c!"q" }] }
      else if id = 1 then { func := .ok (true, c!"BindJSON"), args := [{ type := .ok (.pointer (.named (some shopPkg) c!"Order" [])) }] }
      else if id = 2 then { func := .ok (true, c!"Header"), args := [{ value := .ok c!"X-A" }, { value := .ok [] }] }
      else if id = 3 then { func := .ok (true, c!"JSON"), args := [{ value := .ok c!"200" }, { type := .ok (.named (some shopPkg) c!"Order" []) }] }
      else {} }

def purchaseRoutes : RouteEnv where
  prog := purchaseProg
  loadable p := p = shopPkg
  fileOf _ f := if f = c!"shop.go" then some 0 else none
  decls _ := [⟨c!"Post", 10, 0, []⟩]
  lowerCamel s := s

def purchaseLib : Lib :=
  { routerLib with parse := fun _ cs r => match parseRoute purchaseRoutes 3 cs r with | some x => x | none => (cs, .err []) }

theorem purchaseLib_byModel : ByModel purchaseLib (fun _ => purchaseRoutes) := by
  refine ⟨fun _ f hf => (by cases hf), fun ctx cs r cs' r' h => ⟨3, ?_⟩⟩
  have h : (match parseRoute purchaseRoutes 3 cs r with | some x => x | none => (cs, .err [])) = (cs', .ok r') := h
  cases hp : parseRoute purchaseRoutes 3 cs r with
  | none => rw [hp] at h; cases h
  | some x => rw [hp] at h; exact congrArg some h

def purchaseInfo : RouteInfo := ⟨c!"POST", c!"/orders/:id/*rest", c!"example.com/shop.Post", c!"shop.go", 10⟩

def purchaseWorld : World Proc :=
  { fs := itemWorld.fs, cwd := [c!"w"]
    st := { svc := newService [.workDir c!"/w", .ginInput (some [purchaseInfo]), .openApiOutput c!"api.json",
      .config (some { title := c!"t", host := c!"localhost", port := 8000, basePath := c!"/" })] } }

/-- The text of the OpenAPI file after the run. -/
def purchaseText : Str :=
  match (Astra.parseAll purchaseLib c!"/w" noFaults purchaseWorld).1.fs.look [c!"w", c!"api.json"] with
  | some (.file t) => t
  | _ => []

/-- C97 is false: a request must have a body with a `name`, and the analysis has recorded that, but the file only says that the path
parameter `id` is required. (It also documents the catch-all segment as a parameter, which the standard wants to be required.) -/
theorem required_witness :
    (Astra.parseAll purchaseLib c!"/w" noFaults purchaseWorld).2 = .ok () ∧
    ((Astra.parseAll purchaseLib c!"/w" noFaults purchaseWorld).1.st.svc.components.any
      (fun c => c.name = c!"Order" && c.structFields.any (fun f => f.1 = c!"Name" && f.2.validationTags.any (fun t => t.2)))) = true ∧
    occurrences c!"\"required\"" purchaseText = 1 ∧ occurrences c!"\"name\": \"id\",\n            \"in\": \"path\",\n            \"required\": true" purchaseText = 1 := by
  refine ⟨?_, ?_, ?_, ?_⟩ <;> decide +kernel

theorem purchase_allowed : allowed purchaseWorld.st.svc.denyList [[purchaseInfo]].flatten = [purchaseInfo] := by
  show [[purchaseInfo]].flatten.filter _ = _
  rfl

theorem purchase_ok : Astra.parseAll purchaseLib c!"/w" noFaults purchaseWorld = ((Astra.parseAll purchaseLib c!"/w" noFaults purchaseWorld).1, .ok ()) := by
  rw [← required_witness.1]

theorem purchase_place : OwnPlace purchaseWorld.cwd [c!"w"] purchaseWorld.st.svc [] [c!"w", c!"api.json"] := by
  refine ⟨by decide, ?_, by simp⟩
  rintro ⟨h, _⟩
  cases h

/-- The run meets the hypotheses of `run_required_partial`. -/
theorem purchase_run : ∃ doc text, (Astra.parseAll purchaseLib c!"/w" noFaults purchaseWorld).1.fs.look [c!"w", c!"api.json"] = some (.file text) ∧
    purchaseLib.render false doc = .ok text ∧
      ∀ op, Document.operation doc c!"/orders/{id}/{rest*}" c!"POST" = some op → AsksForSegments c!"/orders/:id/*rest" op := by
  obtain ⟨doc, text, h1, h2, h3⟩ := run_required_partial purchaseLib (fun _ => purchaseRoutes) purchaseLib_byModel (fun _ => False)
    (fun _ _ _ => ⟨fun _ _ => rfl, id, rfl, rfl, rfl, rfl, rfl, rfl, rfl, rfl⟩) (fun _ => someChoice_valid) (fun _ f hf => (by cases hf))
    c!"/w" noFaults purchaseWorld _ [c!"w"]
    (Or.inr (by decide)) (by decide) item_names (by decide) [[purchaseInfo]] (ginInput_one rfl) rfl (by rw [purchase_allowed]; unfold DistinctRoutes; decide)
    [] [] _ rfl (options_shape _).2 (by simp) 0 rfl [c!"w", c!"api.json"] (show [c!"w", c!"api.json"] = _ by decide) purchase_place id purchase_ok
  refine ⟨doc, text, h1, h2, fun op hop => ?_⟩
  obtain ⟨i, hi, _, _, h4⟩ := h3 _ _ _ hop
  rw [purchase_allowed, List.mem_singleton] at hi
  subst hi
  exact h4

/-- The segments of the path: one that is required, and one that is not. -/
example : wildcards c!"/orders/:id/*rest" = [(':', c!"id"), ('*', c!"rest")] := by decide

/-- A custom function that adds a query parameter. -/
example : AsksForNothing (fun _ _ r ops cs => { route := { r.getD {} with queryParams := (r.getD {}).queryParams ++ [{ name := c!"page" }] }, ops := ops, components := cs, res := .ok .given }) where
  path _ _ _ _ _ := rfl
  keeps _ _ _ _ _ _ h := h
  pathParams _ _ _ _ _ _ h := Or.inl h
  queryParams _ _ _ _ _ p h := by
    rcases List.mem_append.mp h with h | h
    · exact Or.inl h
    · rw [List.mem_singleton] at h; subst h; exact Or.inr rfl
  requestHeaders _ _ _ _ _ _ h := Or.inl h
  responseHeaders _ _ _ _ _ _ h := Or.inl h

/-- A component with a mandatory field, and an order of the packages that does not depend on it. -/
def mandatoryField : Field :=
  { name := c!"A", package := c!"p", type := c!"struct",
    structFields := [(c!"B", { type := c!"string", validationTags := [(.binding, true)], bindingTags := [(.none, { name := c!"B" })] })] }

example : withoutRequired mandatoryField ≠ mandatoryField := by decide
example : ∀ gs : List (Str × List Field), (gs.map (groupVia withoutRequired)).reverse = gs.reverse.map (groupVia withoutRequired) := fun _ => List.map_reverse.symm

end Astra.Props
