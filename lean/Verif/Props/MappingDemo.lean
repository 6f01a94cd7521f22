/-
C95: a run with custom type mappings.
-/
import Verif.Props.MappingRun
import Verif.Props.SentDemo
import Verif.Props.SharedRoutes

namespace Astra.Props
open Spec Run

/-- The service of `itemWorld` with a JSON document and custom type mappings. -/
def mappedOptions (entries : List (Str × TypeFormat)) : List Opt :=
  [.workDir c!"/w", .ginInput (some [itemInfo]), .openApiOutput c!"api.json",
    .config (some { title := c!"t", host := c!"localhost", port := 8000, basePath := c!"/" }), .typeMapping entries]

def mappedWorld (entries : List (Str × TypeFormat)) : World Proc := { itemWorld with st := { svc := newService (mappedOptions entries) } }

/-- The text of the OpenAPI file after the run. -/
def mappedText (entries : List (Str × TypeFormat)) : Str :=
  match (Astra.parseAll itemLib c!"/w" noFaults (mappedWorld entries)).1.fs.look [c!"w", c!"api.json"] with
  | some (.file t) => t
  | _ => []

def ownerEntry : List (Str × TypeFormat) := [(shopPkg ++ c!".Owner", ⟨c!"string", c!"owner"⟩)]

/-- C95: with an entry for a struct the run succeeds and the document shows the struct as the entry says. Entries for `string` and `float64`,
the types of two of the properties, change nothing in the file, so C95 is false for builtin types. -/
theorem mapping_witness :
    (Astra.parseAll itemLib c!"/w" noFaults (mappedWorld ownerEntry)).2 = .ok () ∧
    occurrences c!"\"format\": \"owner\"" (mappedText []) = 0 ∧
    occurrences c!"\"format\": \"owner\"" (mappedText ownerEntry) = 1 ∧
    occurrences c!"\"format\": \"float64\"" (mappedText []) = 1 ∧
    mappedText [(c!"float64", ⟨c!"string", c!"decimal"⟩), (c!"string", ⟨c!"string", c!"text"⟩)] = mappedText [] := by
  refine ⟨?_, ?_, ?_, ?_, ?_⟩ <;> decide +kernel

/-- The run with the entry meets the hypotheses of `run_custom_types_partial`. -/
theorem demo_custom_types : ∃ doc, (Astra.parseAll itemLib c!"/w" noFaults (mappedWorld ownerEntry)).1.fs.look [c!"w", c!"api.json"] = some (.file (docText doc)) ∧
    ∃ (cs : List Field) (names : List (Str × Str)), ∀ n s, (n, s) ∈ doc.schemas → ∃ c ∈ cs, (∃ b, refName names b c.name c.package = some n) ∧
      (c.name = c!"Owner" → c.package = shopPkg → s = { type := c!"string", format := c!"owner", description := c.doc }) := by
  have hplace : OwnPlace (mappedWorld ownerEntry).cwd [c!"w"] (mappedWorld ownerEntry).st.svc [] [c!"w", c!"api.json"] :=
    ⟨by decide, (by rintro ⟨h, _⟩; cases h), (by intro o ho; cases ho)⟩
  obtain ⟨m, rs, cs, doc, text, names, h1, h2, h3, h4, h5⟩ := run_custom_types_partial itemLib itemLib_byModel.keeps (fun _ => False)
    (fun _ _ _ => ⟨fun _ _ => rfl, id, rfl, rfl, rfl, rfl, rfl, rfl, rfl, rfl⟩) c!"/w" noFaults (mappedWorld ownerEntry) _ [c!"w"] (mappedOptions ownerEntry) rfl
    (Or.inr (by decide)) (by decide) item_names (by decide) [[itemInfo]] (ginInput_one rfl) rfl (by show (List.map _ (allowed _ _)).Nodup; decide +kernel)
    [] [] _ rfl (options_shape _).2 (by simp) 0 rfl [c!"w", c!"api.json"] (show [c!"w", c!"api.json"] = _ by decide) hplace id
    (pair_ok mapping_witness.1)
  refine ⟨doc, ?_, cs, names, fun n s hs => ?_⟩
  · rw [h2]
    have : Except.ok (docText doc) = Except.ok text := h3
    cases this
    rfl
  · obtain ⟨c, hc, b, _, hb, h6⟩ := h4 n s hs
    refine ⟨c, hc, ⟨b, hb⟩, fun e1 e2 => ?_⟩
    rw [h6 c!"string" c!"owner" (by rw [e1, e2]; decide +kernel)]
    rfl

example : expectedFormat (mappedOptions ownerEntry) c!"Owner" shopPkg = some ⟨c!"string", c!"owner"⟩ := by decide +kernel
example : expectedFormat (mappedOptions []) c!"Owner" shopPkg = none := by decide +kernel
example : (customEntries (mappedOptions [(c!"float64", ⟨c!"string", c!"decimal"⟩)])).filter (fun e => e.1 ∉ acceptedTypes) =
    (customEntries (mappedOptions [])).filter (fun e => e.1 ∉ acceptedTypes) := by decide
example : OwnTypeNames { name := c!"Owner", package := shopPkg, type := c!"struct", structFields := [(c!"Id", { type := c!"int" })] } := by
  refine .mk (by decide) ?_
  intro x hx
  simp only [List.mem_singleton] at hx
  subst hx
  exact .mk (by decide) (by simp)

end Astra.Props
