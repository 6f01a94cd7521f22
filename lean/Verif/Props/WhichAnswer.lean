/-
C115: which of the responses of a handler is documented.
-/
import Verif.Props.MixedAnswers

namespace Astra.Props
open Astra.Spec

theorem entries_recorded (es : List Entry) : ∀ r : Route, (withEntries es r).returnTypes = addReturnType r.returnTypes (es.flatMap (·.responses)) := by
  induction es with
  | nil => intro r; rfl
  | cons e es ih =>
    intro r
    have h1 : withEntries (e :: es) r = withEntries es (e.addTo r) := rfl
    have h2 : (e.addTo r).returnTypes = addReturnType r.returnTypes e.responses := record_eq _ _
    rw [h1, ih, h2, List.flatMap_cons]
    unfold addReturnType
    rw [List.foldl_append]

/-- The schema of a response after the names of its field were cleaned. -/
def shownSchema (SE : SchemaEnv) (m : Str) (rt : ReturnType) : Option Schema := returnSchema SE { rt with field := cleanField m rt.field }

/-- The response is for the status code and media type, and has a schema that is not empty. -/
def Shows (SE : SchemaEnv) (m : Str) (code : Int) (media : Str) (rt : ReturnType) : Prop :=
  rt.statusCode = code ∧ rt.contentType = media ∧ shownSchema SE m rt ≠ none ∧ shownSchema SE m rt ≠ some {}

theorem dropWhile_prefix {α : Type} (p : α → Bool) (later : List α) (hlater : ∀ x xs, later = x :: xs → p x = false) :
    ∀ same : List α, (∀ x ∈ same, p x = true) → (same ++ later).dropWhile p = later := by
  intro same
  induction same with
  | nil =>
    intro _
    cases hl : later with
    | nil => rfl
    | cons x xs => rw [List.nil_append, List.dropWhile_cons, hlater x xs hl]; rfl
  | cons y ys ih =>
    intro h
    rw [List.cons_append, List.dropWhile_cons, h y (List.mem_cons_self ..)]
    exact ih (fun x hx => h x (List.mem_cons_of_mem _ hx))

/-- C115, which response is documented: a route without responses whose analysis finds the response `first`, then responses that are the same as `first`
in type, package, status code and media type, then `later` ones, which begin with one that is not the same. Under a status code and a media type is
the schema of the last of the later responses with a schema for them; if there is none, that of `first`, if it has one for them; otherwise
nothing. The schemas of `same` are never looked at. Restricted to a route that is analysed once. -/
theorem which_answer (SE : SchemaEnv) (cs : List Field) (ch : RouteChoice) (m : Str) (es : List Entry) (r : Route) (hr : r.returnTypes = [])
    (first : ReturnType) (same later : List ReturnType) (hes : es.flatMap (·.responses) = first :: (same ++ later))
    (hsame : ∀ x ∈ same, SameResponse x first) (hlater : ∀ x xs, later = x :: xs → ¬ SameResponse x first) (code : Int) (media : Str) :
    (∀ before x after, later = before ++ x :: after → Shows SE m code media x → (∀ y ∈ after, ¬ Shows SE m code media y) →
      contentAt (operationOf SE cs ch (cleanRoute m (withEntries es r))) (itoa code) media = shownSchema SE m x) ∧
    ((∀ y ∈ later, ¬ Shows SE m code media y) → Shows SE m code media first →
      contentAt (operationOf SE cs ch (cleanRoute m (withEntries es r))) (itoa code) media = shownSchema SE m first) ∧
    ((∀ y ∈ later, ¬ Shows SE m code media y) → ¬ Shows SE m code media first →
      contentAt (operationOf SE cs ch (cleanRoute m (withEntries es r))) (itoa code) media = none) := by
  have hkey : ∀ x, rtKey x = rtKey first ↔ SameResponse x first := by
    intro x
    simp only [rtKey, SameResponse, Prod.mk.injEq]
  have hrec : (withEntries es r).returnTypes = first :: later := by
    rw [entries_recorded, hr, hes, addReturnType_sequence, dropWhile_prefix]
    · intro x xs hx
      exact decide_eq_false (fun h => hlater x xs hx ((hkey x).mp h))
    · intro x hx
      exact decide_eq_true ((hkey x).mpr (hsame x hx))
  have hret : (cleanRoute m (withEntries es r)).returnTypes = (first :: later).map (fun t => { t with field := cleanField m t.field }) := by
    rw [← hrec]; rfl
  have hc := (responses_exact_partial SE cs ch (cleanRoute m (withEntries es r))).2 code media
  rw [hret, List.filter_map, List.getLast?_map] at hc
  have hnone : ∀ l : List ReturnType, (∀ y ∈ l, ¬ Shows SE m code media y) →
      l.filter ((fun rt => decide (rt.statusCode = code ∧ rt.contentType = media ∧ returnSchema SE rt ≠ none ∧ returnSchema SE rt ≠ some {})) ∘
        fun t => { t with field := cleanField m t.field }) = [] := by
    intro l hl
    rw [List.filter_eq_nil_iff]
    intro y hy h
    simp only [Function.comp_apply, decide_eq_true_eq] at h
    exact hl y hy h
  have hone : ∀ x, Shows SE m code media x → ((fun rt : ReturnType => decide (rt.statusCode = code ∧ rt.contentType = media ∧ returnSchema SE rt ≠ none ∧
      returnSchema SE rt ≠ some {})) ∘ fun t => { t with field := cleanField m t.field }) x = true := by
    intro x h
    simp only [Function.comp_apply, decide_eq_true_eq]
    exact h
  refine ⟨fun before x after hl hx ha => ?_, fun hl hf => ?_, fun hl hf => ?_⟩
  · rw [hc, hl, ← List.cons_append, List.filter_append, List.filter_cons_of_pos (hone x hx), hnone after ha, List.getLast?_append]
    rfl
  · rw [hc, List.filter_cons_of_pos (hone first hf), hnone later hl]
    rfl
  · rw [hc, hnone (first :: later) (by
      intro y hy
      rcases List.mem_cons.mp hy with rfl | hy
      · exact hf
      · exact hl y hy)]
    rfl

/-! A handler that sends `[]string` and `[]int` with 200 and then a text with 404: the first slice type is documented for 200, not the last. -/

def strings : ReturnType := { statusCode := 200, contentType := c!"application/json", field := { type := c!"slice", sliceType := c!"string" } }
def ints : ReturnType := { statusCode := 200, contentType := c!"application/json", field := { type := c!"slice", sliceType := c!"int" } }
def missing : ReturnType := { statusCode := 404, contentType := c!"application/json", field := { type := c!"string" } }

def pickEntries : List Entry := [{ responses := [strings] }, { responses := [ints] }, { responses := [missing] }]

theorem pick_shows : Shows {} [] 200 c!"application/json" strings ∧ ¬ Shows {} [] 200 c!"application/json" missing ∧
    Shows {} [] 404 c!"application/json" missing := by
  have h1 : ∀ rt ∈ [strings, missing], (shownSchema {} [] rt).map (·.type) = some (if rt.statusCode = 200 then c!"array" else c!"string") := by decide +kernel
  have h2 : ∀ rt ∈ [strings, missing], shownSchema {} [] rt ≠ none ∧ shownSchema {} [] rt ≠ some {} := by
    intro rt hrt
    have h := h1 rt hrt
    constructor
    · intro h0; rw [h0] at h; cases h
    · intro h0
      rw [h0] at h
      split at h <;> exact absurd h (by decide)
  refine ⟨⟨rfl, rfl, h2 _ (by simp)⟩, fun h => absurd h.1 (by decide), ⟨rfl, rfl, h2 _ (by simp)⟩⟩

example : contentAt (operationOf {} [] someChoice (cleanRoute [] (withEntries pickEntries {}))) (itoa 200) c!"application/json" = shownSchema {} [] strings ∧
    contentAt (operationOf {} [] someChoice (cleanRoute [] (withEntries pickEntries {}))) (itoa 404) c!"application/json" = shownSchema {} [] missing := by
  have hsame : ∀ x ∈ [ints], SameResponse x strings := by decide
  have hlater : ∀ x xs, [missing] = x :: xs → ¬ SameResponse x strings := by
    intro x xs h
    cases h
    decide
  refine ⟨(which_answer {} [] someChoice [] pickEntries {} rfl strings [ints] [missing] rfl hsame hlater 200 _).2.1 ?_ pick_shows.1,
    (which_answer {} [] someChoice [] pickEntries {} rfl strings [ints] [missing] rfl hsame hlater 404 _).1 [] missing [] rfl pick_shows.2.2 (by simp)⟩
  intro y hy
  rw [List.mem_singleton.mp hy]
  exact pick_shows.2.1

end Astra.Props
