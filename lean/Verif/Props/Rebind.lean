/-
C41: rebinding restores every configured output.
-/
import Verif.Model.Pipeline
import Verif.Spec.Rebind

namespace Astra.Props
open Spec

/-- The full claim: a service with gin inputs and known outputs is rebound completely. It is false, see `not_rebind_restores`. -/
def RebindRestores : Prop :=
  ∀ s : Service, (∀ i ∈ s.inputs, i.mode = c!"gin") → (∀ o ∈ s.outputs, KnownOutput o) →
    (rebindOptions s).2 = none ∧ Rebound s (rebindOptions s).1

theorem rebindInputs_ok (is : List Input) (h : ∀ i ∈ is, i.mode = c!"gin") (s : Service) :
    ∃ l, rebindInputs is s = ({ s with inputs := s.inputs ++ l }, none) ∧ Each ReboundInput is l := by
  induction is generalizing s with
  | nil => exact ⟨[], by simp [rebindInputs], .nil⟩
  | cons i is ih =>
    have hi : i.mode = modeGin := h i (by simp)
    obtain ⟨l, h1, h2⟩ := ih (fun j hj => h j (by simp [hj])) (withGinInput none s)
    refine ⟨{ mode := modeGin, createRoutes := .ginCreate none, parseRoutes := .ginParse } :: l, ?_, .cons ⟨?_, rfl, rfl⟩ h2⟩
    · rw [rebindInputs, if_pos hi, h1]; simp [withGinInput]
    · exact hi.symm

theorem rebindInputs_bad (is : List Input) (h : ∃ i ∈ is, i.mode ≠ c!"gin") (s : Service) : (rebindInputs is s).2 ≠ none := by
  induction is generalizing s with
  | nil => obtain ⟨i, hi, _⟩ := h; cases hi
  | cons i is ih =>
    rw [rebindInputs]
    split
    · rename_i hi
      apply ih
      obtain ⟨j, hj, hne⟩ := h
      rcases List.mem_cons.mp hj with rfl | hj
      · exact absurd hi hne
      · exact ⟨j, hj, hne⟩
    · simp

/-- The path of a file output, as the code reads it. -/
theorem configStr_file {o : Output} (hm : o.mode ≠ c!"azureFunctions") {v : Str} (h : configuredPath o = some v) :
    configStr o.configuration keyFilePath = (v, true) ∧ v ≠ [] := by
  unfold configuredPath at h
  rw [if_neg hm] at h
  unfold configStr
  have e : keyFilePath = c!"filePath" := rfl
  rw [e]
  cases ha : aget o.configuration c!"filePath" with
  | none => simp [ha] at h
  | some j =>
    cases j <;> simp [ha] at h
    rename_i u
    obtain ⟨h1, rfl⟩ := h
    exact ⟨rfl, h1⟩

theorem configStr_none {o : Output} (hm : o.mode ≠ c!"azureFunctions") (h : configuredPath o = none) :
    ¬ (configStr o.configuration keyFilePath).2 = true ∨ (configStr o.configuration keyFilePath).1 = [] := by
  unfold configuredPath at h
  rw [if_neg hm] at h
  unfold configStr
  have e : keyFilePath = c!"filePath" := rfl
  rw [e]
  cases ha : aget o.configuration c!"filePath" with
  | none => simp
  | some j =>
    cases j <;> simp
    rename_i u
    simp [ha] at h
    exact h

theorem generatorPath_mono {cells : List Str} {a : Action} {v : Str} (h : generatorPath cells a = some v) (more : List Str) :
    generatorPath (cells ++ more) a = some v := by
  cases a <;> simp only [generatorPath] at h ⊢ <;>
    first | exact h | (rw [List.getElem?_append_left (List.getElem?_eq_some_iff.mp h).1]; exact h)

theorem reboundOutput_mono {cells : List Str} {o o' : Output} (hk : configuredPath o ≠ none) (h : ReboundOutput cells o o') (more : List Str) :
    ReboundOutput (cells ++ more) o o' := by
  obtain ⟨h1, h2, h3, h4⟩ := h
  refine ⟨h1, h2, ?_, h4⟩
  cases hc : configuredPath o with
  | none => exact absurd hc hk
  | some v => exact generatorPath_mono (h3.trans hc) more

theorem rebindOutputs_ok (os : List Output) (h : ∀ o ∈ os, KnownOutput o) (ha : ∀ o ∈ os, o.mode ≠ c!"azureFunctions") (s : Service) :
    ∃ l c, rebindOutputs os s = ({ s with outputs := s.outputs ++ l, cells := s.cells ++ c }, none) ∧
      Each (ReboundOutput (s.cells ++ c)) os l := by
  induction os generalizing s with
  | nil => exact ⟨[], [], by simp [rebindOutputs], .nil⟩
  | cons o os ih =>
    have hk := h o (by simp)
    have hna : o.mode ≠ c!"azureFunctions" := ha o (by simp)
    cases hc : configuredPath o with
    | none => exact absurd hc hk.2
    | some v =>
      obtain ⟨hv, hne⟩ := configStr_file hna hc
      have ih' := ih (fun j hj => h j (by simp [hj])) (fun j hj => ha j (by simp [hj]))
      have hza : ¬ o.mode = modeAzure := hna
      by_cases hj : o.mode = modeJson
      · obtain ⟨l, c, h1, h2⟩ := ih' (withJsonOutput v s)
        refine ⟨{ mode := modeJson, generate := .json s.cells.length, configuration := [(keyFilePath, .str v)] } :: l, v :: c, ?_, ?_⟩
        · rw [rebindOutputs, if_neg hza, if_pos hj]
          simp only [hv, hne, not_true_eq_false, or_self, if_false, h1]
          simp [withJsonOutput]
        · refine .cons ⟨hj.symm, ?_, ?_, ?_⟩ (by simpa [withJsonOutput] using h2)
          · rw [hc]
            show (match aget [(keyFilePath, Json.str v)] c!"filePath" with
              | some (.str v) => if v = [] then none else some v
              | _ => none) = some v
            have : aget [(keyFilePath, Json.str v)] c!"filePath" = some (.str v) := rfl
            rw [this]; simp [hne]
          · rw [hc]; simp [generatorPath]
          · have hj' : o.mode = c!"json" := hj
            refine ⟨fun e => absurd e hna, fun _ => ⟨_, rfl⟩, fun e => ?_⟩
            rw [hj'] at e; exact absurd e (by decide)
      · have ho : o.mode = modeOpenApi := by
          rcases hk.1 with e | e | e
          · exact absurd e hna
          · exact absurd e hj
          · exact e
        obtain ⟨l, c, h1, h2⟩ := ih' (withOpenApiOutput v s)
        refine ⟨{ mode := modeOpenApi, generate := .openapi s.cells.length, configuration := [(keyFilePath, .str v)] } :: l, v :: c, ?_, ?_⟩
        · rw [rebindOutputs, if_neg hza, if_neg hj, if_pos ho]
          simp only [hv, hne, not_true_eq_false, or_self, if_false, h1]
          simp [withOpenApiOutput]
        · refine .cons ⟨ho.symm, ?_, ?_, ?_⟩ (by simpa [withOpenApiOutput] using h2)
          · rw [hc]
            show (match aget [(keyFilePath, Json.str v)] c!"filePath" with
              | some (.str v) => if v = [] then none else some v
              | _ => none) = some v
            have : aget [(keyFilePath, Json.str v)] c!"filePath" = some (.str v) := rfl
            rw [this]; simp [hne]
          · rw [hc]; simp [generatorPath]
          · have ho' : o.mode = c!"openapi" := ho
            refine ⟨fun e => absurd e hna, fun e => absurd e hj, fun _ => ⟨_, rfl⟩⟩

theorem rebindOutputs_bad (os : List Output) (h : ∃ o ∈ os, o.mode = c!"azureFunctions" ∨ ¬ KnownOutput o) (s : Service) :
    (rebindOutputs os s).2 ≠ none := by
  induction os generalizing s with
  | nil => obtain ⟨o, ho, _⟩ := h; cases ho
  | cons o os ih =>
    have tail : ∀ (hgood : ¬ (o.mode = c!"azureFunctions" ∨ ¬ KnownOutput o)) (s' : Service), (rebindOutputs os s').2 ≠ none := by
      intro hgood s'
      apply ih
      obtain ⟨j, hj, hbad⟩ := h
      rcases List.mem_cons.mp hj with rfl | hj
      · exact absurd hbad hgood
      · exact ⟨j, hj, hbad⟩
    rw [rebindOutputs]
    split
    · simp only
      split
      · simp
      · rename_i hh
        exfalso; apply hh
        unfold configStr
        split
        · exact Or.inl rfl
        · exact Or.inr rfl
    · rename_i hza
      have hna : o.mode ≠ c!"azureFunctions" := hza
      split
      · rename_i hj
        simp only
        split
        · simp
        · rename_i hh
          apply tail
          rintro (e | e)
          · exact hna e
          · apply e
            refine ⟨Or.inr (Or.inl hj), fun hn => hh ?_⟩
            exact configStr_none hna hn
      · split
        · rename_i ho
          simp only
          split
          · simp
          · rename_i hh
            apply tail
            rintro (e | e)
            · exact hna e
            · apply e
              refine ⟨Or.inr (Or.inr ho), fun hn => hh ?_⟩
              exact configStr_none hna hn
        · simp

/-- C41 (partial): a service with gin inputs and JSON or OpenAPI outputs with a path is rebound completely: every input and output
in its place, with its mode and its path. Missing: Azure Functions outputs (`not_rebind_restores`). -/
theorem rebind_restores_partial (s : Service) (hi : ∀ i ∈ s.inputs, i.mode = c!"gin") (ho : ∀ o ∈ s.outputs, KnownOutput o)
    (ha : ∀ o ∈ s.outputs, o.mode ≠ c!"azureFunctions") : (rebindOptions s).2 = none ∧ Rebound s (rebindOptions s).1 := by
  obtain ⟨l, h1, h2⟩ := rebindInputs_ok s.inputs hi { s with inputs := [] }
  obtain ⟨l', c, h3, h4⟩ := rebindOutputs_ok s.outputs ho ha { s with inputs := l, outputs := [] }
  have e : rebindOptions s = ({ s with inputs := l, outputs := l', cells := s.cells ++ c }, none) := by
    unfold rebindOptions
    rw [h1]
    simp only [List.nil_append]
    simp only [List.nil_append] at h3
    exact h3
  rw [e]
  exact ⟨rfl, h2, h4, rfl⟩

/-- C41: unknown input modes are rejected. -/
theorem rebind_rejects_input (s : Service) (h : ∃ i ∈ s.inputs, i.mode ≠ c!"gin") : (rebindOptions s).2 ≠ none := by
  unfold rebindOptions
  have := rebindInputs_bad s.inputs h { s with inputs := [] }
  split
  · simp
  · rename_i hh; rw [hh] at this; exact absurd rfl this

/-- C41: unknown output modes and missing, empty or non-string paths are rejected. -/
theorem rebind_rejects_output (s : Service) (h : ∃ o ∈ s.outputs, ¬ KnownOutput o) : (rebindOptions s).2 ≠ none := by
  by_cases hi : ∀ i ∈ s.inputs, i.mode = c!"gin"
  · obtain ⟨l, h1, _⟩ := rebindInputs_ok s.inputs hi { s with inputs := [] }
    unfold rebindOptions
    rw [h1]
    obtain ⟨o, ho, hk⟩ := h
    exact rebindOutputs_bad s.outputs ⟨o, ho, Or.inr hk⟩ _
  · exact rebind_rejects_input s (by simpa using hi)

/-- C41: every service with an Azure Functions output is rejected, whatever its configuration says (rebind.go:51 tests `ok` instead
of `!ok`). -/
theorem rebind_rejects_azure (s : Service) (h : ∃ o ∈ s.outputs, o.mode = c!"azureFunctions") : (rebindOptions s).2 ≠ none := by
  by_cases hi : ∀ i ∈ s.inputs, i.mode = c!"gin"
  · obtain ⟨l, h1, _⟩ := rebindInputs_ok s.inputs hi { s with inputs := [] }
    unfold rebindOptions
    rw [h1]
    obtain ⟨o, ho, hk⟩ := h
    exact rebindOutputs_bad s.outputs ⟨o, ho, Or.inl hk⟩ _
  · exact rebind_rejects_input s (by simpa using hi)

/-- A service as it is loaded from the cache. -/
def loadedService : Service :=
  { inputs := [{ mode := c!"gin" }], outputs := [{ mode := c!"azureFunctions", configuration := [(c!"directoryPath", .str c!"functions")] }] }

/-- C41 does not hold in full: a service with an Azure Functions output cannot be rebound. -/
theorem not_rebind_restores : ¬ RebindRestores := by
  intro h
  have := h loadedService (by decide) (by
    intro o ho
    simp only [loadedService, List.mem_singleton] at ho
    subst ho
    exact ⟨Or.inl rfl, by simp [configuredPath, aget]⟩)
  exact rebind_rejects_azure loadedService ⟨_, List.mem_singleton.mpr rfl, rfl⟩ this.1

/-- Non-vacuity: a JSON and an OpenAPI output, the former with a configuration that has more entries. -/
example : let s : Service := { inputs := [{ mode := c!"gin" }], outputs := [{ mode := c!"json", configuration := [(c!"x", .null), (c!"filePath", .str c!"a")] },
      { mode := c!"openapi", configuration := [(c!"filePath", .str c!"b.yaml")] }] }
    (∀ i ∈ s.inputs, i.mode = c!"gin") ∧ (∀ o ∈ s.outputs, o.mode ≠ c!"azureFunctions") ∧ s.outputs.map configuredPath = [some c!"a", some c!"b.yaml"] := by
  decide

end Astra.Props
