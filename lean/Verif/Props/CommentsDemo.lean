/-
C96: a run of a program with comments on types and on a struct field.
-/
import Verif.Props.Comments
import Verif.Props.MappingDemo

namespace Astra.Props
open Astra.Spec

theorem item_types_once : ∀ x, itemTypes x → ((allTypeSpecs (itemEnv.files x.1)).map (·.2.name)).Nodup := by
  intro x _
  show (([(some c!"Types of the shop.\n", { name := c!"Item", doc := some c!"An Item is sold.\n" }), (some c!"Types of the shop.\n", { name := c!"Owner" }),
    (none, { name := c!"Stamp" }), (none, { name := c!"Status" })] : List (Option Str × TypeSpec)).map (·.2.name)).Nodup
  decide

theorem item_comments {n t : Str} (h : TypeComment (itemEnv.files shopPkg) n t) :
    (n = c!"Item" → t = c!"An Item is sold.") ∧ (n = c!"Owner" → t = c!"Types of the shop.") ∧ (n = c!"Stamp" → t = []) := by
  have h := (type_comment itemEnv shopPkg n t (item_types_once (shopPkg, c!"Item", []) (Or.inl rfl))).mpr h
  refine ⟨?_, ?_, ?_⟩ <;> (rintro rfl; rw [← h]; decide)

/-- The comments of the types are in the file, each once; that of the field `Name` is not, although the analysis has found it. -/
theorem comment_witness :
    occurrences c!"\"description\": \"An Item is sold.\"" (mappedText []) = 1 ∧
    occurrences c!"\"description\": \"Types of the shop.\"" (mappedText []) = 1 ∧
    occurrences c!"How it is called" (mappedText []) = 0 ∧
    ((Astra.parseAll itemLib c!"/w" noFaults (mappedWorld [])).1.st.svc.components.any
      (fun c => c.name = c!"Item" && c.structFields.any (fun f => f.1 = c!"Name" && f.2.doc = c!"How it is called."))) = true := by
  refine ⟨?_, ?_, ?_, ?_⟩ <;> decide +kernel

/-- The run meets the hypotheses of `run_sent_types_commented_partial`: both types have an entry with their comment. -/
theorem item_run_comments : ∃ doc text, (Astra.parseAll itemLib c!"/w" noFaults itemWorld).1.fs.look [c!"w", c!"api.yaml"] = some (.file text) ∧
    itemLib.render true doc = .ok text ∧ ∃ n s, (n, s) ∈ doc.schemas ∧ s.description = c!"An Item is sold." := by
  obtain ⟨m, _, _, doc, text, _, h1, h2, h3⟩ := run_sent_types_commented_partial itemLib (fun _ => itemRoutes) itemLib_byModel (fun _ => False)
    (fun _ _ _ => ⟨fun _ _ => rfl, id, rfl, rfl, rfl, rfl, rfl, rfl, rfl, rfl⟩) c!"/w" noFaults itemWorld _ [c!"w"]
    (Or.inr (by decide)) (by decide) item_names (by decide) [[itemInfo]] (ginInput_one rfl) rfl (by rw [item_allowed]; unfold DistinctRoutes; decide)
    [] [] _ rfl (options_shape _).2 (by simp) 0 rfl [c!"w", c!"api.yaml"] (show [c!"w", c!"api.yaml"] = _ by decide) item_place id
    rfl rfl (fun _ => List.Perm.refl _) itemEnv itemMarshal itemTypes item_typed item_types_once item_ok
  obtain ⟨R, target, r1, _, r3⟩ := h3 (item_documentable m)
  obtain ⟨relative, mains, hrel, hlen, h4⟩ := r3 itemInfo (by rw [item_allowed]; simp) (by decide) (by
    rw [item_allowed]; intro j hj; simp at hj; intros; exact hj)
  have hrel' : relative = c!"shop.go" := by cases hrel; rfl
  subst hrel'
  obtain ⟨comment, id, es, hv⟩ := item_view
  obtain ⟨main, hmain⟩ := List.exists_mem_of_length_pos (show 0 < mains.length by rw [hlen]; decide)
  obtain ⟨n, s, _, e2, _, e4⟩ := r1 (shopPkg, c!"Item", []) (h4 comment id es (fun _ _ => hv) main hmain _ (Or.inr item_binds) _ (.pointer (.named _ _ _)))
  exact ⟨doc, text, h1, h2, n, s, e2, (item_comments e4).1 rfl⟩

/-- And those of `run_type_comments`. -/
theorem item_run_described : ∃ doc text, (Astra.parseAll itemLib c!"/w" noFaults itemWorld).1.fs.look [c!"w", c!"api.yaml"] = some (.file text) ∧
    itemLib.render true doc = .ok text ∧ ∀ n s, (n, s) ∈ doc.schemas → ∀ t, PartOf t s → Undescribed t := by
  obtain ⟨_, _, _, doc, text, _, _, h1, h2, _, _, h3, _⟩ := run_type_comments itemLib (fun _ => itemRoutes) itemLib_byModel (fun _ => False)
    (fun _ _ _ => ⟨fun _ _ => rfl, id, rfl, rfl, rfl, rfl, rfl, rfl, rfl, rfl⟩) c!"/w" noFaults itemWorld _ [c!"w"]
    (Or.inr (by decide)) (by decide) item_names (by decide) [[itemInfo]] (ginInput_one rfl) rfl (by rw [item_allowed]; unfold DistinctRoutes; decide)
    [] [] _ rfl (options_shape _).2 (by simp) 0 rfl [c!"w", c!"api.yaml"] (show [c!"w", c!"api.yaml"] = _ by decide) item_place id
    rfl (fun _ => someChoice_valid) itemEnv itemTypes item_typed (Documentable.ownTypes (item_documentable [])) item_types_once item_ok
  exact ⟨doc, text, h1, h2, h3⟩

/-- A component whose field has a comment, and an order of the packages that does not depend on it. -/
def commentedField : Field :=
  { name := c!"A", package := c!"p", type := c!"struct",
    structFields := [(c!"B", { type := c!"string", doc := c!"Comment.", bindingTags := [(.none, { name := c!"B" })] })] }

example : withoutFieldComments commentedField ≠ commentedField := by decide
example : ∀ gs : List (Str × List Field), id (gs.map (groupVia withoutFieldComments)) = (id gs).map (groupVia withoutFieldComments) := fun _ => rfl
example : ∀ gs : List (Str × List Field), (gs.map (groupVia withoutFieldComments)).reverse = gs.reverse.map (groupVia withoutFieldComments) := fun _ => List.map_reverse.symm

end Astra.Props
