/-
C10, C11: recording return types and components.
-/
import Verif.Model.SafePushing

namespace Astra.Props

/-- The identity of a return type: type, package, status code, content type. -/
def rtKey (r : ReturnType) : Str × Str × Int × Str := (r.field.type, r.field.package, r.statusCode, r.contentType)

theorem differs_iff (a b : ReturnType) : returnTypeDiffers a b = true ↔ rtKey a ≠ rtKey b := by
  simp only [returnTypeDiffers, rtKey, Bool.or_eq_true, decide_eq_true_eq, ne_eq, Prod.mk.injEq]
  by_cases h1 : a.field.type = b.field.type <;> by_cases h2 : a.field.package = b.field.package <;>
    by_cases h3 : a.statusCode = b.statusCode <;> by_cases h4 : a.contentType = b.contentType <;> simp [h1, h2, h3, h4]

/-- C10 (exact behaviour): a return type is appended iff the list is empty or some entry in it is different. -/
theorem addReturnType1_exact (prev : List ReturnType) (new : ReturnType) :
    ((prev = [] ∨ ∃ e ∈ prev, rtKey e ≠ rtKey new) → addReturnType1 prev new = prev ++ [new]) ∧
    ((prev ≠ [] ∧ ∀ e ∈ prev, rtKey e = rtKey new) → addReturnType1 prev new = prev) := by
  unfold addReturnType1
  constructor
  · rintro (h | ⟨e, he, hk⟩)
    · simp [h]
    · have hne : prev ≠ [] := by intro h; rw [h] at he; simp at he
      rw [if_neg hne, if_pos]
      rw [List.any_eq_true]
      exact ⟨e, he, (differs_iff _ _).mpr (fun h => hk h.symm)⟩
  · rintro ⟨hne, h⟩
    rw [if_neg hne, if_neg]
    rw [List.any_eq_true]
    rintro ⟨e, he, hd⟩
    exact (differs_iff _ _).mp hd (h e he).symm

/-- C10, partial: existing entries are never dropped or reordered and every added return type is present afterwards.
Missing: absence of duplicates, which fails (below). -/
theorem addReturnType_keeps_and_adds_partial (prev n : List ReturnType) :
    prev <+: addReturnType prev n ∧ ∀ x ∈ n, ∃ y ∈ addReturnType prev n, rtKey y = rtKey x := by
  unfold addReturnType
  induction n generalizing prev with
  | nil => exact ⟨List.prefix_refl _, by simp⟩
  | cons a n ih =>
    have hcases : addReturnType1 prev a = prev ++ [a] ∨
        (addReturnType1 prev a = prev ∧ ∃ e ∈ prev, rtKey e = rtKey a) := by
      by_cases h : prev = [] ∨ ∃ e ∈ prev, rtKey e ≠ rtKey a
      · exact Or.inl ((addReturnType1_exact prev a).1 h)
      · right
        have hne : prev ≠ [] := fun e => h (Or.inl e)
        have hall : ∀ e ∈ prev, rtKey e = rtKey a := by
          intro e he
          by_cases hk : rtKey e = rtKey a
          · exact hk
          · exact absurd (Or.inr ⟨e, he, hk⟩) h
        refine ⟨(addReturnType1_exact prev a).2 ⟨hne, hall⟩, ?_⟩
        cases prev with
        | nil => exact absurd rfl hne
        | cons x xs => exact ⟨x, by simp, hall x (by simp)⟩
    rw [List.foldl_cons]
    obtain ⟨ih1, ih2⟩ := ih (addReturnType1 prev a)
    refine ⟨?_, ?_⟩
    · rcases hcases with h | ⟨h, _⟩
      · rw [h] at ih1 ⊢; exact (List.prefix_append prev [a]).trans ih1
      · rw [h] at ih1 ⊢; exact ih1
    · intro x hx
      simp only [List.mem_cons] at hx
      rcases hx with e | hx
      · subst e
        rcases hcases with h | ⟨h, e, he, hk⟩
        · exact ⟨x, ih1.subset (by rw [h]; simp), rfl⟩
        · exact ⟨e, ih1.subset (by rw [h]; exact he), hk⟩
      · exact ih2 x hx

/-- C10, partial: adding to a list whose entries all have one identity does not duplicate that identity. -/
theorem addReturnType_no_duplicate_partial (prev : List ReturnType) (new : ReturnType) (hne : prev ≠ [])
    (h : ∀ e ∈ prev, rtKey e = rtKey new) : addReturnType prev [new] = prev :=
  (addReturnType1_exact prev new).2 ⟨hne, h⟩

example : addReturnType [{ statusCode := 200 }] [{ statusCode := 200 }] = [{ statusCode := 200 }] := by decide

/-- C10 fails in general: once two different entries are recorded, *every* further return type is appended, in
particular one that is already present. -/
theorem addReturnType_duplicates (prev : List ReturnType) (a b : ReturnType) (ha : a ∈ prev) (hb : b ∈ prev)
    (hab : rtKey a ≠ rtKey b) (new : ReturnType) : addReturnType prev [new] = prev ++ [new] := by
  apply (addReturnType1_exact prev new).1
  right
  by_cases h : rtKey a = rtKey new
  · exact ⟨b, hb, fun e => hab (h.trans e.symm)⟩
  · exact ⟨a, ha, h⟩

/-- C10, exactly: of a sequence of return types everything is recorded except the repetitions of the first one that follow it directly. -/
theorem addReturnType_sequence (a : ReturnType) (n : List ReturnType) :
    addReturnType [] (a :: n) = a :: n.dropWhile (fun x => rtKey x = rtKey a) := by
  have all : ∀ (n prev : List ReturnType), (∃ x ∈ prev, ∃ y ∈ prev, rtKey x ≠ rtKey y) → addReturnType prev n = prev ++ n := by
    intro n
    induction n with
    | nil => intro prev _; simp [addReturnType]
    | cons b n ih =>
      rintro prev ⟨x, hx, y, hy, hxy⟩
      have h1 : addReturnType1 prev b = prev ++ [b] := addReturnType_duplicates prev x y hx hy hxy b
      have h2 : addReturnType prev (b :: n) = addReturnType (addReturnType1 prev b) n := rfl
      rw [h2, h1, ih (prev ++ [b]) ⟨x, by simp [hx], y, by simp [hy], hxy⟩]
      simp
  have h0 : addReturnType [] (a :: n) = addReturnType [a] n := by
    have : addReturnType1 [] a = [a] := by simp [addReturnType1]
    show n.foldl addReturnType1 (addReturnType1 [] a) = _
    rw [this]; rfl
  rw [h0]
  induction n with
  | nil => rfl
  | cons b n ih =>
    have h2 : addReturnType [a] (b :: n) = addReturnType (addReturnType1 [a] b) n := rfl
    rw [h2]
    by_cases hb : rtKey b = rtKey a
    · have h1 : addReturnType1 [a] b = [a] := (addReturnType1_exact [a] b).2 ⟨by simp, by simp [hb]⟩
      have h3 : addReturnType [] (a :: n) = addReturnType [a] n := by
        have : addReturnType1 [] a = [a] := by simp [addReturnType1]
        show n.foldl addReturnType1 (addReturnType1 [] a) = _
        rw [this]; rfl
      rw [h1, ih h3, List.dropWhile_cons_of_pos (by simpa using hb)]
    · have h1 : addReturnType1 [a] b = [a] ++ [b] := (addReturnType1_exact [a] b).1 (Or.inr ⟨a, by simp, fun e => hb e.symm⟩)
      rw [h1, List.dropWhile_cons_of_neg (by simpa using hb), all n ([a] ++ [b]) ⟨a, by simp, b, by simp, fun e => hb e.symm⟩]
      simp

example : (addReturnType [] [{ statusCode := 200 }, { statusCode := 200 }, { statusCode := 404 }, { statusCode := 404 }]).map (·.statusCode)
    = [200, 404, 404] := by decide

/-- C10 fails (concrete witness). -/
theorem addReturnType_duplicate_witness :
    (addReturnType [] [{ statusCode := 200 }, { statusCode := 404 }, { statusCode := 200 }]).map (·.statusCode)
      = [200, 404, 200] := by decide

/-! ### C11: components -/

/-- The identity of a component. -/
def compKey (f : Field) : Str × Str := (f.name, f.package)

/-- The stored definition for an identity. -/
def definitionOf (components : List Field) (k : Str × Str) : Option Field := components.find? (fun f => compKey f = k)

theorem addComponent1_eq (prev : List Field) (new : Field) :
    addComponent1 prev new = if ∃ e ∈ prev, compKey e = compKey new then prev else prev ++ [new] := by
  unfold addComponent1 compKey
  by_cases h0 : prev = []
  · simp [h0]
  · rw [if_neg h0]
    by_cases h : ∃ e ∈ prev, (e.name, e.package) = (new.name, new.package)
    · rw [if_pos h, if_pos]
      rw [List.any_eq_true]
      obtain ⟨e, he, hk⟩ := h
      simp only [Prod.mk.injEq] at hk
      exact ⟨e, he, by simp [hk.1, hk.2]⟩
    · rw [if_neg h, if_neg]
      rw [List.any_eq_true]
      rintro ⟨e, he, hk⟩
      simp only [Bool.and_eq_true, decide_eq_true_eq] at hk
      exact h ⟨e, he, by rw [hk.1, hk.2]⟩

/-- C11: after any sequence of additions the definition of an identity is the first one among the old components and the
additions, in order; nothing else is stored. -/
theorem addComponent_first_wins (prev n : List Field) (k : Str × Str) :
    definitionOf (addComponent prev n) k = definitionOf (prev ++ n) k := by
  unfold addComponent
  induction n generalizing prev with
  | nil => simp
  | cons a n ih =>
    rw [List.foldl_cons, ih, addComponent1_eq]
    unfold definitionOf
    split
    · rename_i h
      obtain ⟨e, he, hk⟩ := h
      simp only [List.find?_append]
      cases hf : prev.find? (fun f => compKey f = k) with
      | some x => simp
      | none =>
        have hak : ¬ compKey a = k := by
          intro e2
          rw [List.find?_eq_none] at hf
          exact hf e he (by simp [hk, e2])
        simp [hak]
    · simp [List.append_assoc]

/-- C11: old components stay where they are, and each addition keeps identities unique. -/
theorem addComponent_prefix_nodup (prev n : List Field) :
    prev <+: addComponent prev n ∧
    ((prev.map compKey).Nodup → ((addComponent prev n).map compKey).Nodup) := by
  unfold addComponent
  induction n generalizing prev with
  | nil => exact ⟨List.prefix_refl _, id⟩
  | cons a n ih =>
    rw [List.foldl_cons]
    obtain ⟨h1, h2⟩ := ih (addComponent1 prev a)
    rw [addComponent1_eq] at h1 h2 ⊢
    split
    · rename_i h
      rw [if_pos h] at h1 h2
      exact ⟨h1, h2⟩
    · rename_i h
      rw [if_neg h] at h1 h2
      refine ⟨(List.prefix_append prev [a]).trans h1, fun hn => h2 ?_⟩
      rw [List.map_append, List.nodup_append]
      refine ⟨hn, by simp, ?_⟩
      intro x hx y hy e
      subst e
      simp only [List.map_cons, List.map_nil, List.mem_singleton] at hy
      obtain ⟨c, hc, hxc⟩ := List.mem_map.mp hx
      exact h ⟨c, hc, by rw [hxc, hy]⟩

/-- C11: adding the same components again changes nothing. -/
theorem addComponent_idempotent (prev n : List Field) :
    addComponent (addComponent prev n) n = addComponent prev n := by
  have key : ∀ (m l : List Field), (∀ x ∈ m, ∃ e ∈ l, compKey e = compKey x) → addComponent l m = l := by
    intro m
    induction m with
    | nil => intro l _; rfl
    | cons a m ih =>
      intro l h
      unfold addComponent
      rw [List.foldl_cons, addComponent1_eq, if_pos (h a (by simp))]
      exact ih l (fun x hx => h x (by simp [hx]))
  apply key
  intro x hx
  have h := addComponent_first_wins prev n (compKey x)
  have hs : (definitionOf (prev ++ n) (compKey x)).isSome := by
    unfold definitionOf
    rw [List.find?_isSome]
    exact ⟨x, by simp [hx], by simp⟩
  rw [← h] at hs
  unfold definitionOf at hs
  rw [List.find?_isSome] at hs
  obtain ⟨e, he, hk⟩ := hs
  exact ⟨e, he, by simpa using hk⟩

example : (addComponent [] [{ name := c!"A", package := c!"p", doc := c!"1" }, { name := c!"B", package := c!"p" },
    { name := c!"A", package := c!"p", doc := c!"2" }]).map (fun f => (f.name, f.doc)) = [(c!"A", c!"1"), (c!"B", [])] := by
  decide

end Astra.Props
