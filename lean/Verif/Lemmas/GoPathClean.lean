/-
More lemmas about cleaned paths.
-/
import Verif.Lemmas.GoPath

namespace Astra

theorem cleanSegs_no_dots {p : Str} (h : isAbs p = true) : ∀ x ∈ cleanSegs p, x ≠ c!".." := by
  have key : ∀ (segs : List Str), (∀ s ∈ segs, '/' ∉ s) → ∀ acc : List Str, (∀ x ∈ acc, x ≠ [] ∧ x ≠ c!"." ∧ '/' ∉ x) →
      (∀ x ∈ acc, x ≠ c!"..") → ∀ x ∈ segs.foldl (cleanStep true) acc, x ≠ c!".." := by
    intro segs
    induction segs with
    | nil => intro _ acc _ h2; exact h2
    | cons s segs ih =>
      intro hs acc h1 h2
      have := cleanStep_inv true acc s (hs s (by simp)) h1 (fun _ => h2)
      exact ih (fun t ht => hs t (by simp [ht])) _ this.1 (this.2 rfl)
  intro x hx
  unfold cleanSegs at hx
  rw [h] at hx
  exact key _ (segments_no_slash p) [] (by simp) (by simp) x (by simpa using hx)

/-- Walking along plain segments appends them. -/
theorem walk_plain_segs (base : FPath) {l : List Str} (h : ∀ x ∈ l, x ≠ [] ∧ x ≠ c!"." ∧ x ≠ c!"..") : walk base l = base ++ l := by
  induction l generalizing base with
  | nil => simp [walk_nil]
  | cons x xs ih =>
    have hx := h x (by simp)
    rw [walk_cons]
    have : walkStep base x = base ++ [x] := by
      unfold walkStep
      rw [if_neg (by rintro (e | e); exact hx.1 e; exact hx.2.1 e), if_neg hx.2.2]
    rw [this, ih _ (fun y hy => h y (by simp [hy]))]
    simp

theorem locOf_abs (cwd : FPath) {p : Str} (h : isAbs p = true) : locOf cwd p = cleanSegs p := by
  have hb : baseOf cwd p = [] := by simp [baseOf, h]
  rw [← cleanSegs_walk cwd p, hb, walk_plain_segs [] (fun x hx => ⟨(cleanSegs_mem p x hx).1, (cleanSegs_mem p x hx).2.1, cleanSegs_no_dots h x hx⟩)]
  simp

/-- A cleaned absolute path that is used as a relative one leads below the base. -/
theorem walk_clean_abs (base cwd : FPath) {p : Str} (h : isAbs p = true) : walk base (segments (pathClean p)) = base ++ locOf cwd p := by
  rw [locOf_abs cwd h]
  have hp : ∀ x ∈ cleanSegs p, x ≠ [] ∧ x ≠ c!"." ∧ x ≠ c!".." :=
    fun x hx => ⟨(cleanSegs_mem p x hx).1, (cleanSegs_mem p x hx).2.1, cleanSegs_no_dots h x hx⟩
  unfold pathClean
  rw [if_pos h]
  have e : segments ('/' :: join c!"/" (cleanSegs p)) = [] :: segments (join c!"/" (cleanSegs p)) := split_cons_sep '/' _
  rw [e, walk_cons, walkStep_empty]
  by_cases hne : cleanSegs p = []
  · rw [hne]
    show walk base (segments []) = base ++ []
    simp [segments, split, walk, walkStep]
  · rw [segments_join (fun x hx => (cleanSegs_mem p x hx).2.2) hne, walk_plain_segs base hp]

theorem split_append_nosep {sep : Char} (pre : Str) {suf : Str} (h : sep ∉ suf) :
    ∃ l x, split sep (pre ++ suf) = l ++ [x ++ suf] := by
  induction pre with
  | nil => exact ⟨[], [], by simp [split_eq_singleton h]⟩
  | cons c cs ih =>
    obtain ⟨l, x, hl⟩ := ih
    by_cases hc : c = sep
    · subst hc
      exact ⟨[] :: l, x, by rw [List.cons_append, split_cons_sep, hl]; rfl⟩
    · cases l with
      | nil => exact ⟨[], c :: x, by simp [split, hl, hc]⟩
      | cons y l => exact ⟨(c :: y) :: l, x, by simp [split, hl, hc]⟩

theorem join_last_suffix (sep : Str) (l : List Str) (x : Str) : x <:+ join sep (l ++ [x]) := by
  induction l with
  | nil => simp [join]
  | cons y l ih =>
    rw [List.cons_append, join_cons (by simp)]
    exact ih.trans (List.suffix_append _ _)

/-- Cleaning keeps an extension. -/
theorem pathClean_suffix {p suf : Str} (hs : '/' ∉ suf) (h : suf <:+ p) (hn : ∀ x : Str, x ++ suf ≠ [] ∧ x ++ suf ≠ c!"." ∧ x ++ suf ≠ c!"..") :
    suf <:+ pathClean p := by
  obtain ⟨pre, rfl⟩ := h
  obtain ⟨l, x, hl⟩ := split_append_nosep pre hs
  have hc : ∃ a, cleanSegs (pre ++ suf) = a ++ [x ++ suf] := by
    unfold cleanSegs segments
    rw [hl, List.foldl_append]
    simp only [List.foldl_cons, List.foldl_nil]
    unfold cleanStep
    rw [if_neg (by rintro (e | e); exact (hn x).1 e; exact (hn x).2.1 e), if_neg (hn x).2.2]
    exact ⟨_, List.reverse_cons ..⟩
  obtain ⟨a, ha⟩ := hc
  have hj : suf <:+ join c!"/" (cleanSegs (pre ++ suf)) := by
    rw [ha]
    exact (List.suffix_append x suf).trans (join_last_suffix _ _ _)
  unfold pathClean
  split
  · exact hj.trans (List.suffix_cons _ _)
  · rw [if_neg (by rw [ha]; simp)]; exact hj

end Astra
