/-
Lemmas about path cleaning and resolution.
-/
import Verif.Model.GoPath
import Verif.Lemmas.Basic

namespace Astra

theorem walk_nil (base : FPath) : walk base [] = base := rfl

theorem walk_cons (base : FPath) (s : Str) (segs : List Str) : walk base (s :: segs) = walk (walkStep base s) segs := rfl

theorem walk_append (base : FPath) (a b : List Str) : walk base (a ++ b) = walk (walk base a) b := by
  simp [walk, List.foldl_append]

theorem walkStep_empty (base : FPath) : walkStep base [] = base := by simp [walkStep]

theorem split_append (sep : Char) (a b : Str) : split sep (a ++ sep :: b) = split sep a ++ split sep b := by
  induction a with
  | nil => simp [split]
  | cons c cs ih =>
    simp only [List.cons_append, split]
    split
    · simp [ih]
    · rw [ih]
      have := split_ne_nil sep cs
      cases h : split sep cs with
      | nil => exact absurd h this
      | cons x xs => simp

/-- One more segment of cleaning walks one more step. -/
theorem walk_cleanStep (rooted : Bool) (base : FPath) (hb : rooted = true → base = []) (acc : List Str) (seg : Str)
    (hacc : ∀ x ∈ acc, x ≠ [] ∧ x ≠ c!".") (hdots : rooted = true → ∀ x ∈ acc, x ≠ c!"..") :
    walk base (cleanStep rooted acc seg).reverse = walkStep (walk base acc.reverse) seg := by
  unfold cleanStep walkStep
  split
  · rfl
  · rename_i h1
    split
    · rename_i h2
      cases acc with
      | nil =>
        cases rooted with
        | true => simp [hb rfl, walk]
        | false => subst h2; simp [walk, walkStep]
      | cons x rest =>
        simp only [List.reverse_cons, walk_append]
        split
        · rename_i hx
          subst hx
          rw [List.reverse_cons, List.reverse_cons]
          simp [walk, List.foldl_append, walkStep]
        · rename_i hx
          have := hacc x (by simp)
          simp [walk, walkStep, this.1, hx]
          simp [this.2]
    · rename_i h2
      have hn : seg ≠ [] ∧ seg ≠ ['.'] := by simpa using h1
      simp [walk, List.foldl_append, walkStep, h2, hn.1, hn.2]

theorem cleanStep_inv (rooted : Bool) (acc : List Str) (seg : Str) (hseg : '/' ∉ seg)
    (hacc : ∀ x ∈ acc, x ≠ [] ∧ x ≠ c!"." ∧ '/' ∉ x) (hdots : rooted = true → ∀ x ∈ acc, x ≠ c!"..") :
    (∀ x ∈ cleanStep rooted acc seg, x ≠ [] ∧ x ≠ c!"." ∧ '/' ∉ x) ∧ (rooted = true → ∀ x ∈ cleanStep rooted acc seg, x ≠ c!"..") := by
  unfold cleanStep
  split
  · exact ⟨hacc, hdots⟩
  · rename_i h1
    have hn : seg ≠ [] ∧ seg ≠ ['.'] := by simpa using h1
    split
    · cases acc with
      | nil =>
        cases rooted with
        | true => simp
        | false => simp
      | cons x rest =>
        simp only
        split
        · rename_i hx
          subst hx
          refine ⟨?_, fun hr => absurd rfl (hdots hr c!".." (by simp))⟩
          intro y hy
          rcases List.mem_cons.mp hy with rfl | hy
          · exact hacc _ (by simp)
          · exact hacc y hy
        · exact ⟨fun y hy => hacc y (by simp [hy]), fun hr y hy => hdots hr y (by simp [hy])⟩
    · rename_i h2
      refine ⟨?_, ?_⟩
      · intro y hy
        rcases List.mem_cons.mp hy with rfl | hy
        · exact ⟨hn.1, hn.2, hseg⟩
        · exact hacc y hy
      · intro hr y hy
        rcases List.mem_cons.mp hy with rfl | hy
        · exact h2
        · exact hdots hr y hy

theorem clean_fold (rooted : Bool) (base : FPath) (hb : rooted = true → base = []) (segs : List Str) (hs : ∀ s ∈ segs, '/' ∉ s) :
    ∀ acc : List Str, (∀ x ∈ acc, x ≠ [] ∧ x ≠ c!"." ∧ '/' ∉ x) → (rooted = true → ∀ x ∈ acc, x ≠ c!"..") →
    walk base (segs.foldl (cleanStep rooted) acc).reverse = walk (walk base acc.reverse) segs ∧
    (∀ x ∈ segs.foldl (cleanStep rooted) acc, x ≠ [] ∧ x ≠ c!"." ∧ '/' ∉ x) := by
  induction segs with
  | nil => intro acc h1 _; exact ⟨rfl, h1⟩
  | cons s segs ih =>
    intro acc h1 h2
    have hi := cleanStep_inv rooted acc s (hs s (by simp)) h1 h2
    have hw := walk_cleanStep rooted base hb acc s (fun x hx => ⟨(h1 x hx).1, (h1 x hx).2.1⟩) h2
    obtain ⟨h3, h4⟩ := ih (fun t ht => hs t (by simp [ht])) _ hi.1 hi.2
    exact ⟨by simp only [List.foldl_cons]; rw [h3, hw, walk_cons], h4⟩

theorem segments_no_slash (p : Str) : ∀ s ∈ segments p, '/' ∉ s := fun s hs => split_no_sep s hs

/-- Where a walk starts. -/
def baseOf (cwd : FPath) (p : Str) : FPath := if isAbs p then [] else cwd

/-- The location of a path; the empty path is the current directory. -/
def locOf (cwd : FPath) (p : Str) : FPath := walk (baseOf cwd p) (segments p)

theorem cleanSegs_walk (cwd : FPath) (p : Str) : walk (baseOf cwd p) (cleanSegs p) = locOf cwd p := by
  have := (clean_fold (isAbs p) (baseOf cwd p) (fun h => by simp [baseOf, h]) (segments p) (segments_no_slash p) [] (by simp) (by simp)).1
  simpa [cleanSegs, locOf, walk] using this

theorem cleanSegs_mem (p : Str) : ∀ x ∈ cleanSegs p, x ≠ [] ∧ x ≠ c!"." ∧ '/' ∉ x := by
  have := (clean_fold (isAbs p) (baseOf [] p) (fun h => by simp [baseOf, h]) (segments p) (segments_no_slash p) [] (by simp) (by simp)).2
  intro x hx
  exact this x (by simpa [cleanSegs] using hx)

theorem isAbs_join {l : List Str} (h : ∀ x ∈ l, x ≠ [] ∧ '/' ∉ x) : isAbs (join c!"/" l) = false := by
  cases l with
  | nil => rfl
  | cons x xs =>
    have hx := h x (by simp)
    cases x with
    | nil => exact absurd rfl hx.1
    | cons c cs =>
      have hc : c ≠ '/' := fun e => hx.2 (by simp [e])
      cases xs with
      | nil =>
        simp only [join]
        unfold isAbs
        split
        · rename_i h; exact absurd (List.cons.inj h).1 hc
        · rfl
      | cons y ys =>
        simp only [join, List.append_assoc, List.cons_append]
        unfold isAbs
        split
        · rename_i h; exact absurd (List.cons.inj h).1 hc
        · rfl

theorem join_ne_nil {l : List Str} (h : ∀ x ∈ l, x ≠ []) (hne : l ≠ []) : join c!"/" l ≠ [] := by
  cases l with
  | nil => exact absurd rfl hne
  | cons x xs =>
    have hx := h x (by simp)
    cases xs with
    | nil => exact hx
    | cons y ys => simp [join]

theorem pathClean_ne_nil (p : Str) : pathClean p ≠ [] := by
  unfold pathClean
  split
  · simp
  · split
    · simp
    · rename_i h; exact join_ne_nil (fun x hx => (cleanSegs_mem p x hx).1) h

theorem isAbs_clean (p : Str) : isAbs (pathClean p) = isAbs p := by
  unfold pathClean
  split
  · rename_i h; rw [h]; rfl
  · rename_i h
    split
    · simp at h; rw [h]; rfl
    · simp at h
      rw [h]
      exact isAbs_join (fun x hx => ⟨(cleanSegs_mem p x hx).1, (cleanSegs_mem p x hx).2.2⟩)

theorem segments_join {l : List Str} (h : ∀ x ∈ l, '/' ∉ x) (hne : l ≠ []) : segments (join c!"/" l) = l := split_join hne h

/-- Cleaning does not change what a path denotes. -/
theorem loc_clean (cwd : FPath) (p : Str) : locOf cwd (pathClean p) = locOf cwd p := by
  have hw := cleanSegs_walk cwd p
  have hb : baseOf cwd (pathClean p) = baseOf cwd p := by simp [baseOf, isAbs_clean]
  have hs : ∀ x ∈ cleanSegs p, '/' ∉ x := fun x hx => (cleanSegs_mem p x hx).2.2
  rw [locOf, hb, ← hw]
  unfold pathClean
  split
  · by_cases hc : cleanSegs p = []
    · simp [hc, join, segments, split, walk, walkStep]
    · have : segments ('/' :: join c!"/" (cleanSegs p)) = [] :: cleanSegs p := by
        rw [segments, split_cons_sep]
        exact congrArg _ (segments_join hs hc)
      rw [this, walk_cons, walkStep_empty]
  · split
    · rename_i h; rw [h]; simp [segments, split, walk, walkStep]
    · rename_i h; rw [segments_join hs h]

theorem resolve_eq {cwd : FPath} {p : Str} (h : p ≠ []) : resolve cwd p = some (locOf cwd p) := by
  simp [resolve, h, locOf, baseOf]

theorem isAbs_append {a : Str} (h : a ≠ []) (b : Str) : isAbs (a ++ b) = isAbs a := by
  cases a with
  | nil => exact absurd rfl h
  | cons c cs =>
    simp only [List.cons_append]
    unfold isAbs
    split
    · rename_i h1
      have := (List.cons.inj h1).1
      subst this
      rfl
    · rename_i h1
      split
      · rename_i h2; exact (h1 _ (by rw [(List.cons.inj h2).1])).elim
      · rfl

/-- What `path.Join` of two elements denotes. -/
theorem loc_join (cwd : FPath) {a b : Str} (h : a ≠ [] ∨ (b ≠ [] ∧ isAbs b = false)) :
    pathJoin [a, b] ≠ [] ∧ locOf cwd (pathJoin [a, b]) = walk (locOf cwd a) (segments b) := by
  by_cases ha : a = []
  · subst ha
    have hb := h.resolve_left (by simp)
    have : pathJoin [[], b] = pathClean b := by simp [pathJoin, hb.1, join]
    rw [this]
    refine ⟨pathClean_ne_nil _, ?_⟩
    rw [loc_clean]
    have e : locOf cwd [] = cwd := by simp [locOf, baseOf, isAbs, segments, split, walk, walkStep]
    rw [e]
    simp [locOf, baseOf, hb.2]
  · by_cases hb : b = []
    · subst hb
      have : pathJoin [a, []] = pathClean a := by simp [pathJoin, ha, join]
      rw [this]
      refine ⟨pathClean_ne_nil _, ?_⟩
      rw [loc_clean]
      simp [segments, split, walk, walkStep]
    · have : pathJoin [a, b] = pathClean (a ++ '/' :: b) := by simp [pathJoin, ha, hb, join]
      rw [this]
      refine ⟨pathClean_ne_nil _, ?_⟩
      rw [loc_clean]
      simp only [locOf, baseOf, isAbs_append ha, segments, split_append, walk_append]

theorem resolve_join (cwd : FPath) {a b : Str} (h : a ≠ [] ∨ (b ≠ [] ∧ isAbs b = false)) :
    resolve cwd (pathJoin [a, b]) = some (walk (locOf cwd a) (segments b)) := by
  obtain ⟨h1, h2⟩ := loc_join cwd h
  rw [resolve_eq h1, h2]

/-- A plain file name. -/
structure PlainName (n : Str) : Prop where
  ne_nil : n ≠ []
  ne_dot : n ≠ c!"."
  ne_dots : n ≠ c!".."
  no_slash : '/' ∉ n

theorem walk_plain {n : Str} (h : PlainName n) (base : FPath) : walk base (segments n) = base ++ [n] := by
  rw [segments, split_eq_singleton h.no_slash]
  simp [walk, walkStep, h.ne_nil, h.ne_dots]
  simp [h.ne_dot]

theorem isAbs_plain {n : Str} (h : PlainName n) : isAbs n = false := by
  cases n with
  | nil => rfl
  | cons c cs =>
    have hc : c ≠ '/' := fun e => h.no_slash (by simp [e])
    unfold isAbs
    split
    · rename_i h1; exact absurd (List.cons.inj h1).1 hc
    · rfl

/-- What `path.Join` of a directory and a plain file name denotes. -/
theorem loc_join_plain (cwd : FPath) (a : Str) {n : Str} (h : PlainName n) :
    pathJoin [a, n] ≠ [] ∧ locOf cwd (pathJoin [a, n]) = locOf cwd a ++ [n] := by
  have := loc_join cwd (a := a) (b := n) (Or.inr ⟨h.ne_nil, isAbs_plain h⟩)
  rwa [walk_plain h] at this

end Astra
