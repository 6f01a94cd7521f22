/-
C53, C54, C65-C68: loading packages, imports and comments.
-/
import Verif.Props.PackageTree
import Verif.Props.Enums

namespace Astra.Props
open Spec

/-! ### One load -/

theorem firstError_none {path : Str} {l : List LoadedPkg} : firstError path l = none ↔ ∀ q ∈ l, q.errors = [] := by
  induction l with
  | nil => simp [firstError]
  | cons p ps ih =>
    unfold firstError
    cases he : p.errors with
    | nil => simp [he, ih]
    | cons k ks => cases k <;> simp [he]

/-- C65: a load without cache gives a package exactly if `packages.Load` succeeds, gives at least one package and none of its packages has
errors; then it gives the first one. -/
theorem load_result (path : Str) (r : Except Str (List LoadedPkg)) (p : GoPackage) :
    pickPackage path r = .ok p ↔ ∃ l, r = .ok l ∧ (∀ q ∈ l, q.errors = []) ∧ l.head?.map (·.pkg) = some p := by
  cases r with
  | error e => simp [pickPackage]
  | ok l =>
    have hu : pickPackage path (.ok l) = match firstError path l with
      | some e => .error e
      | none => match l with
        | [] => .error (c!"package " ++ path ++ c!" not found")
        | p :: _ => .ok p.pkg := rfl
    rw [hu]
    cases hf : firstError path l with
    | some e =>
      have hn : ¬ ∀ q ∈ l, q.errors = [] := by
        intro h
        rw [firstError_none.mpr h] at hf; cases hf
      simp only [Except.ok.injEq, exists_eq_left', hn, false_and, reduceCtorEq]
    | none =>
      have hn := firstError_none.mp hf
      cases l with
      | nil => simp
      | cons q qs =>
        simp only [Except.ok.injEq, exists_eq_left', List.head?_cons, Option.map_some, Option.some.injEq]
        exact ⟨fun h => ⟨hn, h⟩, fun h => h.2⟩

/-- Non-vacuity: two packages, of which the second has an error. -/
example : pickPackage c!"p" (.ok [{ pkg := { id := 1 } }, { pkg := { id := 2 } }]) = .ok { id := 1 } ∧
    pickPackage c!"p" (.ok [{ pkg := { id := 1 } }, { pkg := { id := 2 }, errors := [.type] }]) = .error c!"package p has type errors" := ⟨rfl, rfl⟩

/-! ### C53 -/

section
variable {σ : Type} (E : LoadEnv σ)

theorem load_cached {s : PM σ} {p d : Str} {k : GoPackage} (h : aget s.cached p = some k) : loadPackage E p d s = (s, .ok k) := by
  unfold loadPackage; rw [h]

theorem load_fresh {s : PM σ} {p d : Str} (h : aget s.cached p = none) :
    (loadPackage E p d s).2 = pickPackage p (E.load p d s.ext).1 ∧ (loadPackage E p d s).1.calls = s.calls ++ [(p, d)] ∧
    (loadPackage E p d s).1.ext = (E.load p d s.ext).2 ∧ (loadPackage E p d s).1.heap = s.heap ∧
    ∀ q, aget (loadPackage E p d s).1.cached q =
      if p = q then (match pickPackage p (E.load p d s.ext).1 with | .ok k => some k | .error _ => none) else aget s.cached q := by
  unfold loadPackage
  rw [h]
  simp only [loadPackageNoCache]
  cases hp : pickPackage p (E.load p d s.ext).1 with
  | error e =>
    refine ⟨rfl, rfl, rfl, rfl, fun q => ?_⟩
    simp only
    split
    · rename_i e; subst e; exact h
    · rfl
  | ok k =>
    refine ⟨rfl, rfl, rfl, rfl, fun q => ?_⟩
    simp only
    exact aget_aset _ _ _ _

/-- How the cache changes. -/
theorem load_cache (s : PM σ) (p d q : Str) (k : GoPackage) :
    aget (loadPackage E p d s).1.cached q = some k ↔ aget s.cached q = some k ∨ (p = q ∧ (loadPackage E p d s).2 = .ok k) := by
  cases hc : aget s.cached p with
  | some k' =>
    rw [load_cached E hc]
    constructor
    · exact Or.inl
    · rintro (h | ⟨rfl, h⟩)
      · exact h
      · cases h; exact hc
  | none =>
    obtain ⟨h1, _, _, _, h5⟩ := load_fresh E (d := d) hc
    rw [h5, h1]
    split
    · rename_i e
      subst e
      rw [hc]
      cases pickPackage p (E.load p d s.ext).1 <;> simp
    · rename_i e
      simp [e]

/-- The state before request `j`. -/
def before (s : PM σ) (reqs : List (Str × Str)) (j : Nat) : PM σ := (runLoads E s (reqs.take j)).1

theorem runLoads_at (reqs : List (Str × Str)) : ∀ (s : PM σ) (j : Nat) (p d : Str), reqs[j]? = some (p, d) →
    (runLoads E s reqs).2[j]? = some (loadPackage E p d (before E s reqs j)).2 ∧
    before E s reqs (j + 1) = (loadPackage E p d (before E s reqs j)).1 := by
  induction reqs with
  | nil => intro s j p d h; simp at h
  | cons r reqs ih =>
    intro s j p d h
    obtain ⟨p0, d0⟩ := r
    cases j with
    | zero =>
      simp only [List.getElem?_cons_zero, Option.some.injEq, Prod.mk.injEq] at h
      obtain ⟨rfl, rfl⟩ := h
      exact ⟨rfl, by simp [before, runLoads]⟩
    | succ j =>
      simp only [List.getElem?_cons_succ] at h
      obtain ⟨h1, h2⟩ := ih (loadPackage E p0 d0 s).1 j p d h
      refine ⟨?_, ?_⟩
      · show ((loadPackage E p0 d0 s).2 :: (runLoads E (loadPackage E p0 d0 s).1 reqs).2)[j + 1]? = _
        rw [List.getElem?_cons_succ]
        exact h1
      · exact h2

theorem cache_history (s : PM σ) (reqs : List (Str × Str)) (q : Str) (k : GoPackage) : ∀ j, j ≤ reqs.length →
    (aget (before E s reqs j).cached q = some k ↔
      aget s.cached q = some k ∨ ∃ i < j, ∃ d, reqs[i]? = some (q, d) ∧ (runLoads E s reqs).2[i]? = some (.ok k)) := by
  intro j
  induction j with
  | zero => intro _; simp [before, runLoads]
  | succ j ih =>
    intro hj
    obtain ⟨⟨p, d⟩, hr⟩ : ∃ r, reqs[j]? = some r := ⟨reqs[j], by simp [show j < reqs.length by omega]⟩
    obtain ⟨h1, h2⟩ := runLoads_at E reqs s j p d hr
    rw [h2, load_cache, ih (by omega)]
    constructor
    · rintro ((h | ⟨i, hi, d', a, b⟩) | ⟨rfl, h⟩)
      · exact Or.inl h
      · exact Or.inr ⟨i, by omega, d', a, b⟩
      · exact Or.inr ⟨j, by omega, d, hr, by rw [h1, h]⟩
    · rintro (h | ⟨i, hi, d', a, b⟩)
      · exact Or.inl (Or.inl h)
      · by_cases e : i = j
        · subst e
          rw [hr] at a
          cases a
          rw [h1] at b
          exact Or.inr ⟨rfl, Option.some.inj b⟩
        · exact Or.inl (Or.inr ⟨i, by omega, d', a, b⟩)

/-- C53: once a path has been loaded, every later load of it gives the same package, and nothing else happens: no call, no change. -/
theorem loaded_once (x : σ) (reqs : List (Str × Str)) (i j : Nat) (hij : i < j) (p d d' : Str) (k : GoPackage)
    (hi : reqs[i]? = some (p, d)) (hj : reqs[j]? = some (p, d')) (hk : (runLoads E { ext := x } reqs).2[i]? = some (.ok k)) :
    (runLoads E { ext := x } reqs).2[j]? = some (.ok k) ∧ before E { ext := x } reqs (j + 1) = before E { ext := x } reqs j := by
  have hlt : j < reqs.length := (List.getElem?_eq_some_iff.mp hj).1
  have hc := (cache_history E { ext := x } reqs p k j (by omega)).mpr (Or.inr ⟨i, hij, d, hi, hk⟩)
  obtain ⟨h1, h2⟩ := runLoads_at E reqs { ext := x } j p d' hj
  rw [load_cached E hc] at h1 h2
  exact ⟨h1, h2⟩

/-- C53: failures are not remembered: as long as no load of the path has succeeded, a load asks again and gives what it is told now. -/
theorem failures_forgotten (x : σ) (reqs : List (Str × Str)) (j : Nat) (p d : Str) (hj : reqs[j]? = some (p, d))
    (hno : ∀ (i : Nat) (d' : Str) (k : GoPackage), i < j → reqs[i]? = some (p, d') → (runLoads E { ext := x } reqs).2[i]? ≠ some (.ok k)) :
    (runLoads E { ext := x } reqs).2[j]? = some (pickPackage p (E.load p d (before E { ext := x } reqs j).ext).1) ∧
    (before E { ext := x } reqs (j + 1)).calls = (before E { ext := x } reqs j).calls ++ [(p, d)] := by
  have hlt : j < reqs.length := (List.getElem?_eq_some_iff.mp hj).1
  have hc : aget (before E { ext := x } reqs j).cached p = none := by
    cases h : aget (before E { ext := x } reqs j).cached p with
    | none => rfl
    | some k =>
      rcases (cache_history E { ext := x } reqs p k j (by omega)).mp h with h | ⟨i, hi, d', a, b⟩
      · cases h
      · exact absurd b (hno i d' k hi a)
  obtain ⟨h1, h2⟩ := runLoads_at E reqs { ext := x } j p d hj
  obtain ⟨f1, f2, _⟩ := load_fresh E (d := d) hc
  rw [h1, h2, f1, f2]
  exact ⟨rfl, rfl⟩

/-- C53: every call is for one of the requests. -/
theorem calls_are_requests (reqs : List (Str × Str)) : ∀ (s : PM σ), ∃ l, (runLoads E s reqs).1.calls = s.calls ++ l ∧ l.Sublist reqs := by
  induction reqs with
  | nil => intro s; exact ⟨[], by simp [runLoads], List.Sublist.slnil⟩
  | cons r reqs ih =>
    intro s
    obtain ⟨p, d⟩ := r
    obtain ⟨l, h1, h2⟩ := ih (loadPackage E p d s).1
    have e : (runLoads E s ((p, d) :: reqs)).1 = (runLoads E (loadPackage E p d s).1 reqs).1 := rfl
    rw [e, h1]
    cases hc : aget s.cached p with
    | some k => rw [load_cached E hc]; exact ⟨l, rfl, h2.cons _⟩
    | none =>
      obtain ⟨_, f2, _⟩ := load_fresh E (d := d) hc
      rw [f2]
      exact ⟨(p, d) :: l, by simp, h2.cons_cons _⟩

end

/-- An environment in which "p" can only be loaded at the second attempt, and the package depends on the directory. -/
def flakyEnv : LoadEnv Nat :=
  { load := fun _ d n => (if n = 0 then .error c!"busy" else .ok [{ pkg := { id := d.length } }], n + 1) }

/-- Non-vacuity: a failure, a success and a cached result. -/
example : (runLoads flakyEnv { ext := 0 } [(c!"p", c!"/a"), (c!"p", c!"/a"), (c!"p", c!"/a")]).2 =
      [.error c!"busy", .ok { id := 2 }, .ok { id := 2 }] ∧
    (runLoads flakyEnv { ext := 0 } [(c!"p", c!"/a"), (c!"p", c!"/a"), (c!"p", c!"/a")]).1.calls = [(c!"p", c!"/a"), (c!"p", c!"/a")] := ⟨rfl, rfl⟩

/-- C66, negation: a load gives a package of another working directory if that was asked for first. -/
theorem not_load_from_own_directory : ¬ ∀ (E : LoadEnv Nat) (x : Nat) (reqs : List (Str × Str)) (j : Nat) (p d : Str) (k : GoPackage),
    (∀ q e n m, (E.load q e n).1 = (E.load q e m).1) → reqs[j]? = some (p, d) → (runLoads E { ext := x } reqs).2[j]? = some (.ok k) →
    pickPackage p (E.load p d 0).1 = .ok k := by
  intro h
  let E : LoadEnv Nat := { load := fun _ d n => (.ok [{ pkg := { id := d.length } }], n) }
  have := h E 0 [(c!"p", c!"/a"), (c!"p", c!"/bb")] 1 c!"p" c!"/bb" { id := 2 } (fun _ _ _ _ => rfl) rfl rfl
  cases this

/-- C66, in part: if all loads are for the same working directory (and loading depends on nothing else), each gives the package of its path in
this directory. Missing for the full property: several directories in one process. -/
theorem load_from_own_directory_partial {σ : Type} (E : LoadEnv σ) (x : σ) (dir : Str) (f : Str → Except Str (List LoadedPkg))
    (hE : ∀ q n, (E.load q dir n).1 = f q) (reqs : List (Str × Str)) (hd : ∀ r ∈ reqs, r.2 = dir) (j : Nat) (p d : Str) (hj : reqs[j]? = some (p, d)) :
    (runLoads E { ext := x } reqs).2[j]? = some (pickPackage p (f p)) := by
  induction j using Nat.strongRecOn with
  | _ j ih =>
    by_cases hex : ∃ (i : Nat) (d' : Str) (k : GoPackage), i < j ∧ reqs[i]? = some (p, d') ∧ (runLoads E { ext := x } reqs).2[i]? = some (.ok k)
    · obtain ⟨i, d', k, hi, a, b⟩ := hex
      have e : d' = d := (hd (p, d') (List.mem_of_getElem? a)).trans (hd (p, d) (List.mem_of_getElem? hj)).symm
      rw [e] at a
      rw [(loaded_once E x reqs i j hi p d d k a hj b).1, ← ih i hi a, b]
    · have := (failures_forgotten E x reqs j p d hj (fun i d' k hi a b => hex ⟨i, d', k, hi, a, b⟩)).1
      have e : d = dir := hd (p, d) (List.mem_of_getElem? hj)
      rw [this, e, hE]

/-! ### C54 -/

section
variable {σ : Type}

theorem resolvePath_chosen (own : Str) (loaders : List (PathLoader σ)) : ∀ (x : σ),
    Chosen own loaders x (resolvePath own loaders x).1 (resolvePath own loaders x).2 := by
  induction loaders with
  | nil => intro x; exact Or.inl ⟨rfl, rfl⟩
  | cons l ls ih =>
    intro x
    cases hl : l own x with
    | mk r y =>
      cases r with
      | ok p =>
        have e : resolvePath own (l :: ls) x = (p, y) := by simp [resolvePath, hl]
        rw [e]
        exact Or.inr ⟨[], l, ls, x, rfl, rfl, hl⟩
      | error er =>
        have e : resolvePath own (l :: ls) x = resolvePath own ls y := by simp [resolvePath, hl]
        rw [e]
        have hl1 : (l own x).1 = .error er := by rw [hl]
        have hl2 : (l own x).2 = y := by rw [hl]
        rcases ih y with ⟨h1, h2⟩ | ⟨pre, l', post, z, h1, h2, h3⟩
        · exact Or.inl ⟨⟨er, hl1, by rw [hl2]; exact h1⟩, h2⟩
        · exact Or.inr ⟨l :: pre, l', post, z, by rw [h1]; rfl, ⟨er, hl1, by rw [hl2]; exact h2⟩, h3⟩

/-- Only one path can be chosen. -/
theorem chosen_unique {own : Str} {loaders : List (PathLoader σ)} {x : σ} {p q : Str} {y z : σ} (h1 : Chosen own loaders x p y)
    (h2 : Chosen own loaders x q z) : p = q ∧ y = z := by
  have key : ∀ (loaders : List (PathLoader σ)) (x : σ) (p : Str) (y : σ), Chosen own loaders x p y → resolvePath own loaders x = (p, y) := by
    intro loaders
    induction loaders with
    | nil =>
      rintro x p y (⟨h, rfl⟩ | ⟨pre, l, post, z, h, _⟩)
      · cases h; rfl
      · exact absurd h (by simp)
    | cons l ls ih =>
      rintro x p y (⟨⟨e, h1, h2⟩, rfl⟩ | ⟨pre, l', post, z, h, ha, hl⟩)
      · have e' : l p x = (.error e, (l p x).2) := by rw [← h1]
        have : resolvePath p (l :: ls) x = resolvePath p ls (l p x).2 := by
          rw [resolvePath, e']
        rw [this]
        exact ih _ _ _ (Or.inl ⟨h2, rfl⟩)
      · cases pre with
        | nil =>
          simp only [List.nil_append, List.cons.injEq] at h
          obtain ⟨rfl, rfl⟩ := h
          cases ha
          simp [resolvePath, hl]
        | cons l0 pre =>
          simp only [List.cons_append, List.cons.injEq] at h
          obtain ⟨rfl, rfl⟩ := h
          obtain ⟨e, h1, h2⟩ := ha
          have e' : l own x = (.error e, (l own x).2) := by rw [← h1]
          have : resolvePath own (l :: (pre ++ l' :: post)) x = resolvePath own (pre ++ l' :: post) (l own x).2 := by
            rw [resolvePath, e']
          rw [this]
          exact ih _ _ _ (Or.inr ⟨pre, l', post, z, rfl, h2, hl⟩)
  have a := key loaders x p y h1
  have b := key loaders x q z h2
  rw [a] at b
  exact Prod.mk.inj b

/-- A node of a tree that came about by adding and looking up packages (and by Get, see `get_keeps_tree`). -/
def NodeFor (h : Heap) (n : Nat) (path : Str) : Prop := ∃ L, Labelled h L ∧ n < h.length ∧ lab L n = split '/' path

/-- C54: the first Get of a node loads its package under the path that the loaders choose for the node's path. If it fails, no node
changes; if it succeeds, the node has this package and one file for each of its files, and the other nodes keep their contents. Missing: calls that
overlap, for which it is false. -/
theorem get_resolves_partial (E : LoadEnv σ) (loaders : List (PathLoader σ)) (dir : Str) (n : Nat) (s : PM σ) (own : Str)
    (hn : NodeFor s.heap n own) (hs : ¬ c!"/" <:+ own) (hnew : (nodeAt s.heap n).pkg = none) :
    ∃ path x, Chosen own loaders s.ext path x ∧
      (getPackage E loaders dir n s).2 = (loadPackage E path dir { s with ext := x }).2 ∧
      (getPackage E loaders dir n s).1.ext = (loadPackage E path dir { s with ext := x }).1.ext ∧
      (getPackage E loaders dir n s).1.calls = (loadPackage E path dir { s with ext := x }).1.calls ∧
      (getPackage E loaders dir n s).1.cached = (loadPackage E path dir { s with ext := x }).1.cached ∧
      (∀ e, (getPackage E loaders dir n s).2 = .error e → (getPackage E loaders dir n s).1.heap = s.heap) ∧
      (∀ p, (getPackage E loaders dir n s).2 = .ok p →
        (nodeAt (getPackage E loaders dir n s).1.heap n).pkg = some p ∧
        (∃ files, (nodeAt (getPackage E loaders dir n s).1.heap n).files = (nodeAt s.heap n).files ++ files ∧ files.map (·.ast) = p.files ∧
          files.map (·.fileName) = p.files.map (·.fileName)) ∧
        ∀ i, i < s.heap.length → i ≠ n → (nodeAt (getPackage E loaders dir n s).1.heap i).content = (nodeAt s.heap i).content) := by
  obtain ⟨L, w, hlt, hlab⟩ := hn
  have hpath : pathOfNode s.heap n = some own := by
    rw [w.pathOfNode hlt, hlab]
    have := glue_spec (split '/' own) (split_ne_nil _ _) (fun x hx => split_no_sep x hx)
    rw [join_split] at this
    obtain ⟨⟨k, h1⟩, h2⟩ := this
    cases k with
    | zero => rw [List.replicate_zero, List.append_nil] at h1; rw [← h1]
    | succ k =>
      exfalso
      apply hs
      rw [h1, List.replicate_succ']
      exact ⟨(split '/' own).foldr gluePath [] ++ List.replicate k '/', by simp⟩
  refine ⟨(resolvePath own loaders s.ext).1, (resolvePath own loaders s.ext).2, resolvePath_chosen own loaders s.ext, ?_⟩
  generalize hR : resolvePath own loaders s.ext = R
  obtain ⟨path, x⟩ := R
  simp only
  cases hl : loadPackage E path dir { s with ext := x } with
  | mk s1 r =>
    have hheap : s1.heap = s.heap := by
      have : s1 = (loadPackage E path dir { s with ext := x }).1 := by rw [hl]
      rw [this]
      cases hc : aget s.cached path with
      | some k => rw [load_cached E (s := { s with ext := x }) hc]
      | none => exact (load_fresh E (s := { s with ext := x }) (d := dir) hc).2.2.2.1
    cases r with
    | error e =>
      have eg : getPackage E loaders dir n s = (s1, .error e) := by
        unfold getPackage; simp only [hnew, hpath, hR, hl]
      rw [eg]
      exact ⟨rfl, rfl, rfl, rfl, fun _ _ => hheap, fun p h => nomatch h⟩
    | ok p =>
      have eg : getPackage E loaders dir n s = ({ s1 with heap := populate s1.heap n p }, .ok p) := by
        unfold getPackage; simp only [hnew, hpath, hR, hl]
      rw [eg]
      refine ⟨rfl, rfl, rfl, rfl, fun _ h => (nomatch h), ?_⟩
      rintro p' hp
      cases hp
      rw [hheap]
      obtain ⟨M, files, k1, k2, k3, k4, k5, k6, k7, _⟩ := w.populate hlt p
      refine ⟨k3, ⟨files, k4, ?_, ?_⟩, k7⟩
      · refine List.ext_getElem? (fun i => ?_)
        rw [List.getElem?_map]
        by_cases hi : i < files.length
        · have h1 : files[i]? = some files[i] := List.getElem?_eq_getElem hi
          have h2 : p.files[i]? = some p.files[i] := List.getElem?_eq_getElem (by omega)
          rw [h1, h2, Option.map_some, (k6 i _ _ h2 h1).2.1]
        · rw [List.getElem?_eq_none (by omega), List.getElem?_eq_none (by omega)]; rfl
      · refine List.ext_getElem? (fun i => ?_)
        rw [List.getElem?_map, List.getElem?_map]
        by_cases hi : i < files.length
        · have h1 : files[i]? = some files[i] := List.getElem?_eq_getElem hi
          have h2 : p.files[i]? = some p.files[i] := List.getElem?_eq_getElem (by omega)
          rw [h1, h2, Option.map_some, Option.map_some, (k6 i _ _ h2 h1).1]
        · rw [List.getElem?_eq_none (by omega), List.getElem?_eq_none (by omega)]; rfl

/-- C54: Get keeps the tree: every node for a path stays the node for this path. -/
theorem get_keeps_tree (E : LoadEnv σ) (loaders : List (PathLoader σ)) (dir : Str) (n : Nat) (s : PM σ) (own : Str)
    (hn : NodeFor s.heap n own) (m : Nat) (q : Str) (hm : NodeFor s.heap m q) : NodeFor (getPackage E loaders dir n s).1.heap m q := by
  obtain ⟨L, w, hlt, hlab⟩ := hm
  have hnlt : n < s.heap.length := by obtain ⟨_, _, h, _⟩ := hn; exact h
  cases hp : (nodeAt s.heap n).pkg with
  | some p =>
    have : getPackage E loaders dir n s = (s, .ok p) := by unfold getPackage; rw [hp]
    rw [this]; exact ⟨L, w, hlt, hlab⟩
  | none =>
    have hpath := w.pathOfNode hnlt
    generalize (lab L n).foldr gluePath [] = own' at hpath
    generalize hR : resolvePath own' loaders s.ext = R
    obtain ⟨path, x⟩ := R
    cases hl : loadPackage E path dir { s with ext := x } with
    | mk s1 r =>
      have hheap : s1.heap = s.heap := by
        have : s1 = (loadPackage E path dir { s with ext := x }).1 := by rw [hl]
        rw [this]
        cases hc : aget s.cached path with
        | some k => rw [load_cached E (s := { s with ext := x }) hc]
        | none => exact (load_fresh E (s := { s with ext := x }) (d := dir) hc).2.2.2.1
      cases r with
      | error e =>
        have eg : getPackage E loaders dir n s = (s1, .error e) := by
          unfold getPackage; simp only [hp, hpath, hR, hl]
        rw [eg]
        exact ⟨L, by rw [hheap]; exact w, by rw [hheap]; exact hlt, hlab⟩
      | ok p =>
        have eg : getPackage E loaders dir n s = ({ s1 with heap := populate s1.heap n p }, .ok p) := by
          unfold getPackage; simp only [hp, hpath, hR, hl]
        rw [eg]
        show NodeFor (populate s1.heap n p) m q
        rw [hheap]
        obtain ⟨M, files, k1, _⟩ := w.populate hnlt p
        obtain ⟨a, b⟩ := lab_mono w k1 hlt
        exact ⟨L ++ M, k1, a, b.trans hlab⟩

/-- C54: a node is populated at most once: after a successful Get, another one gives the same package and changes nothing, whatever the loaders
and the outside world are by then. -/
theorem get_again (E E' : LoadEnv σ) (loaders loaders' : List (PathLoader σ)) (dir dir' : Str) (n : Nat) (s : PM σ) (own : Str)
    (hn : NodeFor s.heap n own) (hs : ¬ c!"/" <:+ own) (p : GoPackage) (h : (getPackage E loaders dir n s).2 = .ok p) :
    getPackage E' loaders' dir' n (getPackage E loaders dir n s).1 = ((getPackage E loaders dir n s).1, .ok p) := by
  have key : (nodeAt (getPackage E loaders dir n s).1.heap n).pkg = some p := by
    cases hp : (nodeAt s.heap n).pkg with
    | some k =>
      have e : getPackage E loaders dir n s = (s, .ok k) := by unfold getPackage; rw [hp]
      rw [e] at h ⊢
      cases h
      exact hp
    | none =>
      obtain ⟨_, _, _, _, _, _, _, _, h8⟩ := get_resolves_partial E loaders dir n s own hn hs hp
      exact (h8 p h).1
  generalize (getPackage E loaders dir n s).1 = s' at key
  unfold getPackage; rw [key]

/-- C54: with the path loader of a route, every package but main is loaded under its own path, and main under the path of the temporary
package. -/
theorem gin_loader_path (main : σ → Except Str Str × σ) (own : Str) (x : σ) (path : Str) (z : σ)
    (h : Chosen own [ginLoader main] x path z) :
    (own ≠ c!"main" → path = own ∧ z = x) ∧
    (own = c!"main" → ∀ t, (main x).1 = .ok t → path = t ∧ z = (main x).2) := by
  have hc := resolvePath_chosen own [ginLoader main] x
  obtain ⟨e1, e2⟩ := chosen_unique h hc
  rw [e1, e2]
  constructor
  · intro hne
    simp [resolvePath, ginLoader, hne]
  · rintro rfl t ht
    have : main x = (.ok t, (main x).2) := by rw [← ht]
    simp only [resolvePath, ginLoader, if_pos]
    rw [this]
    exact ⟨rfl, rfl⟩

end

/-- C54, negation for concurrent calls: Get is not guarded by the lock; if two calls both see an empty node, its files are there twice. -/
theorem concurrent_get_doubles_files :
    let h := (addPackage newHeap c!"p").1
    let p : GoPackage := { id := 1, files := [{ fileName := c!"a.go" }] }
    (nodeAt h 1).pkg = none ∧ (nodeAt (populate (populate h 1 p) 1 p) 1).files.map (·.fileName) = [c!"a.go", c!"a.go"] := by decide

/-- An environment with one package for every path. -/
def oneEnv : LoadEnv Nat :=
  { load := fun p _ n => (.ok [{ pkg := { id := p.length, files := [{ fileName := c!"a.go", imports := [{ path := c!"\"x/y\"" }] }] } }], n + 1) }

/-- Non-vacuity: the second of three loaders decides; one import of the package is added to the tree. -/
example : NodeFor (addPackage newHeap c!"p").1 1 c!"p" ∧
    (getPackage oneEnv [fun _ x => (.error c!"no", x), fun _ x => (.ok c!"qqq", x), fun p x => (.ok p, x)] c!"/w" 1 { heap := (addPackage newHeap c!"p").1, ext := 0 }).1.calls
      = [(c!"qqq", c!"/w")] ∧
    findPackage (getPackage oneEnv [fun _ x => (.error c!"no", x), fun _ x => (.ok c!"qqq", x), fun p x => (.ok p, x)] c!"/w" 1
      { heap := (addPackage newHeap c!"p").1, ext := 0 }).1.heap c!"x/y" = some 3 := by
  refine ⟨?_, by decide, by decide⟩
  obtain ⟨M, h1, h2, h3, _⟩ := labelled_new.addPackage c!"p"
  exact ⟨_, h1, h2, h3⟩

end Astra.Props
