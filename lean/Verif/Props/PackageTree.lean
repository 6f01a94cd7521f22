/-
C51, C52: the tree of packages.
-/
import Verif.Spec.PackageTree
import Verif.Lemmas.PackageTree

namespace Astra.Props
open Spec

/-! ### Paths -/

theorem within_iff {p q : Str} : Within p q ↔ split '/' p <+: split '/' q := by
  unfold Within
  constructor
  · rintro (rfl | ⟨r, rfl⟩)
    · exact List.prefix_refl _
    · have : p ++ c!"/" ++ r = p ++ '/' :: r := by simp
      rw [this, split_append]
      exact ⟨split '/' r, rfl⟩
  · rintro ⟨l, hl⟩
    cases l with
    | nil => exact Or.inl (split_inj (by rw [← hl]; simp))
    | cons x xs =>
      right
      refine ⟨join c!"/" (x :: xs), ?_⟩
      have hns : ∀ y ∈ x :: xs, '/' ∉ y := by
        intro y hy
        exact split_no_sep (s := q) y (by rw [← hl]; exact List.mem_append_right _ hy)
      apply split_inj (sep := '/')
      have : p ++ c!"/" ++ join c!"/" (x :: xs) = p ++ '/' :: join c!"/" (x :: xs) := by simp
      rw [this, split_append, split_join (by simp) hns, hl]

/-- The text glued together by `Path` is the path without the slashes at its end. -/
theorem glue_spec : ∀ (l : List Str), l ≠ [] → (∀ x ∈ l, '/' ∉ x) → WithoutSlashes (join c!"/" l) (l.foldr gluePath []) := by
  have nosuf : ∀ (x : Str), '/' ∉ x → ¬ c!"/" <:+ x := fun x h hs => h (hs.subset (by simp))
  intro l
  induction l with
  | nil => intro h; exact absurd rfl h
  | cons x l ih =>
    intro _ hx
    by_cases hl : l = []
    · subst hl
      exact ⟨⟨0, by simp [join, gluePath]⟩, by simpa [gluePath] using nosuf x (hx x (by simp))⟩
    · obtain ⟨⟨k, h1⟩, h2⟩ := ih hl (fun y hy => hx y (List.mem_cons_of_mem _ hy))
      rw [join_cons hl, List.foldr_cons]
      generalize l.foldr gluePath [] = g at h1 h2
      unfold gluePath
      split
      · rename_i hg
        subst hg
        refine ⟨⟨k + 1, ?_⟩, nosuf x (hx x (by simp))⟩
        rw [h1]
        simp [List.replicate_succ]
      · rename_i hg
        refine ⟨⟨k, by rw [h1]; simp⟩, ?_⟩
        rintro ⟨a, ha⟩
        apply h2
        have hgl := List.dropLast_concat_getLast hg
        rw [← hgl] at ha ⊢
        have : x ++ '/' :: (g.dropLast ++ [g.getLast hg]) = (x ++ '/' :: g.dropLast) ++ [g.getLast hg] := by simp
        rw [this] at ha
        obtain ⟨_, e⟩ := List.append_inj' ha rfl
        rw [← e]
        exact ⟨g.dropLast, rfl⟩

/-! ### C51 -/

/-- The call puts the path into the tree. -/
def Adds (op : TreeOp) (q : Str) : Prop := op = .add q ∨ op = .findOrAdd q

theorem treeStep_spec {h : Heap} {L : List (List Str)} (w : Labelled h L) (op : TreeOp) :
    ∃ M, Labelled (treeStep h op).1 (L ++ M) ∧
      (∀ n, (treeStep h op).2 = some n → n < (treeStep h op).1.length ∧ lab (L ++ M) n = split '/' op.path) ∧
      (∀ t, t ∈ L ++ M ↔ t ∈ L ∨ ∃ q, Adds op q ∧ t <+: split '/' q) ∧
      ((treeStep h op).2 = none ↔ (∃ p, op = .find p) ∧ split '/' op.path ∉ L) := by
  have root_in : ([] : List Str) ∈ L := w.mem.mpr ⟨0, w.pos, w.root⟩
  have adding : ∀ (h' : Heap) (n : Nat) (p : Str), (∃ M, Labelled h' (L ++ M) ∧ n < h'.length ∧ lab (L ++ M) n = split '/' p ∧ ∀ t ∈ M, t <+: split '/' p) →
      ∃ M, Labelled h' (L ++ M) ∧ (n < h'.length ∧ lab (L ++ M) n = split '/' p) ∧ (∀ t, t ∈ L ++ M ↔ t ∈ L ∨ t <+: split '/' p) := by
    rintro h' n p ⟨M, h1, h2, h3, h4⟩
    refine ⟨M, h1, ⟨h2, h3⟩, ?_⟩
    intro t
    constructor
    · intro ht
      rcases List.mem_append.mp ht with ht | ht
      · exact Or.inl ht
      · exact Or.inr (h4 t ht)
    · rintro (ht | ht)
      · exact List.mem_append_left _ ht
      · rw [← h3] at ht
        exact h1.mem.mpr (h1.closed t n h2 ht)
  cases op with
  | add p =>
    obtain ⟨M, h1, h2, h3⟩ := adding _ _ p (w.addPackage p)
    refine ⟨M, h1, ?_, ?_, by simp [treeStep]⟩
    · intro n hn
      cases hn
      exact h2
    · intro t
      rw [h3 t]
      simp [Adds]
  | findOrAdd p =>
    obtain ⟨M, h1, h2, h3⟩ := adding _ _ p (w.findOrAdd p)
    refine ⟨M, h1, ?_, ?_, by simp [treeStep]⟩
    · intro n hn
      cases hn
      exact h2
    · intro t
      rw [h3 t]
      simp [Adds]
  | find p =>
    refine ⟨[], by simpa [treeStep] using w, ?_, by simp [Adds], ?_⟩
    · intro n hn
      simpa [treeStep, TreeOp.path] using w.findPackage_iff.mp hn
    · show findPackage h p = none ↔ _
      rw [Option.eq_none_iff_forall_ne_some]
      constructor
      · intro hall
        refine ⟨⟨p, rfl⟩, fun hm => ?_⟩
        obtain ⟨i, hi, e⟩ := w.mem.mp hm
        exact hall i (w.findPackage_iff.mpr ⟨hi, e⟩)
      · rintro ⟨_, hn⟩ i hi
        obtain ⟨h1, h2⟩ := w.findPackage_iff.mp hi
        exact hn (w.mem.mpr ⟨i, h1, h2⟩)

theorem runTree_spec (ops : List TreeOp) : ∀ {h : Heap} {L : List (List Str)}, Labelled h L →
    ∃ M, Labelled (runTree h ops).1 (L ++ M) ∧
      (∀ (i : Nat) (op : TreeOp) (n : Nat), ops[i]? = some op → (runTree h ops).2[i]? = some (some n) → n < (runTree h ops).1.length ∧ lab (L ++ M) n = split '/' op.path) ∧
      (∀ (i : Nat) (op : TreeOp), ops[i]? = some op → ∃ r, (runTree h ops).2[i]? = some r ∧
        (r = none ↔ (∃ p, op = .find p) ∧ ¬ (split '/' op.path ∈ L ∨ ∃ j < i, ∃ op' q, ops[j]? = some op' ∧ Adds op' q ∧ split '/' op.path <+: split '/' q))) := by
  induction ops with
  | nil => intro h L w; exact ⟨[], by simpa [runTree] using w, by simp, by simp⟩
  | cons op ops ih =>
    intro h L w
    obtain ⟨M, h1, h2, h3, h4⟩ := treeStep_spec w op
    obtain ⟨N, k1, k2, k3⟩ := ih h1
    have e1 : (runTree h (op :: ops)).1 = (runTree (treeStep h op).1 ops).1 := rfl
    have e2 : (runTree h (op :: ops)).2 = (treeStep h op).2 :: (runTree (treeStep h op).1 ops).2 := rfl
    rw [e1, e2]
    have hlen : (treeStep h op).1.length ≤ (runTree (treeStep h op).1 ops).1.length := by
      have a := k1.len
      have b := h1.len
      rw [List.length_append] at a
      omega
    refine ⟨M ++ N, by rw [← List.append_assoc]; exact k1, ?_, ?_⟩
    · intro i op' n ho hr
      rw [← List.append_assoc]
      cases i with
      | zero =>
        simp only [List.getElem?_cons_zero, Option.some.injEq] at ho hr
        subst ho
        obtain ⟨a, b⟩ := h2 n hr
        exact ⟨by omega, by rw [lab_append_left (by rw [h1.len]; exact a), b]⟩
      | succ i =>
        simp only [List.getElem?_cons_succ] at ho hr
        exact k2 i op' n ho hr
    · intro i op' ho
      cases i with
      | zero =>
        simp only [List.getElem?_cons_zero, Option.some.injEq] at ho
        subst ho
        exact ⟨_, rfl, by rw [h4]; simp⟩
      | succ i =>
        simp only [List.getElem?_cons_succ] at ho
        obtain ⟨r, hr1, hr2⟩ := k3 i op' ho
        refine ⟨r, by simpa using hr1, ?_⟩
        rw [hr2, h3]
        refine and_congr_right (fun _ => not_congr ?_)
        constructor
        · rintro ((hl | ⟨q, hq, hp⟩) | ⟨j, hj, op'', q, a, b, c⟩)
          · exact Or.inl hl
          · exact Or.inr ⟨0, by omega, op, q, rfl, hq, hp⟩
          · exact Or.inr ⟨j + 1, by omega, op'', q, by simpa using a, b, c⟩
        · rintro (hl | ⟨j, hj, op'', q, a, b, c⟩)
          · exact Or.inl (Or.inl hl)
          · cases j with
            | zero =>
              simp only [List.getElem?_cons_zero, Option.some.injEq] at a
              subst a
              exact Or.inl (Or.inr ⟨q, b, c⟩)
            | succ j => exact Or.inr ⟨j, by omega, op'', q, by simpa using a, b, c⟩

/-- C51: a lookup fails exactly if neither the path nor one below it was added before; all other calls give a node. -/
theorem tree_lookup (ops : List TreeOp) (i : Nat) (op : TreeOp) (ho : ops[i]? = some op) :
    ∃ r, (runTree newHeap ops).2[i]? = some r ∧
      (r = none ↔ (∃ p, op = .find p) ∧ ¬ ∃ j < i, ∃ op' q, ops[j]? = some op' ∧ Adds op' q ∧ Within op.path q) := by
  obtain ⟨M, _, _, h⟩ := runTree_spec ops labelled_new
  obtain ⟨r, h1, h2⟩ := h i op ho
  refine ⟨r, h1, h2.trans (and_congr_right fun _ => not_congr ?_)⟩
  simp only [within_iff, List.mem_singleton, split_ne_nil, false_or]

/-- C51: two calls give the same node exactly if they are for the same path. -/
theorem tree_nodes (ops : List TreeOp) (i j : Nat) (op op' : TreeOp) (n m : Nat) (hi : ops[i]? = some op) (hj : ops[j]? = some op')
    (hn : (runTree newHeap ops).2[i]? = some (some n)) (hm : (runTree newHeap ops).2[j]? = some (some m)) : n = m ↔ op.path = op'.path := by
  obtain ⟨M, w, h, _⟩ := runTree_spec ops labelled_new
  obtain ⟨a1, a2⟩ := h i op n hi hn
  obtain ⟨b1, b2⟩ := h j op' m hj hm
  constructor
  · rintro rfl
    exact split_inj (a2.symm.trans b2)
  · intro e
    exact w.inj a1 b1 (by rw [a2, b2, e])

/-- C51: the path of a node is the path it was added or found under, without slashes at the end, at any later time. -/
theorem tree_node_path (ops : List TreeOp) (i : Nat) (op : TreeOp) (n : Nat) (hi : ops[i]? = some op)
    (hn : (runTree newHeap ops).2[i]? = some (some n)) :
    ∃ q, pathOfNode (runTree newHeap ops).1 n = some q ∧ WithoutSlashes op.path q := by
  obtain ⟨M, w, h, _⟩ := runTree_spec ops labelled_new
  obtain ⟨a1, a2⟩ := h i op n hi hn
  refine ⟨_, w.pathOfNode a1, ?_⟩
  rw [a2]
  have := glue_spec (split '/' op.path) (split_ne_nil _ _) (fun x hx => split_no_sep x hx)
  rwa [join_split] at this

/-- C51, in part: the path of a node is exactly the path it was added or found under, if that does not end with a slash.
Missing for the full property: paths that end with a slash (`not_tree_path`); `go list` gives no such package paths. -/
theorem tree_node_path_partial (ops : List TreeOp) (i : Nat) (op : TreeOp) (n : Nat) (hi : ops[i]? = some op)
    (hn : (runTree newHeap ops).2[i]? = some (some n)) (hs : ¬ c!"/" <:+ op.path) : pathOfNode (runTree newHeap ops).1 n = some op.path := by
  obtain ⟨q, h1, ⟨k, h2⟩, h3⟩ := tree_node_path ops i op n hi hn
  cases k with
  | zero => rw [h1, h2]; simp
  | succ k =>
    exfalso
    apply hs
    rw [h2]
    refine ⟨q ++ List.replicate k '/', ?_⟩
    rw [List.replicate_succ']
    simp

/-- C51, negation: a path that ends with a slash is not the path of its node. -/
theorem not_tree_path : ¬ ∀ (ops : List TreeOp) (i : Nat) (op : TreeOp) (n : Nat), ops[i]? = some op →
    (runTree newHeap ops).2[i]? = some (some n) → pathOfNode (runTree newHeap ops).1 n = some op.path := by
  intro h
  have := h [.add c!"a/"] 0 (.add c!"a/") 2 rfl (by decide)
  exact absurd this (by decide)

/-- Non-vacuity. -/
example : (runTree newHeap [.find c!"a", .add c!"a/b", .find c!"a", .findOrAdd c!"a/c", .find c!"a/c", .add c!"a/b", .find c!"b"]).2 =
    [none, some 2, some 1, some 3, some 3, some 2, none] := by decide

/-! ### C52 -/

/-- The names of the children of a node. -/
def siblings (h : Heap) (j : Nat) : List Str := (nodeAt h j).edges.map (fun k => (nodeAt h k).name)

theorem siblings_nodup {h : Heap} {L : List (List Str)} (w : Labelled h L) (j : Nat) : (siblings h j).Nodup := by
  unfold siblings List.Nodup
  rw [List.pairwise_map]
  have hone := w.once j
  unfold List.Nodup at hone
  refine hone.imp_of_mem ?_
  intro a b ha hb hab e
  obtain ⟨a1, a2, a3⟩ := (w.down j a).mp ha
  obtain ⟨b1, b2, b3⟩ := (w.down j b).mp hb
  obtain ⟨_, _, a4, a5⟩ := w.up a a1 a2
  obtain ⟨_, _, b4, b5⟩ := w.up b b1 b2
  rw [a3] at a4
  rw [b3] at b4
  cases a4
  cases b4
  exact hab (w.inj a2 b2 (by rw [a5, b5, e]))

/-- The invariant of all schedules. -/
def PoolInv (s : Pool) : Prop :=
  ∃ L, Labelled s.heap L ∧ ∀ (op : TreeOp) (n : Nat), CallState.done op (some n) ∈ s.calls → n < s.heap.length ∧ lab L n = split '/' op.path

theorem callStep_spec {h : Heap} {L : List (List Str)} (w : Labelled h L) (c : CallState) :
    ∃ M, Labelled (findOrAddStep h c).1 (L ++ M) ∧ ∀ (op : TreeOp) (n : Nat), (findOrAddStep h c).2 = .done op (some n) →
      c = .done op (some n) ∨ (n < (findOrAddStep h c).1.length ∧ lab (L ++ M) n = split '/' op.path) := by
  cases c with
  | done op r => exact ⟨[], by simpa [findOrAddStep] using w, fun op' n h => Or.inl h⟩
  | missed p =>
    obtain ⟨M, h1, h2, h3, _⟩ := w.addPackage p
    refine ⟨M, h1, fun op n h => Or.inr ?_⟩
    simp only [findOrAddStep, CallState.done.injEq, Option.some.injEq] at h
    obtain ⟨rfl, rfl⟩ := h
    exact ⟨h2, h3⟩
  | waiting op =>
    cases op with
    | add p =>
      obtain ⟨M, h1, h2, h3, _⟩ := w.addPackage p
      refine ⟨M, h1, fun op n h => Or.inr ?_⟩
      simp only [findOrAddStep, CallState.done.injEq, Option.some.injEq] at h
      obtain ⟨rfl, rfl⟩ := h
      exact ⟨h2, h3⟩
    | find p =>
      refine ⟨[], by simpa [findOrAddStep] using w, fun op n h => Or.inr ?_⟩
      simp only [findOrAddStep, CallState.done.injEq] at h
      obtain ⟨rfl, h⟩ := h
      simpa [findOrAddStep, TreeOp.path] using w.findPackage_iff.mp h
    | findOrAdd p =>
      cases hf : findPackage h p with
      | none =>
        have e : findOrAddStep h (.waiting (.findOrAdd p)) = (h, .missed p) := by simp [findOrAddStep, hf]
        rw [e]
        exact ⟨[], by simpa using w, fun op n h => nomatch h⟩
      | some m =>
        have e : findOrAddStep h (.waiting (.findOrAdd p)) = (h, .done (.findOrAdd p) (some m)) := by simp [findOrAddStep, hf]
        rw [e]
        refine ⟨[], by simpa using w, fun op n h => Or.inr ?_⟩
        simp only [CallState.done.injEq, Option.some.injEq] at h
        obtain ⟨rfl, rfl⟩ := h
        simpa [TreeOp.path] using w.findPackage_iff.mp hf

theorem PoolInv.step {s : Pool} (hs : PoolInv s) (i : Nat) : PoolInv (s.step i) := by
  obtain ⟨L, w, hd⟩ := hs
  unfold Pool.step
  cases hc : s.calls[i]? with
  | none => exact ⟨L, w, hd⟩
  | some c =>
    obtain ⟨M, h1, h2⟩ := callStep_spec w c
    have hlen : s.heap.length ≤ (findOrAddStep s.heap c).1.length := by
      have a := h1.len
      have b := w.len
      rw [List.length_append] at a
      omega
    have old : ∀ (op : TreeOp) (n : Nat), CallState.done op (some n) ∈ s.calls →
        n < (findOrAddStep s.heap c).1.length ∧ lab (L ++ M) n = split '/' op.path := by
      intro op n hm
      obtain ⟨a, b⟩ := hd op n hm
      exact ⟨by omega, by rw [lab_append_left (by rw [w.len]; exact a), b]⟩
    refine ⟨L ++ M, h1, ?_⟩
    intro op n hm
    rcases List.mem_or_eq_of_mem_set hm with hm | hm
    · exact old op n hm
    · rcases h2 op n hm.symm with h | h
      · exact old op n (h ▸ List.mem_of_getElem? hc)
      · exact h

theorem PoolInv.run {s : Pool} (hs : PoolInv s) (schedule : List Nat) : PoolInv (s.run schedule) := by
  unfold Pool.run
  induction schedule generalizing s with
  | nil => exact hs
  | cons i is ih => exact ih (hs.step i)

/-- The calls before anything has happened. -/
def Pool.start (ops : List TreeOp) : Pool := { heap := newHeap, calls := ops.map .waiting }

theorem PoolInv.start (ops : List TreeOp) : PoolInv (Pool.start ops) :=
  ⟨_, labelled_new, by intro op n h; simp [Pool.start] at h⟩

/-- C52: at any point of any schedule of any calls, two finished calls that gave a node gave the same one exactly if they were for the
same path. -/
theorem concurrent_calls_agree (ops : List TreeOp) (schedule : List Nat) (op op' : TreeOp) (n m : Nat)
    (h1 : CallState.done op (some n) ∈ ((Pool.start ops).run schedule).calls)
    (h2 : CallState.done op' (some m) ∈ ((Pool.start ops).run schedule).calls) : n = m ↔ op.path = op'.path := by
  obtain ⟨L, w, hd⟩ := (PoolInv.start ops).run schedule
  obtain ⟨a1, a2⟩ := hd op n h1
  obtain ⟨b1, b2⟩ := hd op' m h2
  constructor
  · rintro rfl
    exact split_inj (a2.symm.trans b2)
  · intro e
    exact w.inj a1 b1 (by rw [a2, b2, e])

/-- C52: no schedule creates two siblings with the same name. -/
theorem no_duplicate_siblings (ops : List TreeOp) (schedule : List Nat) (j : Nat) :
    (siblings ((Pool.start ops).run schedule).heap j).Nodup := by
  obtain ⟨L, w, _⟩ := (PoolInv.start ops).run schedule
  exact siblings_nodup w j

/-- C52: from then on, looking up the path of a finished call gives its node. -/
theorem finished_call_is_found (ops : List TreeOp) (schedule : List Nat) (op : TreeOp) (n : Nat)
    (h : CallState.done op (some n) ∈ ((Pool.start ops).run schedule).calls) :
    findPackage ((Pool.start ops).run schedule).heap op.path = some n := by
  obtain ⟨L, w, hd⟩ := (PoolInv.start ops).run schedule
  exact w.findPackage_iff.mpr (hd op n h)

/-- C52: only `Find` can come back without a node, and after two turns every call has come back. -/
theorem calls_finish (ops : List TreeOp) (schedule : List Nat) (i : Nat) (op : TreeOp) (hi : ops[i]? = some op)
    (h2 : 2 ≤ schedule.count i) :
    ∃ r, ((Pool.start ops).run schedule).calls[i]? = some (.done op r) ∧ (r = none → ∃ p, op = .find p) := by
  have other : ∀ (s : Pool) (j k : Nat), k ≠ j → (s.step k).calls[j]? = s.calls[j]? := by
    intro s j k hk
    unfold Pool.step
    split
    · rfl
    · simp [List.getElem?_set_ne hk]
  have own : ∀ (s : Pool) (c : CallState) (j : Nat), s.calls[j]? = some c → (s.step j).calls[j]? = some (findOrAddStep s.heap c).2 := by
    intro s c j hc
    have hlt : j < s.calls.length := by
      rw [List.getElem?_eq_some_iff] at hc
      exact hc.1
    unfold Pool.step
    rw [hc]
    simp [hlt]
  have stay : ∀ (sch : List Nat) (s : Pool) (r : Option Nat), s.calls[i]? = some (.done op r) → (s.run sch).calls[i]? = some (.done op r) := by
    intro sch
    induction sch with
    | nil => intro s r h; exact h
    | cons k sch ih =>
      intro s r h
      refine ih (s.step k) r ?_
      by_cases hk : k = i
      · subst hk; rw [own s _ k h]; rfl
      · rw [other s i k hk, h]
  have miss : ∀ (sch : List Nat) (s : Pool) (p : Str), op = .findOrAdd p → s.calls[i]? = some (.missed p) → 1 ≤ sch.count i →
      ∃ n, (s.run sch).calls[i]? = some (.done op (some n)) := by
    intro sch
    induction sch with
    | nil => intro s p _ _ h; simp at h
    | cons k sch ih =>
      intro s p e h hcnt
      by_cases hk : k = i
      · subst hk
        exact ⟨_, stay sch (s.step k) _ (by rw [own s _ k h, e]; rfl)⟩
      · refine ih (s.step k) p e (by rw [other s i k hk, h]) ?_
        rwa [List.count_cons_of_ne hk] at hcnt
  have wait : ∀ (sch : List Nat) (s : Pool), s.calls[i]? = some (.waiting op) → 2 ≤ sch.count i →
      ∃ r, (s.run sch).calls[i]? = some (.done op r) ∧ (r = none → ∃ p, op = .find p) := by
    intro sch
    induction sch with
    | nil => intro s _ h; simp at h
    | cons k sch ih =>
      intro s h hcnt
      by_cases hk : k = i
      · subst hk
        have hstep := own s _ k h
        rw [List.count_cons_self] at hcnt
        cases op with
        | add p => exact ⟨_, stay sch (s.step k) _ hstep, fun h => nomatch h⟩
        | find p => exact ⟨_, stay sch (s.step k) _ hstep, fun _ => ⟨p, rfl⟩⟩
        | findOrAdd p =>
          cases hf : findPackage s.heap p with
          | some n =>
            refine ⟨some n, stay sch (s.step k) _ ?_, fun h => nomatch h⟩
            rw [hstep]; simp [findOrAddStep, hf]
          | none =>
            obtain ⟨n, hn⟩ := miss sch (s.step k) p rfl (by rw [hstep]; simp [findOrAddStep, hf]) (by omega)
            exact ⟨some n, hn, fun h => nomatch h⟩
      · refine ih (s.step k) (by rw [other s i k hk, h]) ?_
        rwa [List.count_cons_of_ne hk] at hcnt
  exact wait schedule (Pool.start ops) (by simp [Pool.start, hi]) h2

/-- Non-vacuity: two calls that both miss the path before either adds it. -/
example : ((Pool.start [.findOrAdd c!"a/b", .findOrAdd c!"a/b", .find c!"a"]).run [0, 1, 1, 0, 2]).calls =
    [.done (.findOrAdd c!"a/b") (some 2), .done (.findOrAdd c!"a/b") (some 2), .done (.find c!"a") (some 1)] ∧
    2 ≤ List.count 0 [0, 1, 1, 0, 2] := by decide

end Astra.Props
