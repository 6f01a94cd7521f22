/-
The tree of packages as a list of labels: the label of a node is the list of names from the root.
-/
import Verif.Model.PackageManager
import Verif.Lemmas.GoPath

namespace Astra

theorem getD_of_lt {α : Type} (l : List α) (d : α) {i : Nat} (h : i < l.length) : l.getD i d = l[i] := by simp [h]

/-- The label of a node. -/
def lab (L : List (List Str)) (i : Nat) : List Str := L.getD i []

structure Labelled (h : Heap) (L : List (List Str)) : Prop where
  len : L.length = h.length
  pos : 0 < h.length
  root : lab L 0 = []
  rootParent : (nodeAt h 0).parent = none
  nodup : L.Nodup
  up : ∀ i, 0 < i → i < h.length → ∃ j, j < i ∧ (nodeAt h i).parent = some j ∧ lab L i = lab L j ++ [(nodeAt h i).name]
  down : ∀ j k, k ∈ (nodeAt h j).edges ↔ (0 < k ∧ k < h.length ∧ (nodeAt h k).parent = some j)
  once : ∀ j, (nodeAt h j).edges.Nodup

theorem labelled_new : Labelled newHeap [[]] where
  len := rfl
  pos := by decide
  root := rfl
  rootParent := rfl
  nodup := by simp
  up := by intro i h1 h2; simp [newHeap] at h2; omega
  down := by
    intro j k
    constructor
    · intro h
      cases j <;> simp [nodeAt, newHeap] at h
    · rintro ⟨h1, h2, _⟩
      simp [newHeap] at h2; omega
  once := by
    intro j
    cases j <;> simp [nodeAt, newHeap]

namespace Labelled
variable {h : Heap} {L : List (List Str)}

theorem inj (w : Labelled h L) {i j : Nat} (hi : i < h.length) (hj : j < h.length) (e : lab L i = lab L j) : i = j := by
  have h1 : i < L.length := by rw [w.len]; exact hi
  have h2 : j < L.length := by rw [w.len]; exact hj
  unfold lab at e
  rw [getD_of_lt _ _ h1, getD_of_lt _ _ h2] at e
  exact (List.getElem_inj w.nodup).mp e

theorem mem (w : Labelled h L) {t : List Str} : t ∈ L ↔ ∃ i, i < h.length ∧ lab L i = t := by
  constructor
  · intro ht
    obtain ⟨i, hi, e⟩ := List.getElem_of_mem ht
    exact ⟨i, by rw [← w.len]; exact hi, by unfold lab; rw [getD_of_lt _ _ hi]; exact e⟩
  · rintro ⟨i, hi, rfl⟩
    have h1 : i < L.length := by rw [w.len]; exact hi
    unfold lab
    rw [getD_of_lt _ _ h1]
    exact List.getElem_mem h1

/-- The labels are closed under prefixes. -/
theorem closed (w : Labelled h L) (t : List Str) : ∀ k, k < h.length → t <+: lab L k → ∃ m, m < h.length ∧ lab L m = t := by
  intro k
  induction k using Nat.strongRecOn with
  | _ k ih =>
    intro hk ht
    by_cases e : t = lab L k
    · exact ⟨k, hk, e.symm⟩
    · by_cases h0 : k = 0
      · subst h0
        rw [w.root] at ht e
        exact absurd (List.prefix_nil.mp ht) e
      · obtain ⟨j, hj, _, h2⟩ := w.up k (by omega) hk
        refine ih j hj (by omega) ?_
        rw [h2] at ht e
        rcases List.prefix_concat_iff.mp ht with h | h
        · exact absurd h e
        · exact h

theorem child_iff (w : Labelled h L) {j : Nat} (hj : j < h.length) {s : Str} {k : Nat} :
    child h j s = some k ↔ k < h.length ∧ lab L k = lab L j ++ [s] := by
  have fwd : ∀ k, child h j s = some k → k < h.length ∧ lab L k = lab L j ++ [s] := by
    intro k hk
    unfold child at hk
    have h1 := List.find?_some hk
    have h2 := List.mem_of_find?_eq_some hk
    obtain ⟨h3, h4, h5⟩ := (w.down j k).mp h2
    obtain ⟨j', _, h6, h7⟩ := w.up k h3 h4
    rw [h5] at h6
    cases h6
    simp only [decide_eq_true_eq] at h1
    rw [h1] at h7
    exact ⟨h4, h7⟩
  constructor
  · exact fwd k
  · rintro ⟨hk, e⟩
    have h0 : k ≠ 0 := by
      rintro rfl
      rw [w.root] at e
      simp at e
    obtain ⟨j', hj', h1, h2⟩ := w.up k (by omega) hk
    rw [e] at h2
    obtain ⟨e1, e2⟩ := List.append_inj' h2 rfl
    have ej : j = j' := w.inj hj (by omega) e1
    subst ej
    have hm : k ∈ (nodeAt h j).edges := (w.down j k).mpr ⟨by omega, hk, h1⟩
    have hs : (nodeAt h k).name = s := (List.cons.inj e2).1.symm
    cases hc : child h j s with
    | none =>
      unfold child at hc
      rw [List.find?_eq_none] at hc
      exact absurd (by simpa using hs) (hc k hm)
    | some k' =>
      obtain ⟨h3, h4⟩ := fwd k' hc
      rw [w.inj h3 hk (h4.trans e.symm)]

theorem find_iff (w : Labelled h L) {ss : List Str} : ∀ {j : Nat}, j < h.length → ∀ {k : Nat},
    findSteps h j ss = some k ↔ k < h.length ∧ lab L k = lab L j ++ ss := by
  induction ss with
  | nil =>
    intro j hj k
    simp only [findSteps, List.append_nil, Option.some.injEq]
    constructor
    · rintro rfl; exact ⟨hj, rfl⟩
    · rintro ⟨hk, e⟩; exact w.inj hj hk e.symm
  | cons s ss ih =>
    intro j hj k
    unfold findSteps
    cases hc : child h j s with
    | some m =>
      obtain ⟨hm, e⟩ := (w.child_iff hj).mp hc
      simp only
      rw [ih hm, e]
      simp
    | none =>
      simp only
      constructor
      · intro h; cases h
      · rintro ⟨hk, e⟩
        obtain ⟨m, hm, e'⟩ := w.closed (lab L j ++ [s]) k hk (by rw [e]; exact ⟨ss, by simp⟩)
        rw [(w.child_iff hj).mpr ⟨hm, e'⟩] at hc
        cases hc

theorem findPackage_iff (w : Labelled h L) {p : Str} {k : Nat} : findPackage h p = some k ↔ k < h.length ∧ lab L k = split '/' p := by
  have key := w.find_iff (ss := split '/' p) w.pos (k := k)
  rw [w.root, List.nil_append] at key
  rw [← key]
  unfold findPackage
  cases hf : findSteps h 0 (split '/' p) with
  | none => simp
  | some m =>
    cases m with
    | zero =>
      have := ((w.find_iff (ss := split '/' p) w.pos (k := 0)).mp hf).2
      rw [w.root, List.nil_append] at this
      exact absurd this.symm (split_ne_nil _ _)
    | succ m => simp

end Labelled

theorem nodeAt_alloc (h : Heap) {cur : Nat} (hc : cur < h.length) (s : Str) (i : Nat) :
    nodeAt (allocNode h cur s) i = if i = h.length then { parent := some cur, name := s }
      else if i = cur then { nodeAt h cur with edges := (nodeAt h cur).edges ++ [h.length] } else nodeAt h i := by
  unfold nodeAt allocNode
  simp only [List.getD_eq_getElem?_getD]
  by_cases h1 : i = h.length
  · subst h1
    rw [List.getElem?_append_right (by simp)]
    simp
  · by_cases h2 : i < h.length
    · rw [List.getElem?_append_left (by simpa using h2)]
      rw [List.getElem?_modify]
      by_cases h3 : i = cur
      · subst h3
        simp [h1, h2]
      · simp [h1, h3, Ne.symm h3]
    · rw [List.getElem?_eq_none (by simp; omega), if_neg h1, if_neg (by omega), List.getElem?_eq_none (by omega)]

theorem length_alloc (h : Heap) (cur : Nat) (s : Str) : (allocNode h cur s).length = h.length + 1 := by simp [allocNode]

theorem lab_append_left {L : List (List Str)} {i : Nat} (h : i < L.length) (M : List (List Str)) : lab (L ++ M) i = lab L i := by
  unfold lab
  rw [List.getD_eq_getElem?_getD, List.getElem?_append_left h, ← List.getD_eq_getElem?_getD]

theorem lab_snoc (L : List (List Str)) (t : List Str) : lab (L ++ [t]) L.length = t := by
  unfold lab; simp

theorem Labelled.alloc {h : Heap} {L : List (List Str)} (w : Labelled h L) {cur : Nat} (hc : cur < h.length) {s : Str} (hn : child h cur s = none) :
    Labelled (allocNode h cur s) (L ++ [lab L cur ++ [s]]) := by
  have hlast : lab (L ++ [lab L cur ++ [s]]) h.length = lab L cur ++ [s] := by rw [← w.len]; exact lab_snoc _ _
  have hold : ∀ i, i < h.length → lab (L ++ [lab L cur ++ [s]]) i = lab L i := fun i hi => lab_append_left (by rw [w.len]; exact hi) _
  have hpar : ∀ i, i < h.length → (nodeAt (allocNode h cur s) i).parent = (nodeAt h i).parent ∧ (nodeAt (allocNode h cur s) i).name = (nodeAt h i).name := by
    intro i hi
    rw [nodeAt_alloc h hc, if_neg (by omega)]
    split
    · rename_i e; subst e; exact ⟨rfl, rfl⟩
    · exact ⟨rfl, rfl⟩
  have hout : ∀ i, h.length ≤ i → nodeAt h i = {} := by
    intro i hi
    unfold nodeAt
    rw [List.getD_eq_getElem?_getD, List.getElem?_eq_none hi]; rfl
  constructor
  · simp [length_alloc, w.len]
  · rw [length_alloc]; omega
  · rw [hold 0 w.pos, w.root]
  · rw [(hpar 0 w.pos).1, w.rootParent]
  · rw [List.nodup_append]
    refine ⟨w.nodup, by simp, ?_⟩
    rintro a ha b hb rfl
    simp only [List.mem_singleton] at hb
    subst hb
    obtain ⟨i, hi, e⟩ := w.mem.mp ha
    rw [(w.child_iff hc).mpr ⟨hi, e⟩] at hn
    cases hn
  · intro i h0 hi
    rw [length_alloc] at hi
    by_cases e : i = h.length
    · subst e
      refine ⟨cur, hc, ?_, ?_⟩
      · rw [nodeAt_alloc h hc, if_pos rfl]
      · rw [hlast, hold cur hc, nodeAt_alloc h hc, if_pos rfl]
    · have hi' : i < h.length := by omega
      obtain ⟨j, hj, h1, h2⟩ := w.up i h0 hi'
      refine ⟨j, hj, ?_, ?_⟩
      · rw [(hpar i hi').1, h1]
      · rw [hold i hi', hold j (by omega), (hpar i hi').2, h2]
  · intro j k
    rw [length_alloc]
    have hk : (0 < k ∧ k < h.length + 1 ∧ (nodeAt (allocNode h cur s) k).parent = some j) ↔
        (0 < k ∧ k < h.length ∧ (nodeAt h k).parent = some j) ∨ (k = h.length ∧ j = cur) := by
      by_cases e : k = h.length
      · subst e
        rw [nodeAt_alloc h hc, if_pos rfl]
        have := w.pos
        constructor
        · rintro ⟨_, _, h3⟩; exact Or.inr ⟨rfl, (Option.some.inj h3).symm⟩
        · rintro (⟨_, h2, _⟩ | ⟨_, rfl⟩)
          · omega
          · exact ⟨this, by omega, rfl⟩
      · constructor
        · rintro ⟨h1, h2, h3⟩
          have hk : k < h.length := by omega
          rw [(hpar k hk).1] at h3
          exact Or.inl ⟨h1, hk, h3⟩
        · rintro (⟨h1, h2, h3⟩ | ⟨h1, _⟩)
          · exact ⟨h1, by omega, by rw [(hpar k h2).1]; exact h3⟩
          · exact absurd h1 e
    rw [hk, nodeAt_alloc h hc]
    by_cases e : j = h.length
    · subst e
      rw [if_pos rfl]
      constructor
      · intro h; cases h
      · rintro (⟨h1, h2, h3⟩ | ⟨_, h2⟩)
        · have := (w.down h.length k).mpr ⟨h1, h2, h3⟩
          rw [hout _ (Nat.le_refl _)] at this
          exact this
        · omega
    · rw [if_neg e]
      by_cases e2 : j = cur
      · subst e2
        rw [if_pos rfl]
        simp only [List.mem_append, List.mem_singleton, w.down, and_true]
      · rw [if_neg e2, w.down]
        simp [e2]
  · intro j
    rw [nodeAt_alloc h hc]
    split
    · exact List.nodup_nil
    · split
      · rw [List.nodup_append]
        refine ⟨w.once cur, by simp, ?_⟩
        rintro a ha b hb rfl
        simp only [List.mem_singleton] at hb
        have := ((w.down cur a).mp ha).2.1
        omega
      · exact w.once j

/-- What adding does: it appends the missing labels. -/
theorem Labelled.addSteps {ss : List Str} : ∀ {h : Heap} {L : List (List Str)} {cur : Nat}, Labelled h L → cur < h.length →
    ∃ M, Labelled (addSteps h cur ss).1 (L ++ M) ∧ (addSteps h cur ss).2 < (addSteps h cur ss).1.length ∧
      lab (L ++ M) (addSteps h cur ss).2 = lab L cur ++ ss ∧ ∀ t ∈ M, t <+: lab L cur ++ ss := by
  induction ss with
  | nil =>
    intro h L cur w hc
    exact ⟨[], by simpa [Astra.addSteps] using w, hc, by simp [Astra.addSteps], by simp⟩
  | cons s ss ih =>
    intro h L cur w hc
    unfold Astra.addSteps
    cases hk : child h cur s with
    | some k =>
      obtain ⟨hk1, hk2⟩ := (w.child_iff hc).mp hk
      obtain ⟨M, h1, h2, h3, h4⟩ := ih w hk1
      refine ⟨M, h1, h2, ?_, ?_⟩
      · rw [h3, hk2]; simp
      · intro t ht; have := h4 t ht; rw [hk2] at this; simpa using this
    | none =>
      have w' := w.alloc hc hk
      have hl : lab (L ++ [lab L cur ++ [s]]) h.length = lab L cur ++ [s] := by rw [← w.len]; exact lab_snoc _ _
      obtain ⟨M, h1, h2, h3, h4⟩ := ih (cur := h.length) w' (by rw [length_alloc]; omega)
      rw [hl] at h3 h4
      refine ⟨(lab L cur ++ [s]) :: M, by simpa using h1, h2, ?_, ?_⟩
      · have : L ++ (lab L cur ++ [s]) :: M = L ++ [lab L cur ++ [s]] ++ M := by simp
        simp only [this]
        rw [h3]; simp
      · intro t ht
        rcases List.mem_cons.mp ht with rfl | ht
        · exact ⟨ss, by simp⟩
        · simpa using h4 t ht

theorem Labelled.addPackage {h : Heap} {L : List (List Str)} (w : Labelled h L) (p : Str) :
    ∃ M, Labelled (addPackage h p).1 (L ++ M) ∧ (addPackage h p).2 < (addPackage h p).1.length ∧
      lab (L ++ M) (addPackage h p).2 = split '/' p ∧ ∀ t ∈ M, t <+: split '/' p := by
  obtain ⟨M, h1, h2, h3, h4⟩ := Labelled.addSteps (ss := split '/' p) w w.pos
  rw [w.root, List.nil_append] at h3 h4
  exact ⟨M, h1, h2, h3, h4⟩

theorem Labelled.findOrAdd {h : Heap} {L : List (List Str)} (w : Labelled h L) (p : Str) :
    ∃ M, Labelled (findOrAdd h p).1 (L ++ M) ∧ (findOrAdd h p).2 < (findOrAdd h p).1.length ∧
      lab (L ++ M) (findOrAdd h p).2 = split '/' p ∧ ∀ t ∈ M, t <+: split '/' p := by
  unfold Astra.findOrAdd
  cases hf : findPackage h p with
  | none => exact w.addPackage p
  | some n =>
    obtain ⟨h1, h2⟩ := w.findPackage_iff.mp hf
    exact ⟨[], by simpa using w, h1, by simpa using h2, by simp⟩

/-! ### Paths -/

/-- packageNode.go:32-36: one round. -/
def gluePath (name path : Str) : Str := if path = [] then name else name ++ '/' :: path

theorem Labelled.pathUp {h : Heap} {L : List (List Str)} (w : Labelled h L) : ∀ (n fuel : Nat) (acc : Str), n < h.length → n < fuel →
    pathUp h fuel n acc = some ((lab L n).foldr gluePath acc) := by
  intro n
  induction n using Nat.strongRecOn with
  | _ n ih =>
    intro fuel acc hn hf
    cases fuel with
    | zero => omega
    | succ fuel =>
      unfold Astra.pathUp
      by_cases h0 : n = 0
      · subst h0
        rw [w.rootParent, w.root]; rfl
      · obtain ⟨j, hj, h1, h2⟩ := w.up n (by omega) hn
        rw [h1, h2]
        simp only
        rw [ih j hj fuel _ (by omega) (by omega), List.foldr_append]
        rfl

theorem Labelled.pathOfNode {h : Heap} {L : List (List Str)} (w : Labelled h L) {n : Nat} (hn : n < h.length) :
    pathOfNode h n = some ((lab L n).foldr gluePath []) := w.pathUp n _ [] hn (by omega)

/-! ### Contents of nodes -/

/-- Everything but the edges. -/
def PkgNode.content (n : PkgNode) : Option Nat × Str × Option GoPackage × List FileNode × Option (List (Str × Str)) :=
  (n.parent, n.name, n.pkg, n.files, n.docs)

/-- The old nodes have kept their contents; new nodes are empty. -/
def Grown (h h' : Heap) : Prop :=
  h.length ≤ h'.length ∧ (∀ i, i < h.length → (nodeAt h' i).content = (nodeAt h i).content) ∧
  ∀ i, h.length ≤ i → (nodeAt h' i).pkg = none ∧ (nodeAt h' i).files = []

theorem nodeAt_out {h : Heap} {i : Nat} (hi : h.length ≤ i) : nodeAt h i = {} := by
  unfold nodeAt
  rw [List.getD_eq_getElem?_getD, List.getElem?_eq_none hi]; rfl

theorem Grown.refl (h : Heap) : Grown h h := ⟨Nat.le_refl _, fun _ _ => rfl, fun i hi => by rw [nodeAt_out hi]; exact ⟨rfl, rfl⟩⟩

theorem Grown.trans {a b c : Heap} (h : Grown a b) (h' : Grown b c) : Grown a c := by
  refine ⟨Nat.le_trans h.1 h'.1, fun i hi => ?_, fun i hi => ?_⟩
  · rw [h'.2.1 i (Nat.lt_of_lt_of_le hi h.1), h.2.1 i hi]
  · by_cases hb : i < b.length
    · have e := h'.2.1 i hb
      have := h.2.2 i hi
      simp only [PkgNode.content, Prod.mk.injEq] at e
      rw [e.2.2.1, e.2.2.2.1]
      exact this
    · exact h'.2.2 i (by omega)

theorem grown_alloc (h : Heap) {cur : Nat} (hc : cur < h.length) (s : Str) : Grown h (allocNode h cur s) := by
  refine ⟨by rw [length_alloc]; omega, fun i hi => ?_, fun i hi => ?_⟩
  · rw [nodeAt_alloc h hc, if_neg (by omega)]
    split
    · rename_i e; subst e; rfl
    · rfl
  · rw [nodeAt_alloc h hc]
    split
    · exact ⟨rfl, rfl⟩
    · rw [if_neg (by omega), nodeAt_out hi]; exact ⟨rfl, rfl⟩

theorem grown_addSteps {ss : List Str} : ∀ {h : Heap} {L : List (List Str)} {cur : Nat}, Labelled h L → cur < h.length →
    Grown h (addSteps h cur ss).1 := by
  induction ss with
  | nil => intro h L cur _ _; exact Grown.refl h
  | cons s ss ih =>
    intro h L cur w hc
    unfold Astra.addSteps
    cases hk : child h cur s with
    | some k => exact ih w ((w.child_iff hc).mp hk).1
    | none => exact (grown_alloc h hc s).trans (ih (w.alloc hc hk) (by rw [length_alloc]; omega))

theorem grown_findOrAdd {h : Heap} {L : List (List Str)} (w : Labelled h L) (p : Str) : Grown h (findOrAdd h p).1 := by
  unfold findOrAdd
  cases findPackage h p with
  | none => exact grown_addSteps w w.pos
  | some n => exact Grown.refl h

theorem nodeAt_modify (h : Heap) (n : Nat) (f : PkgNode → PkgNode) (i : Nat) :
    nodeAt (h.modify n f) i = if i = n ∧ n < h.length then f (nodeAt h n) else nodeAt h i := by
  unfold nodeAt
  simp only [List.getD_eq_getElem?_getD]
  rw [List.getElem?_modify]
  by_cases e : n = i
  · subst e
    by_cases hi : n < h.length
    · simp [hi]
    · simp [hi]
  · simp [e, Ne.symm e]

/-- Changing only the contents of a node keeps the tree. -/
theorem Labelled.modify {h : Heap} {L : List (List Str)} (w : Labelled h L) (n : Nat) (f : PkgNode → PkgNode)
    (hp : ∀ x, (f x).parent = x.parent) (hn : ∀ x, (f x).name = x.name) (he : ∀ x, (f x).edges = x.edges) : Labelled (h.modify n f) L := by
  have key : ∀ i, (nodeAt (h.modify n f) i).parent = (nodeAt h i).parent ∧ (nodeAt (h.modify n f) i).name = (nodeAt h i).name ∧
      (nodeAt (h.modify n f) i).edges = (nodeAt h i).edges := by
    intro i
    rw [nodeAt_modify]
    split
    · rename_i e
      rw [e.1]
      exact ⟨hp _, hn _, he _⟩
    · exact ⟨rfl, rfl, rfl⟩
  have hl : (h.modify n f).length = h.length := by simp
  constructor
  · rw [hl]; exact w.len
  · rw [hl]; exact w.pos
  · exact w.root
  · rw [(key 0).1]; exact w.rootParent
  · exact w.nodup
  · intro i h0 hi
    rw [hl] at hi
    rw [(key i).1, (key i).2.1]
    exact w.up i h0 hi
  · intro j k
    rw [(key j).2.2, (key k).1, hl]
    exact w.down j k
  · intro j
    rw [(key j).2.2]
    exact w.once j

/-- Labels that stay. -/
theorem lab_mono {h h' : Heap} {L M : List (List Str)} (w : Labelled h L) (w' : Labelled h' (L ++ M)) {n : Nat} (hn : n < h.length) :
    n < h'.length ∧ lab (L ++ M) n = lab L n := by
  have a := w.len
  have b := w'.len
  rw [List.length_append] at b
  exact ⟨by omega, lab_append_left (by omega) M⟩

/-- What `MapImportSpecs` gives. -/
theorem Labelled.mapImportSpecs (imps : List ImportSpec) : ∀ {h : Heap} {L : List (List Str)}, Labelled h L →
    ∃ M, Labelled (mapImportSpecs h imps).1 (L ++ M) ∧ Grown h (mapImportSpecs h imps).1 ∧ (mapImportSpecs h imps).2.length = imps.length ∧
      ∀ (i : Nat) (s : ImportSpec) (im : FileImport), imps[i]? = some s → (mapImportSpecs h imps).2[i]? = some im →
        im.name = s.name.getD [] ∧ im.pkg < (mapImportSpecs h imps).1.length ∧ lab (L ++ M) im.pkg = split '/' (trimBy (· = '"') s.path) := by
  induction imps with
  | nil => intro h L w; exact ⟨[], by simpa [Astra.mapImportSpecs] using w, Grown.refl h, rfl, by simp⟩
  | cons s imps ih =>
    intro h L w
    obtain ⟨M, h1, h2, h3, _⟩ := w.findOrAdd (trimBy (· = '"') s.path)
    obtain ⟨N, k1, k2, k3, k4⟩ := ih h1
    have e : Astra.mapImportSpecs h (s :: imps) = ((Astra.mapImportSpecs (Astra.findOrAdd h (trimBy (· = '"') s.path)).1 imps).1,
      { pkg := (Astra.findOrAdd h (trimBy (· = '"') s.path)).2, name := s.name.getD [] } ::
        (Astra.mapImportSpecs (Astra.findOrAdd h (trimBy (· = '"') s.path)).1 imps).2) := rfl
    rw [e]
    refine ⟨M ++ N, by rw [← List.append_assoc]; exact k1, (grown_findOrAdd w _).trans k2, by simp [k3], ?_⟩
    rw [← List.append_assoc]
    intro i s' im hs hi
    cases i with
    | zero =>
      simp only [List.getElem?_cons_zero, Option.some.injEq] at hs hi
      subst hs
      subst hi
      obtain ⟨a, b⟩ := lab_mono h1 k1 h2
      exact ⟨rfl, a, b.trans h3⟩
    | succ i =>
      simp only [List.getElem?_cons_succ] at hs hi
      exact k4 i s' im hs hi

/-- What a file becomes. -/
def FileOf (h : Heap) (L : List (List Str)) (f : SrcFile) (g : FileNode) : Prop :=
  g.fileName = f.fileName ∧ g.ast = f ∧ g.imports.length = f.imports.length ∧
  ∀ (i : Nat) (s : ImportSpec) (im : FileImport), f.imports[i]? = some s → g.imports[i]? = some im →
    im.name = s.name.getD [] ∧ im.pkg < h.length ∧ lab L im.pkg = split '/' (trimBy (· = '"') s.path)

theorem FileOf.mono {h h' : Heap} {L M : List (List Str)} (w : Labelled h L) (w' : Labelled h' (L ++ M)) {f : SrcFile} {g : FileNode}
    (hf : FileOf h L f g) : FileOf h' (L ++ M) f g := by
  obtain ⟨h1, h2, h3, h4⟩ := hf
  refine ⟨h1, h2, h3, fun i s im hs hi => ?_⟩
  obtain ⟨a, b, c⟩ := h4 i s im hs hi
  obtain ⟨d, e⟩ := lab_mono w w' b
  exact ⟨a, d, e.trans c⟩

theorem Labelled.mapFiles (fs : List SrcFile) : ∀ {h : Heap} {L : List (List Str)}, Labelled h L →
    ∃ M, Labelled (mapFiles h fs).1 (L ++ M) ∧ Grown h (mapFiles h fs).1 ∧ (mapFiles h fs).2.length = fs.length ∧
      ∀ (i : Nat) (f : SrcFile) (g : FileNode), fs[i]? = some f → (mapFiles h fs).2[i]? = some g → FileOf (mapFiles h fs).1 (L ++ M) f g := by
  induction fs with
  | nil => intro h L w; exact ⟨[], by simpa [Astra.mapFiles] using w, Grown.refl h, rfl, by simp⟩
  | cons f fs ih =>
    intro h L w
    obtain ⟨M, h1, h2, h3, h4⟩ := Labelled.mapImportSpecs f.imports w
    obtain ⟨N, k1, k2, k3, k4⟩ := ih h1
    have e : Astra.mapFiles h (f :: fs) = ((Astra.mapFiles (Astra.mapImportSpecs h f.imports).1 fs).1,
      { fileName := f.fileName, imports := (Astra.mapImportSpecs h f.imports).2, ast := f } :: (Astra.mapFiles (Astra.mapImportSpecs h f.imports).1 fs).2) := rfl
    rw [e]
    refine ⟨M ++ N, by rw [← List.append_assoc]; exact k1, h2.trans k2, by simp [k3], ?_⟩
    rw [← List.append_assoc]
    intro i f' g hf hg
    cases i with
    | zero =>
      simp only [List.getElem?_cons_zero, Option.some.injEq] at hf hg
      subst hf
      subst hg
      exact FileOf.mono h1 k1 ⟨rfl, rfl, h3, h4⟩
    | succ i =>
      simp only [List.getElem?_cons_succ] at hf hg
      exact k4 i f' g hf hg

/-- What `populate` does. -/
theorem Labelled.populate {h : Heap} {L : List (List Str)} (w : Labelled h L) {n : Nat} (hn : n < h.length) (p : GoPackage) :
    ∃ M files, Labelled (populate h n p) (L ++ M) ∧ h.length ≤ (populate h n p).length ∧
      (nodeAt (populate h n p) n).pkg = some p ∧ (nodeAt (populate h n p) n).files = (nodeAt h n).files ++ files ∧ files.length = p.files.length ∧
      (∀ (i : Nat) (f : SrcFile) (g : FileNode), p.files[i]? = some f → files[i]? = some g → FileOf (populate h n p) (L ++ M) f g) ∧
      (∀ i, i < h.length → i ≠ n → (nodeAt (populate h n p) i).content = (nodeAt h i).content) ∧
      (∀ i, h.length ≤ i → (nodeAt (populate h n p) i).pkg = none ∧ (nodeAt (populate h n p) i).files = []) := by
  let h1 := h.modify n (fun nd => { nd with pkg := some p })
  have w1 : Labelled h1 L := w.modify n _ (fun _ => rfl) (fun _ => rfl) (fun _ => rfl)
  have l1 : h1.length = h.length := by simp [h1]
  obtain ⟨M, k1, k2, k3, k4⟩ := Labelled.mapFiles p.files w1
  let h2 := (Astra.mapFiles h1 p.files).1
  let files := (Astra.mapFiles h1 p.files).2
  have e : Astra.populate h n p = h2.modify n (fun nd => { nd with files := nd.files ++ files }) := rfl
  have w3 : Labelled (Astra.populate h n p) (L ++ M) := by
    rw [e]
    exact k1.modify n _ (fun _ => rfl) (fun _ => rfl) (fun _ => rfl)
  have l2 : h.length ≤ h2.length := by have := k2.1; rw [l1] at this; exact this
  have l3 : (Astra.populate h n p).length = h2.length := by rw [e]; simp
  have hn2 : n < h2.length := by omega
  have c1 : (nodeAt h2 n).content = (nodeAt h1 n).content := k2.2.1 n (by omega)
  have c2 : nodeAt h1 n = { nodeAt h n with pkg := some p } := by
    show nodeAt (h.modify n _) n = _
    rw [nodeAt_modify, if_pos ⟨rfl, hn⟩]
  rw [c2] at c1
  simp only [PkgNode.content, Prod.mk.injEq] at c1
  have c3 : nodeAt (Astra.populate h n p) n = { nodeAt h2 n with files := (nodeAt h2 n).files ++ files } := by
    rw [e, nodeAt_modify, if_pos ⟨rfl, hn2⟩]
  have cother : ∀ i, i ≠ n → nodeAt (Astra.populate h n p) i = nodeAt h2 i := by
    intro i hi
    rw [e, nodeAt_modify, if_neg (fun h => hi h.1)]
  refine ⟨M, files, w3, by omega, ?_, ?_, k3, ?_, ?_, ?_⟩
  · rw [c3]; exact c1.2.2.1
  · rw [c3]
    show (nodeAt h2 n).files ++ files = _
    rw [c1.2.2.2.1]
  · intro i f g hf hg
    obtain ⟨a1, a2, a3, a4⟩ := k4 i f g hf hg
    exact ⟨a1, a2, a3, fun j s im hs hi => by rw [l3]; exact a4 j s im hs hi⟩
  · intro i hi hne
    rw [cother i hne]
    refine (k2.2.1 i (by omega)).trans ?_
    show (nodeAt (h.modify n _) i).content = _
    rw [nodeAt_modify, if_neg (fun h => hne h.1)]
  · intro i hi
    rw [cother i (by omega)]
    exact k2.2.2 i (by omega)

end Astra
