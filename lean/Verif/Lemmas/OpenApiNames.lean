/-
Helper lemmas about the schema names of the OpenAPI output.
-/
import Verif.Lemmas.Basic
import Verif.Model.OpenApiNames
import Verif.Spec.OpenApi

namespace Astra
open Spec

theorem takeWhile_ne_of_not_mem {sep : Char} {s : Str} (h : sep ∉ s) : s.takeWhile (· ≠ sep) = s := by
  induction s with
  | nil => rfl
  | cons c cs ih =>
    simp only [List.mem_cons, not_or] at h
    have hc : c ≠ sep := fun e => h.1 e.symm
    simp only [List.takeWhile_cons, decide_not]
    simp [hc]
    simpa using ih h.2

theorem afterLast_append {sep : Char} (x : Str) {y : Str} (h : sep ∉ y) : afterLast sep (x ++ sep :: y) = y := by
  unfold afterLast
  rw [List.reverse_append, List.reverse_cons, List.append_assoc, List.takeWhile_append_of_pos]
  · simp
  · intro a ha
    have : a ∈ y := by simpa using ha
    simp only [ne_eq, decide_not, Bool.not_eq_true', decide_eq_false_iff_not]
    rintro rfl
    exact h this

theorem afterLast_of_not_mem {sep : Char} {y : Str} (h : sep ∉ y) : afterLast sep y = y := by
  unfold afterLast
  rw [takeWhile_ne_of_not_mem (by simpa using h), List.reverse_reverse]

theorem join_append_singleton (sep : Str) (l : List Str) (x : Str) (h : l ≠ []) :
    join sep (l ++ [x]) = join sep l ++ sep ++ x := by
  induction l with
  | nil => exact absurd rfl h
  | cons a r ih =>
    cases r with
    | nil => simp [join]
    | cons b r' =>
      have := ih (by simp)
      simp only [List.cons_append] at this ⊢
      rw [join_cons (List.cons_ne_nil _ _), this, join_cons (List.cons_ne_nil _ _)]
      simp

/-- The last segment of a split is the text after the last separator. -/
theorem split_getLast (sep : Char) (s : Str) : (split sep s).getLast? = some (afterLast sep s) := by
  have hne := split_ne_nil sep s
  have hj := join_split sep s
  rw [List.getLast?_eq_some_getLast hne]
  have hd := List.dropLast_concat_getLast hne
  generalize hL : (split sep s).getLast hne = last at *
  generalize hI : (split sep s).dropLast = ini at *
  have hlast : sep ∉ last := split_no_sep last (by rw [← hd]; simp)
  rw [← hd] at hj
  congr 1
  by_cases hi : ini = []
  · subst hi
    simp only [List.nil_append, join] at hj
    rw [← hj, afterLast_of_not_mem hlast]
  · rw [join_append_singleton _ _ _ hi] at hj
    rw [← hj, List.append_assoc, List.singleton_append, afterLast_append _ hlast]

theorem getPackageName_eq (pkg : Str) : getPackageName pkg = lastSegment pkg := by
  unfold getPackageName lastSegment segments
  rw [List.getLastD_eq_getLast?, split_getLast]
  rfl

theorem append_sep_inj {sep : Char} {x x' y y' : Str} (h : x ++ sep :: y = x' ++ sep :: y') (hy : sep ∉ y) (hy' : sep ∉ y') :
    x = x' ∧ y = y' := by
  have h1 : afterLast sep (x ++ sep :: y) = afterLast sep (x' ++ sep :: y') := by rw [h]
  rw [afterLast_append _ hy, afterLast_append _ hy'] at h1
  subst h1
  exact ⟨List.append_cancel_right h, rfl⟩

theorem toStr_inj {b b' : BTag} (h : b.toStr = b'.toStr) : b = b' := by
  cases b <;> cases b' <;> first | rfl | (exfalso; revert h; decide)

theorem toStr_no_dot (b : BTag) : '.' ∉ b.toStr := by cases b <;> decide
theorem toStr_no_slash (b : BTag) : '/' ∉ b.toStr := by cases b <;> decide

theorem toStr_kind {b : BTag} : b.toStr ∈ kindNames ∨ b.toStr = [] := by cases b <;> decide

theorem dot_mem_lastSegment (x : Str) {y : Str} (hy : '/' ∉ y) : '.' ∈ lastSegment (x ++ '.' :: y) := by
  rw [← getPackageName_eq]
  unfold getPackageName afterLast
  rw [List.mem_reverse, List.reverse_append, List.reverse_cons, List.append_assoc, List.takeWhile_append_of_pos]
  · simp
  · intro a ha
    have : a ∈ y := by simpa using ha
    simp only [ne_eq, decide_not, Bool.not_eq_true', decide_eq_false_iff_not]
    rintro rfl
    exact hy this

theorem collisionSafeKey_none (name pkg : Str) : collisionSafeKey .none name pkg = pkg ++ '.' :: name := by
  simp [collisionSafeKey, join]

theorem collisionSafeKey_some {b : BTag} (hb : b ≠ .none) (name pkg : Str) :
    collisionSafeKey b name pkg = (pkg ++ '.' :: b.toStr) ++ '.' :: name := by
  simp [collisionSafeKey, join, hb]

/-- Keys identify binding kind, name and package. -/
theorem collisionSafeKey_inj {b b' : BTag} {n n' p p' : Str} (h : collisionSafeKey b n p = collisionSafeKey b' n' p')
    (hn : '.' ∉ n) (hn' : '.' ∉ n') (hp : '.' ∉ lastSegment p) (hp' : '.' ∉ lastSegment p') : b = b' ∧ n = n' ∧ p = p' := by
  by_cases hb : b = .none
  · subst hb
    by_cases hb' : b' = .none
    · subst hb'
      rw [collisionSafeKey_none, collisionSafeKey_none] at h
      obtain ⟨h1, h2⟩ := append_sep_inj h hn hn'
      exact ⟨rfl, h2, h1⟩
    · rw [collisionSafeKey_none, collisionSafeKey_some hb'] at h
      obtain ⟨h1, h2⟩ := append_sep_inj h hn hn'
      exact absurd (h1 ▸ dot_mem_lastSegment p' (toStr_no_slash b')) hp
  · by_cases hb' : b' = .none
    · subst hb'
      rw [collisionSafeKey_none, collisionSafeKey_some hb] at h
      obtain ⟨h1, h2⟩ := append_sep_inj h hn hn'
      exact absurd (h1 ▸ dot_mem_lastSegment p (toStr_no_slash b)) hp'
    · rw [collisionSafeKey_some hb, collisionSafeKey_some hb'] at h
      obtain ⟨h1, h2⟩ := append_sep_inj h hn hn'
      obtain ⟨h3, h4⟩ := append_sep_inj h1 (toStr_no_dot b) (toStr_no_dot b')
      exact ⟨toStr_inj h4, h2, h3⟩

/-! ### Grouping -/

/-- One step of the grouping. -/
def groupStep (m : List (Str × List Field)) (c : Field) : List (Str × List Field) :=
  aset m (getPackageName c.package) ((aget m (getPackageName c.package)).getD [] ++ [c])

theorem groupByPackage_eq (cs : List Field) : groupByPackage cs = cs.foldl groupStep [] := rfl

theorem aget_groups (cs : List Field) (m : List (Str × List Field)) (g : Str) :
    (aget (cs.foldl groupStep m) g).getD [] = (aget m g).getD [] ++ cs.filter (fun c => getPackageName c.package = g) := by
  induction cs generalizing m with
  | nil => simp
  | cons c cs ih =>
    rw [List.foldl_cons, ih, groupStep, aget_aset, List.filter_cons]
    by_cases h : getPackageName c.package = g
    · simp [h]
    · simp [h]

theorem keys_aset_nodup {K V : Type} [DecidableEq K] (m : List (K × V)) (k : K) (v : V) (h : (m.map (·.1)).Nodup) :
    ((aset m k v).map (·.1)).Nodup ∧ ∀ x, x ∈ (aset m k v).map (·.1) ↔ x = k ∨ x ∈ m.map (·.1) := by
  induction m with
  | nil => simp [aset]
  | cons p m ih =>
    obtain ⟨k', v'⟩ := p
    simp only [List.map_cons, List.nodup_cons] at h
    obtain ⟨i1, i2⟩ := ih h.2
    simp only [aset]
    by_cases hk : k' = k
    · subst hk
      simp only [if_true, List.map_cons, List.nodup_cons, List.mem_cons]
      refine ⟨h, fun x => ?_⟩
      simp
    · simp only [hk, if_false, List.map_cons, List.nodup_cons, List.mem_cons]
      refine ⟨⟨?_, i1⟩, ?_⟩
      · rw [i2]
        rintro (e | e)
        · exact hk e
        · exact h.1 e
      · intro x
        rw [i2]
        constructor
        · rintro (h | h | h)
          · exact Or.inr (Or.inl h)
          · exact Or.inl h
          · exact Or.inr (Or.inr h)
        · rintro (h | h | h)
          · exact Or.inr (Or.inl h)
          · exact Or.inl h
          · exact Or.inr (Or.inr h)

theorem groups_nodup (cs : List Field) (m : List (Str × List Field)) (h : (m.map (·.1)).Nodup) :
    ((cs.foldl groupStep m).map (·.1)).Nodup := by
  induction cs generalizing m with
  | nil => exact h
  | cons c cs ih => exact ih _ (keys_aset_nodup _ _ _ h).1

/-- The components that share the package name of `pkg`, in order. -/
def groupOf (components : List Field) (pkg : Str) : List Field :=
  components.filter (fun c => lastSegment c.package = lastSegment pkg)

/-- Every group is the list of all components with its package name, and every component is in one. -/
theorem groupByPackage_spec (components : List Field) :
    (∀ x ∈ groupByPackage components, ∀ c ∈ x.2, c ∈ components ∧ x.2 = groupOf components c.package) ∧
    (∀ c ∈ components, ∃ x ∈ groupByPackage components, c ∈ x.2) := by
  have hn := groups_nodup components [] (by simp)
  constructor
  · rintro ⟨g, cs⟩ hx c hc
    have h1 := aget_of_mem_nodup hn hx
    have h2 := aget_groups components [] g
    rw [h1] at h2
    simp only [Option.getD_some, aget, Option.getD_none, List.nil_append] at h2
    simp only at hc
    rw [h2] at hc
    simp only [List.mem_filter, decide_eq_true_eq] at hc
    refine ⟨hc.1, ?_⟩
    simp only [h2, groupOf]
    congr 1
    funext d
    rw [← hc.2, getPackageName_eq, getPackageName_eq]
  · intro c hc
    have h2 := aget_groups components [] (getPackageName c.package)
    cases h1 : aget (components.foldl groupStep []) (getPackageName c.package) with
    | none =>
      rw [h1] at h2
      simp only [Option.getD_none, aget, List.nil_append] at h2
      have : c ∈ components.filter (fun d => decide (getPackageName d.package = getPackageName c.package)) := by simp [hc]
      rw [← h2] at this
      simp at this
    | some cs =>
      rw [h1] at h2
      simp only [Option.getD_some, aget, Option.getD_none, List.nil_append] at h2
      refine ⟨_, aget_some_mem h1, ?_⟩
      rw [h2]
      simp [hc]

/-! ### sameUntil -/

theorem firstMismatch_spec {k : Nat} {as bs : List Str} {r : Nat} (h : firstMismatch k as bs = some r) :
    k ≤ r ∧ as.take (r - k) = bs.take (r - k) ∧ ∃ a b, as[r - k]? = some a ∧ bs[r - k]? = some b ∧ a ≠ b := by
  induction as generalizing k bs with
  | nil => simp [firstMismatch] at h
  | cons a as ih =>
    cases bs with
    | nil => simp [firstMismatch] at h
    | cons b bs =>
      simp only [firstMismatch] at h
      split at h
      · rename_i hab
        injection h with h
        subst h
        exact ⟨Nat.le_refl _, by simp, a, b, by simp, by simp, hab⟩
      · rename_i hab
        simp only [ne_eq, Decidable.not_not] at hab
        obtain ⟨h1, h2, a', b', h3, h4, h5⟩ := ih h
        have e : r - k = (r - (k + 1)) + 1 := by omega
        refine ⟨by omega, ?_, a', b', ?_, ?_, h5⟩
        · rw [e, List.take_succ_cons, List.take_succ_cons, h2, hab]
        · rw [e, List.getElem?_cons_succ]; exact h3
        · rw [e, List.getElem?_cons_succ]; exact h4

theorem firstMismatch_differ {p q : Str} {r : Nat}
    (h : firstMismatch 0 (split '/' p).reverse (split '/' q).reverse = some r) : DifferAt r p q := by
  obtain ⟨_, h2, h3⟩ := firstMismatch_spec h
  exact ⟨h2, h3⟩

theorem firstMismatch_complete {as bs : List Str} {k d : Nat} (h1 : as.take d = bs.take d)
    (h2 : ∃ a b, as[d]? = some a ∧ bs[d]? = some b ∧ a ≠ b) : firstMismatch k as bs = some (k + d) := by
  induction d generalizing as bs k with
  | zero =>
    obtain ⟨a, b, ha, hb, hne⟩ := h2
    cases as with
    | nil => simp at ha
    | cons x as =>
      cases bs with
      | nil => simp at hb
      | cons y bs =>
        simp only [List.getElem?_cons_zero, Option.some.injEq] at ha hb
        subst ha hb
        simp [firstMismatch, hne]
  | succ d ih =>
    obtain ⟨a, b, ha, hb, hne⟩ := h2
    cases as with
    | nil => simp at ha
    | cons x as =>
      cases bs with
      | nil => simp at hb
      | cons y bs =>
        simp only [List.take_succ_cons, List.cons.injEq] at h1
        simp only [List.getElem?_cons_succ] at ha hb
        simp only [firstMismatch, h1.1, ne_eq, not_true, if_false]
        rw [ih h1.2 ⟨a, b, ha, hb, hne⟩]
        congr 1
        omega

theorem Spec.DifferAt.mismatch {p q : Str} {k : Nat} (h : DifferAt k p q) :
    firstMismatch 0 (split '/' p).reverse (split '/' q).reverse = some k := by
  have := firstMismatch_complete (k := 0) h.1 h.2
  rw [Nat.zero_add] at this
  exact this

theorem Spec.DifferAt.symm {p q : Str} {k : Nat} (h : DifferAt k p q) : DifferAt k q p := by
  obtain ⟨h1, a, b, h2, h3, h4⟩ := h
  exact ⟨h1.symm, b, a, h3, h2, fun e => h4 e.symm⟩

theorem Spec.DifferAt.unique {p q : Str} {k k' : Nat} (h : DifferAt k p q) (h' : DifferAt k' p q) : k = k' := by
  have := h.mismatch.symm.trans h'.mismatch
  simpa using this

theorem sameUntilInner_cases (p : Str) (rest : List Str) (s : Nat) :
    sameUntilInner p rest s = s ∨ ∃ q ∈ rest, DifferAt (sameUntilInner p rest s) p q := by
  induction rest with
  | nil => exact Or.inl rfl
  | cons q rest ih =>
    simp only [sameUntilInner]
    split
    · cases h : firstMismatch 0 (split '/' p).reverse (split '/' q).reverse with
      | none => exact Or.inl rfl
      | some r => exact Or.inr ⟨q, by simp, firstMismatch_differ h⟩
    · rcases ih with h | ⟨q', h1, h2⟩
      · exact Or.inl h
      · exact Or.inr ⟨q', by simp [h1], h2⟩

theorem sameUntilStep_cases (pkgs : List Str) (s i : Nat) :
    sameUntilStep pkgs s i = s ∨ ∃ p ∈ pkgs, ∃ q ∈ pkgs, DifferAt (sameUntilStep pkgs s i) p q := by
  unfold sameUntilStep
  split
  · rename_i p hp
    rcases sameUntilInner_cases p ((pkgs.take (pkgs.length - i)).drop (i + 1)) s with h | ⟨q, h1, h2⟩
    · exact Or.inl h
    · refine Or.inr ⟨p, List.mem_of_getElem? hp, q, ?_, h2⟩
      exact List.mem_of_mem_take (List.mem_of_mem_drop h1)
  · exact Or.inl rfl

theorem sameUntil_fold_cases (pkgs : List Str) (is : List Nat) (s : Nat)
    (hs : s = 0 ∨ ∃ p ∈ pkgs, ∃ q ∈ pkgs, DifferAt s p q) :
    is.foldl (sameUntilStep pkgs) s = 0 ∨
      ∃ p ∈ pkgs, ∃ q ∈ pkgs, DifferAt (is.foldl (sameUntilStep pkgs) s) p q := by
  induction is generalizing s with
  | nil => exact hs
  | cons i is ih =>
    rw [List.foldl_cons]
    apply ih
    rcases sameUntilStep_cases pkgs s i with h | h
    · rw [h]; exact hs
    · exact Or.inr h

/-- `sameUntil` is zero or the depth at which some two packages of the group differ. -/
theorem sameUntil_cases (pkgs : List Str) :
    sameUntil pkgs = 0 ∨ ∃ p ∈ pkgs, ∃ q ∈ pkgs, DifferAt (sameUntil pkgs) p q :=
  sameUntil_fold_cases pkgs _ 0 (Or.inl rfl)

theorem sameUntilInner_finds (p : Str) (rest : List Str) (s k : Nat) (h : ∀ q ∈ rest, p ≠ q → DifferAt k p q)
    (hex : ∃ q ∈ rest, p ≠ q) : sameUntilInner p rest s = k := by
  induction rest with
  | nil => simp at hex
  | cons q rest ih =>
    simp only [sameUntilInner]
    split
    · rename_i hne
      rw [(h q (by simp) hne).mismatch]
      rfl
    · rename_i hne
      apply ih (fun q' hq' => h q' (by simp [hq']))
      obtain ⟨q', h1, h2⟩ := hex
      simp only [List.mem_cons] at h1
      rcases h1 with rfl | h1
      · exact absurd h2 hne
      · exact ⟨q', h1, h2⟩

/-- When all different packages of a group differ at the same depth, and there are two, `sameUntil` is that depth. -/
theorem sameUntil_of_separated (pkgs : List Str) (k : Nat) (h : ∀ p ∈ pkgs, ∀ q ∈ pkgs, p ≠ q → DifferAt k p q)
    (hex : ∃ p ∈ pkgs, ∃ q ∈ pkgs, p ≠ q) : sameUntil pkgs = k := by
  have hkeep : ∀ (is : List Nat), is.foldl (sameUntilStep pkgs) k = k := by
    intro is
    induction is with
    | nil => rfl
    | cons i is ih =>
      rw [List.foldl_cons]
      have : sameUntilStep pkgs k i = k := by
        rcases sameUntilStep_cases pkgs k i with h1 | ⟨p, hp, q, hq, hd⟩
        · exact h1
        · have hne : p ≠ q := by
            rintro rfl
            obtain ⟨_, a, b, ha, hb, hne⟩ := hd
            rw [ha] at hb
            exact hne (by simpa using hb)
          exact hd.unique (h p hp q hq hne)
      rw [this, ih]
  cases pkgs with
  | nil => simp at hex
  | cons p0 rest =>
    have hr : ∃ q ∈ rest, p0 ≠ q := by
      obtain ⟨p, hp, q, hq, hne⟩ := hex
      simp only [List.mem_cons] at hp hq
      by_cases h1 : p = p0
      · subst h1
        rcases hq with rfl | hq
        · exact absurd rfl hne
        · exact ⟨q, hq, hne⟩
      · rcases hp with hp | hp
        · exact absurd hp h1
        · exact ⟨p, hp, fun e => h1 e.symm⟩
    have hlen : 0 < rest.length := by
      obtain ⟨q, hq, _⟩ := hr
      exact List.length_pos_of_mem hq
    unfold sameUntil
    have e : (p0 :: rest).length - 1 = (rest.length - 1) + 1 := by simp; omega
    rw [e, List.range_succ_eq_map, List.foldl_cons]
    have hz : sameUntilStep (p0 :: rest) 0 0 = k := by
      unfold sameUntilStep
      simp only [List.getElem?_cons_zero, Nat.sub_zero, List.take_length, Nat.zero_add, List.drop_succ_cons, List.drop_zero]
      exact sameUntilInner_finds p0 rest 0 k (fun q hq hne => h p0 (by simp) q (by simp [hq]) hne) hr
    rw [hz]
    exact hkeep _

/-! ### The table -/

/-- `(key, name)` is an entry written for component `c` and kind `b`. -/
def Writes (components : List Field) (c : Field) (b : BTag) (k n : Str) : Prop :=
  b ∈ (extractBindingTags c.structFields).1 ∧ k = collisionSafeKey b c.name c.package ∧
  safeName (sameUntil ((groupOf components c.package).map (·.package))) (extractBindingTags c.structFields).2 b c = .ok n

theorem nameTags_spec {s : Nat} {u : Bool} {c : Field} {bs : List BTag} {t t' : List (Str × Str)}
    (h : nameTags s u c bs t = .ok t') :
    (∀ k n, mget t' k = some n →
      mget t k = some n ∨ ∃ b ∈ bs, k = collisionSafeKey b c.name c.package ∧ safeName s u b c = .ok n) ∧
    (∀ b ∈ bs, (mget t' (collisionSafeKey b c.name c.package)).isSome = true) ∧
    (∀ k, (mget t k).isSome = true → (mget t' k).isSome = true) := by
  induction bs generalizing t with
  | nil =>
    simp only [nameTags, Res.ok.injEq] at h
    subst h
    exact ⟨fun k n h => Or.inl h, by simp, fun k h => h⟩
  | cons b bs ih =>
    simp only [nameTags] at h
    cases hn : safeName s u b c with
    | ok n =>
      rw [hn] at h
      simp only at h
      obtain ⟨i1, i2, i3⟩ := ih h
      refine ⟨?_, ?_, ?_⟩
      · intro k n' hk
        rcases i1 k n' hk with h1 | ⟨b', hb', h1⟩
        · rw [mget_mset] at h1
          split at h1
          · rename_i e
            injection h1 with h1
            subst h1
            exact Or.inr ⟨b, by simp, e.symm, hn⟩
          · exact Or.inl h1
        · exact Or.inr ⟨b', by simp [hb'], h1⟩
      · intro b' hb'
        simp only [List.mem_cons] at hb'
        rcases hb' with rfl | hb'
        · apply i3
          rw [mget_mset_self]
          rfl
        · exact i2 b' hb'
      · intro k hk
        apply i3
        rw [mget_mset]
        split
        · rfl
        · exact hk
    | err e => rw [hn] at h; simp at h
    | panic e => rw [hn] at h; simp at h

theorem nameGroup_spec {s : Nat} {cs : List Field} {t t' : List (Str × Str)} (h : nameGroup s cs t = .ok t') :
    (∀ k n, mget t' k = some n → mget t k = some n ∨ ∃ c ∈ cs, ∃ b ∈ (extractBindingTags c.structFields).1,
      k = collisionSafeKey b c.name c.package ∧ safeName s (extractBindingTags c.structFields).2 b c = .ok n) ∧
    (∀ c ∈ cs, ∀ b ∈ (extractBindingTags c.structFields).1, (mget t' (collisionSafeKey b c.name c.package)).isSome = true) ∧
    (∀ k, (mget t k).isSome = true → (mget t' k).isSome = true) := by
  induction cs generalizing t with
  | nil =>
    simp only [nameGroup, Res.ok.injEq] at h
    subst h
    exact ⟨fun k n h => Or.inl h, by simp, fun k h => h⟩
  | cons c cs ih =>
    simp only [nameGroup] at h
    cases hn : nameTags s (extractBindingTags c.structFields).2 c (extractBindingTags c.structFields).1 t with
    | ok t1 =>
      rw [hn] at h
      simp only at h
      obtain ⟨i1, i2, i3⟩ := ih h
      obtain ⟨j1, j2, j3⟩ := nameTags_spec hn
      refine ⟨?_, ?_, fun k hk => i3 k (j3 k hk)⟩
      · intro k n' hk
        rcases i1 k n' hk with h1 | ⟨c', hc', h1⟩
        · rcases j1 k n' h1 with h2 | h2
          · exact Or.inl h2
          · exact Or.inr ⟨c, by simp, h2⟩
        · exact Or.inr ⟨c', by simp [hc'], h1⟩
      · intro c' hc' b' hb'
        simp only [List.mem_cons] at hc'
        rcases hc' with rfl | hc'
        · exact i3 _ (j2 b' hb')
        · exact i2 c' hc' b' hb'
    | err e => rw [hn] at h; simp at h
    | panic e => rw [hn] at h; simp at h

theorem nameGroups_spec {gs : List (Str × List Field)} {t t' : List (Str × Str)} (h : nameGroups gs t = .ok t') :
    (∀ k n, mget t' k = some n → mget t k = some n ∨ ∃ x ∈ gs, ∃ c ∈ x.2, ∃ b ∈ (extractBindingTags c.structFields).1,
      k = collisionSafeKey b c.name c.package ∧
      safeName (sameUntil (x.2.map (·.package))) (extractBindingTags c.structFields).2 b c = .ok n) ∧
    (∀ x ∈ gs, ∀ c ∈ x.2, ∀ b ∈ (extractBindingTags c.structFields).1,
      (mget t' (collisionSafeKey b c.name c.package)).isSome = true) ∧
    (∀ k, (mget t k).isSome = true → (mget t' k).isSome = true) := by
  induction gs generalizing t with
  | nil =>
    simp only [nameGroups, Res.ok.injEq] at h
    subst h
    exact ⟨fun k n h => Or.inl h, by simp, fun k h => h⟩
  | cons x gs ih =>
    obtain ⟨g, cs⟩ := x
    simp only [nameGroups] at h
    cases hn : nameGroup (sameUntil (cs.map (·.package))) cs t with
    | ok t1 =>
      rw [hn] at h
      simp only at h
      obtain ⟨i1, i2, i3⟩ := ih h
      obtain ⟨j1, j2, j3⟩ := nameGroup_spec hn
      refine ⟨?_, ?_, fun k hk => i3 k (j3 k hk)⟩
      · intro k n' hk
        rcases i1 k n' hk with h1 | ⟨y, hy, h1⟩
        · rcases j1 k n' h1 with h2 | h2
          · exact Or.inl h2
          · exact Or.inr ⟨(g, cs), by simp, h2⟩
        · exact Or.inr ⟨y, by simp [hy], h1⟩
      · intro y hy c' hc' b' hb'
        simp only [List.mem_cons] at hy
        rcases hy with rfl | hy
        · exact i3 _ (j2 c' hc' b' hb')
        · exact i2 y hy c' hc' b' hb'
    | err e => rw [hn] at h; simp at h
    | panic e => rw [hn] at h; simp at h

/-- Every entry of a fresh table was written for a component and one of its binding kinds, and all of those have one. -/
theorem makeNames_spec {order : List (Str × List Field) → List (Str × List Field)} (hord : ∀ l, (order l).Perm l)
    {components : List Field} {names : List (Str × Str)} (h : makeNames order components [] = .ok names) :
    (∀ k n, mget names k = some n → ∃ c ∈ components, ∃ b, Writes components c b k n) ∧
    (∀ c ∈ components, ∀ b ∈ (extractBindingTags c.structFields).1,
      (mget names (collisionSafeKey b c.name c.package)).isSome = true) := by
  obtain ⟨h1, h2, _⟩ := nameGroups_spec h
  obtain ⟨g1, g2⟩ := groupByPackage_spec components
  constructor
  · intro k n hk
    rcases h1 k n hk with h3 | ⟨x, hx, c, hc, b, hb, e, hs⟩
    · simp [mget] at h3
    · have hx' := (hord _).mem_iff.mp hx
      obtain ⟨k1, k2⟩ := g1 x hx' c hc
      refine ⟨c, k1, b, hb, e, ?_⟩
      rw [← k2]
      exact hs
  · intro c hc b hb
    obtain ⟨x, hx, hcx⟩ := g2 c hc
    exact h2 x ((hord _).mem_iff.mpr hx) c hcx b hb

theorem nameGroups_ok {gs : List (Str × List Field)} (t : List (Str × Str))
    (h : ∀ x ∈ gs, ∀ c ∈ x.2, sameUntil (x.2.map (·.package)) = 0 ∨
      sameUntil (x.2.map (·.package)) < (split '/' c.package).length) : ∃ t', nameGroups gs t = .ok t' := by
  have hsafe : ∀ s u b (c : Field), (s = 0 ∨ s < (split '/' c.package).length) → ∃ n, safeName s u b c = .ok n := by
    intro s u b c hs
    unfold safeName
    split
    · simp only
      rw [if_neg (by omega)]
      split
      · exact ⟨_, rfl⟩
      · exact ⟨_, rfl⟩
    · split
      · exact ⟨_, rfl⟩
      · exact ⟨_, rfl⟩
  have htags : ∀ s u (c : Field) bs t, (s = 0 ∨ s < (split '/' c.package).length) → ∃ t', nameTags s u c bs t = .ok t' := by
    intro s u c bs
    induction bs with
    | nil => intro t _; exact ⟨t, rfl⟩
    | cons b bs ih =>
      intro t hs
      obtain ⟨n, hn⟩ := hsafe s u b c hs
      simp only [nameTags, hn]
      exact ih _ hs
  have hgroup : ∀ s cs t, (∀ c ∈ cs, s = 0 ∨ s < (split '/' (c : Field).package).length) → ∃ t', nameGroup s cs t = .ok t' := by
    intro s cs
    induction cs with
    | nil => intro t _; exact ⟨t, rfl⟩
    | cons c cs ih =>
      intro t hs
      obtain ⟨t1, h1⟩ := htags s (extractBindingTags c.structFields).2 c (extractBindingTags c.structFields).1 t (hs c (by simp))
      simp only [nameGroup, h1]
      exact ih _ (fun c' hc' => hs c' (by simp [hc']))
  induction gs generalizing t with
  | nil => exact ⟨t, rfl⟩
  | cons x gs ih =>
    obtain ⟨g, cs⟩ := x
    obtain ⟨t1, h1⟩ := hgroup (sameUntil (cs.map (·.package))) cs t (h (g, cs) (by simp))
    simp only [nameGroups, h1]
    exact ih _ (fun y hy => h y (by simp [hy]))

/-! ### Reading a schema name -/

/-- The package part of the name of a component. -/
def pkgPart (s : Nat) (pkg : Str) : Str :=
  if s > 0 then join c!"." ((split '/' pkg).drop ((split '/' pkg).length - (s + 1))) else lastSegment pkg

theorem safeName_eq {s : Nat} {u : Bool} {b : BTag} {c : Field} {n : Str} (h : safeName s u b c = .ok n) :
    n = (if u then pkgPart s c.package ++ '.' :: b.toStr else pkgPart s c.package) ++ '.' :: c.name := by
  unfold safeName at h
  unfold pkgPart
  split at h
  · rename_i hs
    simp only at h
    rw [if_pos hs]
    split at h
    · simp at h
    · split at h
      · rename_i hu; injection h with h; subst h; simp [hu]
      · rename_i hu; injection h with h; subst h; simp [hu]
  · rename_i hs
    rw [if_neg hs]
    rw [getPackageName_eq] at h
    split at h
    · rename_i hu; injection h with h; subst h; simp [hu]
    · rename_i hu; injection h with h; subst h; simp [hu]

theorem safeName_long {s : Nat} {u : Bool} {b : BTag} {c : Field} {n : Str} (h : safeName s u b c = .ok n) (hs : 0 < s) :
    s < (split '/' c.package).length := by
  unfold safeName at h
  rw [if_pos hs] at h
  simp only at h
  split at h
  · simp at h
  · omega

/-- The package part is the last segment, possibly after some text that ends in a dot. -/
theorem pkgPart_ends (s : Nat) (pkg : Str) :
    pkgPart s pkg = lastSegment pkg ∨ ∃ y, pkgPart s pkg = y ++ '.' :: lastSegment pkg := by
  unfold pkgPart
  split
  · rename_i hs
    have hne := split_ne_nil '/' pkg
    have hd : ∃ ini, (split '/' pkg).drop ((split '/' pkg).length - (s + 1)) = ini ++ [lastSegment pkg] := by
      have hl : lastSegment pkg = (split '/' pkg).getLast hne := by
        unfold lastSegment segments
        rw [List.getLastD_eq_getLast?, List.getLast?_eq_some_getLast hne]
        rfl
      rw [hl]
      have hdne : (split '/' pkg).drop ((split '/' pkg).length - (s + 1)) ≠ [] := by
        have : 0 < (split '/' pkg).length := List.length_pos_iff.mpr hne
        rw [ne_eq, List.drop_eq_nil_iff]
        omega
      refine ⟨((split '/' pkg).drop ((split '/' pkg).length - (s + 1))).dropLast, ?_⟩
      rw [← List.dropLast_concat_getLast hdne]
      simp [List.getLast_drop]
    obtain ⟨ini, hi⟩ := hd
    rw [hi]
    by_cases h : ini = []
    · subst h; exact Or.inl rfl
    · right
      exact ⟨join c!"." ini, by rw [join_append_singleton _ _ _ h]; simp⟩
  · exact Or.inl rfl

/-- Package paths that differ at depth `s` have different package parts for that depth. -/
theorem pkgPart_inj {s : Nat} {p q : Str} (hs : 0 < s) (h : DifferAt s p q) : pkgPart s p ≠ pkgPart s q := by
  obtain ⟨h1, a, b, ha, hb, hne⟩ := h
  unfold segments at h1 ha hb
  have key : ∀ (l : List Str) (x : Str), l.reverse[s]? = some x →
      l.drop (l.length - (s + 1)) = x :: (l.reverse.take s).reverse := by
    intro l x hx
    have : l.drop (l.length - (s + 1)) = (l.reverse.take (s + 1)).reverse := by
      rw [List.take_reverse, List.reverse_reverse]
    rw [this, List.take_add_one, hx]
    simp
  unfold pkgPart
  rw [if_pos hs, if_pos hs, key _ a ha, key _ b hb]
  intro e
  rw [h1] at e
  have hc : ((split '/' q).reverse.take s).reverse ≠ [] := by
    intro e'
    have : ((split '/' q).reverse.take s).length = 0 := by
      rw [← List.length_reverse, e']; rfl
    rw [List.length_take] at this
    have h0 : 0 < (split '/' q).reverse.length := by
      rw [List.length_reverse]; exact List.length_pos_iff.mpr (split_ne_nil '/' q)
    omega
  rw [join_cons hc, join_cons hc] at e
  apply hne
  have := List.append_cancel_right e
  exact List.append_cancel_right this

end Astra
