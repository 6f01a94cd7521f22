import Verif.Basic

namespace Astra

/-! ### order on strings -/

theorem strLt_irrefl (a : Str) : strLt a a = false := by
  induction a with
  | nil => rfl
  | cons c cs ih => simp [strLt, ih]

theorem strLt_trans {a b c : Str} (h1 : strLt a b = true) (h2 : strLt b c = true) : strLt a c = true := by
  induction a generalizing b c with
  | nil =>
    cases b with
    | nil => simp [strLt] at h1
    | cons _ _ => cases c with
      | nil => simp [strLt] at h2
      | cons _ _ => rfl
  | cons x xs ih =>
    cases b with
    | nil => simp [strLt] at h1
    | cons y ys => cases c with
      | nil => simp [strLt] at h2
      | cons z zs =>
        simp only [strLt] at h1 h2 ⊢
        split at h1
        · rename_i hxy
          split at h2
          · rename_i hyz
            rw [if_pos (UInt32.lt_trans hxy hyz)]
          · split at h2
            · rename_i e; subst e; rw [if_pos hxy]
            · simp at h2
        · split at h1
          · rename_i hxy e; subst e
            split at h2
            · rename_i hyz; rw [if_pos hyz]
            · rename_i hyz
              split at h2
              · rename_i e; subst e; rw [if_neg hyz, if_pos rfl]; exact ih h1 h2
              · simp at h2
          · simp at h1

theorem strLt_total (a b : Str) : strLt a b = true ∨ a = b ∨ strLt b a = true := by
  induction a generalizing b with
  | nil => cases b with
    | nil => simp
    | cons _ _ => simp [strLt]
  | cons x xs ih => cases b with
    | nil => simp [strLt]
    | cons y ys =>
      simp only [strLt]
      by_cases h : x.val < y.val
      · simp [h]
      · by_cases h2 : y.val < x.val
        · simp [h2]
        · have e : x = y := by
            apply Char.ext
            rw [UInt32.lt_iff_toNat_lt] at h h2
            apply UInt32.toNat_inj.mp; omega
          subst e
          simp only [h, if_false, if_true, List.cons.injEq, true_and]
          exact ih ys

theorem strLt_asymm {a b : Str} (h : strLt a b = true) : strLt b a = false := by
  cases hb : strLt b a with
  | false => rfl
  | true => have := strLt_trans h hb; rw [strLt_irrefl] at this; cases this

theorem strLt_ne {a b : Str} (h : strLt a b = true) : a ≠ b := by
  intro e; subst e; rw [strLt_irrefl] at h; cases h

/-! ### canonical maps -/

theorem mget_mset {V : Type} (m : List (Str × V)) (k k' : Str) (v : V) :
    mget (mset m k v) k' = if k = k' then some v else mget m k' := by
  induction m with
  | nil => simp [mset, mget]
  | cons p m ih =>
    obtain ⟨a, b⟩ := p
    simp only [mset]
    split
    · rename_i e; subst e
      simp only [mget]; split <;> rfl
    · rename_i hne
      split
      · simp only [mget]
      · simp only [mget, ih]
        by_cases h : a = k'
        · subst h; simp [Ne.symm hne]
        · simp [h]

theorem mget_mset_self {V : Type} (m : List (Str × V)) (k : Str) (v : V) : mget (mset m k v) k = some v := by
  simp [mget_mset]

theorem mget_mset_ne {V : Type} (m : List (Str × V)) {k k' : Str} (v : V) (h : k ≠ k') :
    mget (mset m k v) k' = mget m k' := by
  simp [mget_mset, h]

/-- A map in canonical form: keys strictly increasing. -/
def MSorted {V : Type} : List (Str × V) → Prop
  | [] => True
  | p :: m => (∀ q ∈ m, strLt p.1 q.1 = true) ∧ MSorted m

theorem mem_mset {V : Type} {m : List (Str × V)} {k : Str} {v : V} {q : Str × V} (h : q ∈ mset m k v) :
    q = (k, v) ∨ q ∈ m := by
  induction m with
  | nil => simp [mset] at h; exact Or.inl h
  | cons p m ih =>
    obtain ⟨a, b⟩ := p
    simp only [mset] at h
    split at h
    · simp at h; rcases h with h | h
      · exact Or.inl h
      · exact Or.inr (by simp [h])
    · split at h
      · simp at h; rcases h with h | h | h
        · exact Or.inl h
        · exact Or.inr (by simp [h])
        · exact Or.inr (by simp [h])
      · simp at h; rcases h with h | h
        · exact Or.inr (by simp [h])
        · rcases ih h with h | h
          · exact Or.inl h
          · exact Or.inr (by simp [h])

theorem MSorted_mset {V : Type} {m : List (Str × V)} (h : MSorted m) (k : Str) (v : V) : MSorted (mset m k v) := by
  induction m with
  | nil => simp [mset, MSorted]
  | cons p m ih =>
    obtain ⟨a, b⟩ := p
    obtain ⟨h1, h2⟩ := h
    simp only [mset]
    split
    · rename_i e; subst e; exact ⟨h1, h2⟩
    · rename_i hne
      split
      · rename_i hlt
        refine ⟨?_, h1, h2⟩
        intro q hq
        simp at hq
        rcases hq with hq | hq
        · subst hq; exact hlt
        · exact strLt_trans hlt (h1 q hq)
      · rename_i hlt
        refine ⟨?_, ih h2⟩
        intro q hq
        rcases mem_mset hq with e | hq
        · subst e
          rcases strLt_total a k with h | h | h
          · exact h
          · exact absurd h hne
          · simp [h] at hlt
        · exact h1 q hq

theorem mget_eq_none_of_lt {V : Type} {m : List (Str × V)} {k : Str} (h : ∀ q ∈ m, strLt k q.1 = true) :
    mget m k = none := by
  induction m with
  | nil => rfl
  | cons p m ih =>
    obtain ⟨a, b⟩ := p
    have h1 := h (a, b) (by simp)
    simp only [mget]
    rw [if_neg (fun e => strLt_ne h1 e.symm)]
    exact ih (fun q hq => h q (by simp [hq]))

/-- Two canonical maps with the same lookups are equal. -/
theorem MSorted_ext {V : Type} {m m' : List (Str × V)} (h : MSorted m) (h' : MSorted m')
    (he : ∀ k, mget m k = mget m' k) : m = m' := by
  induction m generalizing m' with
  | nil =>
    cases m' with
    | nil => rfl
    | cons p m' => have := he p.1; simp [mget] at this
  | cons p m ih =>
    cases m' with
    | nil => have := he p.1; simp [mget] at this
    | cons p' m' =>
      obtain ⟨a, b⟩ := p
      obtain ⟨a', b'⟩ := p'
      have ea : a = a' := by
        rcases strLt_total a a' with hlt | e | hlt
        · have h1 := he a
          have : mget ((a', b') :: m') a = none := by
            apply mget_eq_none_of_lt
            intro q hq
            simp at hq
            rcases hq with hq | hq
            · subst hq; exact hlt
            · exact strLt_trans hlt (h'.1 q hq)
          rw [this] at h1; simp [mget] at h1
        · exact e
        · have h1 := he a'
          have : mget ((a, b) :: m) a' = none := by
            apply mget_eq_none_of_lt
            intro q hq
            simp at hq
            rcases hq with hq | hq
            · subst hq; exact hlt
            · exact strLt_trans hlt (h.1 q hq)
          rw [this] at h1; simp [mget] at h1
      subst ea
      have eb : b = b' := by
        have := he a; simp [mget] at this; exact this
      subst eb
      congr 1
      apply ih h.2 h'.2
      intro k
      by_cases hk : a = k
      · subst hk
        rw [mget_eq_none_of_lt h.1, mget_eq_none_of_lt h'.1]
      · have := he k; simpa [mget, hk] using this

theorem mset_comm {V : Type} {m : List (Str × V)} (h : MSorted m) {k k' : Str} (v v' : V) (hne : k ≠ k') :
    mset (mset m k v) k' v' = mset (mset m k' v') k v := by
  apply MSorted_ext (MSorted_mset (MSorted_mset h _ _) _ _) (MSorted_mset (MSorted_mset h _ _) _ _)
  intro q
  simp only [mget_mset]
  by_cases h1 : k' = q
  · subst h1; simp [hne]
  · simp [h1]

theorem mget_some_mem {V : Type} {m : List (Str × V)} {k : Str} {v : V} (h : mget m k = some v) : (k, v) ∈ m := by
  induction m with
  | nil => simp [mget] at h
  | cons p m ih =>
    obtain ⟨a, b⟩ := p
    simp only [mget] at h
    split at h
    · rename_i e; subst e; simp at h; subst h; simp
    · exact List.mem_cons_of_mem _ (ih h)

theorem mget_isSome_iff {V : Type} {m : List (Str × V)} {k : Str} : (mget m k).isSome ↔ k ∈ mkeys m := by
  induction m with
  | nil => simp [mget, mkeys]
  | cons p m ih =>
    obtain ⟨a, b⟩ := p
    simp only [mget, mkeys, List.map_cons, List.mem_cons]
    split
    · rename_i e; subst e; simp
    · rename_i hne
      simp only [mkeys] at ih
      rw [ih]
      constructor
      · exact Or.inr
      · rintro (h | h)
        · exact absurd h.symm hne
        · exact h

theorem MSorted.mget_of_mem {V : Type} {m : List (Str × V)} (h : MSorted m) {k : Str} {v : V} (hm : (k, v) ∈ m) :
    mget m k = some v := by
  induction m with
  | nil => simp at hm
  | cons p m ih =>
    obtain ⟨a, b⟩ := p
    simp at hm
    rcases hm with ⟨e1, e2⟩ | hm
    · subst e1; subst e2; simp [mget]
    · have := h.1 _ hm
      simp only [mget]
      rw [if_neg (strLt_ne this)]
      exact ih h.2 hm

/-! ### split and join -/

theorem split_ne_nil (sep : Char) (s : Str) : split sep s ≠ [] := by
  cases s with
  | nil => simp [split]
  | cons c cs =>
    simp only [split]
    split
    · simp
    · split <;> simp

theorem split_cons_sep (sep : Char) (cs : Str) : split sep (sep :: cs) = [] :: split sep cs := by
  simp [split]

theorem join_cons {sep x : Str} {r : List Str} (h : r ≠ []) : join sep (x :: r) = x ++ sep ++ join sep r := by
  cases r with
  | nil => exact absurd rfl h
  | cons y r => rfl

theorem join_split (sep : Char) (s : Str) : join [sep] (split sep s) = s := by
  induction s with
  | nil => rfl
  | cons c cs ih =>
    simp only [split]
    split
    · rename_i e; subst e
      rw [join_cons (split_ne_nil _ _), ih]; rfl
    · cases h : split sep cs with
      | nil => exact absurd h (split_ne_nil _ _)
      | cons x t =>
        rw [h] at ih
        cases t with
        | nil => simp [join] at ih ⊢; exact ih
        | cons y t => simp [join] at ih ⊢; exact ih

theorem split_no_sep {sep : Char} {s : Str} (x : Str) (hx : x ∈ split sep s) : sep ∉ x := by
  induction s generalizing x with
  | nil => simp [split] at hx; subst hx; simp
  | cons c cs ih =>
    simp only [split] at hx
    split at hx
    · simp at hx
      rcases hx with hx | hx
      · subst hx; simp
      · exact ih x hx
    · rename_i hne
      cases h : split sep cs with
      | nil => exact absurd h (split_ne_nil _ _)
      | cons y t =>
        rw [h] at hx ih
        simp at hx
        rcases hx with hx | hx
        · subst hx
          simp only [List.mem_cons, not_or]
          exact ⟨fun e => hne e.symm, ih y (by simp)⟩
        · exact ih x (by simp [hx])

theorem split_eq_singleton {sep : Char} {s : Str} (h : sep ∉ s) : split sep s = [s] := by
  induction s with
  | nil => rfl
  | cons c cs ih =>
    simp at h
    simp only [split]
    rw [if_neg (fun e => h.1 e.symm), ih h.2]

theorem split_append_sep {sep : Char} {a : Str} (h : sep ∉ a) (b : Str) :
    split sep (a ++ sep :: b) = a :: split sep b := by
  induction a with
  | nil => simp [split]
  | cons c cs ih =>
    simp at h
    simp only [List.cons_append, split]
    rw [if_neg (fun e => h.1 e.symm), ih h.2]

theorem split_join {sep : Char} {l : List Str} (hne : l ≠ []) (h : ∀ x ∈ l, sep ∉ x) :
    split sep (join [sep] l) = l := by
  induction l with
  | nil => exact absurd rfl hne
  | cons x r ih =>
    cases r with
    | nil => simpa [join] using split_eq_singleton (h x (by simp))
    | cons y r =>
      rw [join_cons (by simp)]
      simp only [List.append_assoc, List.singleton_append]
      rw [split_append_sep (h x (by simp)), ih (by simp) (fun z hz => h z (by simp [hz]))]

theorem split_inj {sep : Char} {s t : Str} (h : split sep s = split sep t) : s = t := by
  rw [← join_split sep s, h, join_split]

/-! ### prefixes -/

theorem hasPrefix_iff {s p : Str} : hasPrefix s p = true ↔ p <+: s := by
  induction s generalizing p with
  | nil => cases p with
    | nil => simp [hasPrefix]
    | cons a p => simp [hasPrefix]
  | cons c cs ih => cases p with
    | nil => simp [hasPrefix]
    | cons a p =>
      simp only [hasPrefix, Bool.and_eq_true, decide_eq_true_eq, ih, List.cons_prefix_cons]
      constructor
      · rintro ⟨h, h'⟩; exact ⟨h.symm, h'⟩
      · rintro ⟨h, h'⟩; exact ⟨h.symm, h'⟩

theorem hasSuffix_iff {s p : Str} : hasSuffix s p = true ↔ p <:+ s := by
  rw [hasSuffix, hasPrefix_iff, List.reverse_prefix]

theorem contains_iff {s p : Str} : contains s p = true ↔ p <:+: s := by
  induction s with
  | nil => simp [contains]
  | cons c cs ih =>
    simp only [contains, Bool.or_eq_true, hasPrefix_iff, ih, List.infix_cons_iff]

theorem replaceFirst_of_not_contains {s old new : Str} (h : contains s old = false) :
    replaceFirst s old new = s := by
  induction s with
  | nil => simp [contains] at h; simp [replaceFirst, h]
  | cons c cs ih =>
    simp only [contains, Bool.or_eq_false_iff] at h
    simp [replaceFirst, h.1, ih h.2]

theorem elemB_iff {α : Type} [DecidableEq α] {l : List α} {a : α} : elemB l a = true ↔ a ∈ l := by
  simp [elemB]

/-! ### numbers -/

theorem digit_toNat {n : Nat} : (digit n).toNat = 48 + n % 10 := by
  have h : n % 10 < 10 := Nat.mod_lt _ (by omega)
  unfold digit
  generalize n % 10 = k at h
  have : ∀ k, k < 10 → (Char.ofNat (48 + k)).toNat = 48 + k := by decide
  exact this k h

theorem digitVal_digit (n : Nat) : digitVal (digit n) = some (n % 10) := by
  have h : n % 10 < 10 := Nat.mod_lt _ (by omega)
  simp only [digitVal, digit_toNat]
  rw [if_pos (by omega)]
  congr 1; omega

theorem parseDigits_append (acc : Nat) (s t : Str) :
    parseDigits acc (s ++ t) = (parseDigits acc s).bind (fun a => parseDigits a t) := by
  induction s generalizing acc with
  | nil => rfl
  | cons c cs ih =>
    simp only [List.cons_append, parseDigits]
    cases digitVal c with
    | none => rfl
    | some d => exact ih _

theorem parseDigits_natDigits (fuel n : Nat) (h : n < fuel) : parseDigits 0 (natDigits fuel n) = some n := by
  induction fuel generalizing n with
  | zero => omega
  | succ fuel ih =>
    simp only [natDigits]
    split
    · rename_i h10
      simp [parseDigits, digitVal_digit]
      omega
    · rename_i h10
      rw [parseDigits_append, ih (n / 10) (by omega)]
      simp [parseDigits, digitVal_digit]
      omega

theorem natDigits_ne_nil (fuel n : Nat) : natDigits (fuel + 1) n ≠ [] := by
  simp only [natDigits]; split <;> simp

theorem parseNat_natToStr (n : Nat) : parseNat (natToStr n) = some n := by
  have h1 : natToStr n ≠ [] := natDigits_ne_nil _ _
  have h2 := parseDigits_natDigits (n + 1) n (by omega)
  change parseDigits 0 (natToStr n) = some n at h2
  cases h : natToStr n with
  | nil => exact absurd h h1
  | cons c cs => rw [h] at h2; exact h2

theorem natDigits_digits (fuel n : Nat) : ∀ c ∈ natDigits fuel n, 48 ≤ c.toNat ∧ c.toNat ≤ 57 := by
  induction fuel generalizing n with
  | zero => simp [natDigits]
  | succ fuel ih =>
    have hd : 48 ≤ (digit n).toNat ∧ (digit n).toNat ≤ 57 := by
      rw [digit_toNat]
      have h : n % 10 < 10 := Nat.mod_lt _ (by omega)
      omega
    intro c hc
    simp only [natDigits] at hc
    split at hc
    · simp at hc; subst hc; exact hd
    · simp at hc; rcases hc with hc | hc
      · exact ih _ c hc
      · subst hc; exact hd

theorem natToStr_inj {m n : Nat} (h : natToStr m = natToStr n) : m = n := by
  have h1 := parseNat_natToStr m
  rw [h, parseNat_natToStr] at h1
  exact (Option.some.inj h1).symm

theorem itoa_inj {a b : Int} (h : itoa a = itoa b) : a = b := by
  have key : ∀ m n : Nat, natToStr m ≠ '-' :: natToStr n := by
    intro m n e
    have := natDigits_digits (m + 1) m '-' (by change _ ∈ natToStr m; rw [e]; simp)
    simp at this
  cases a with
  | ofNat m => cases b with
    | ofNat n => simp only [itoa] at h; rw [natToStr_inj h]
    | negSucc n => exact absurd h (key _ _)
  | negSucc m => cases b with
    | ofNat n => exact absurd h.symm (key _ _)
    | negSucc n =>
      simp only [itoa, List.cons.injEq, true_and] at h
      have := natToStr_inj h
      congr 1; omega

/-! ### association lists with runtime-chosen order -/

theorem aget_aset {K V : Type} [DecidableEq K] (m : List (K × V)) (k k' : K) (v : V) :
    aget (aset m k v) k' = if k = k' then some v else aget m k' := by
  induction m with
  | nil => simp [aset, aget]
  | cons p m ih =>
    obtain ⟨a, b⟩ := p
    simp only [aset]
    split
    · rename_i e; subst e
      simp only [aget]; split <;> rfl
    · rename_i hne
      simp only [aget, ih]
      by_cases h : a = k'
      · subst h; simp [Ne.symm hne]
      · simp [h]

theorem aget_some_mem {K V : Type} [DecidableEq K] {m : List (K × V)} {k : K} {v : V} (h : aget m k = some v) :
    (k, v) ∈ m := by
  induction m with
  | nil => simp [aget] at h
  | cons p m ih =>
    obtain ⟨a, b⟩ := p
    simp only [aget] at h
    split at h
    · rename_i e; subst e; simp at h; subst h; simp
    · exact List.mem_cons_of_mem _ (ih h)

theorem aget_of_mem_nodup {K V : Type} [DecidableEq K] {m : List (K × V)} (hn : (m.map (·.1)).Nodup) {k : K} {v : V}
    (h : (k, v) ∈ m) : aget m k = some v := by
  induction m with
  | nil => simp at h
  | cons p m ih =>
    obtain ⟨a, b⟩ := p
    simp only [List.map_cons, List.nodup_cons] at hn
    simp at h
    rcases h with ⟨e1, e2⟩ | h
    · subst e1; subst e2; simp [aget]
    · have hk : k ∈ m.map (·.1) := List.mem_map.mpr ⟨_, h, rfl⟩
      simp only [aget]
      rw [if_neg (fun e => hn.1 (by rw [e]; exact hk))]
      exact ih hn.2 h

theorem aget_none_iff {K V : Type} [DecidableEq K] {m : List (K × V)} {k : K} :
    aget m k = none ↔ k ∉ m.map (·.1) := by
  induction m with
  | nil => simp [aget]
  | cons p m ih =>
    obtain ⟨a, b⟩ := p
    simp only [aget, List.map_cons, List.mem_cons, not_or]
    split
    · rename_i e; subst e; simp
    · rename_i hne
      rw [ih]
      exact ⟨fun h => ⟨fun e => hne e.symm, h⟩, fun h => h.2⟩

/-- Lookup does not depend on the order of entries with distinct keys. -/
theorem aget_perm {K V : Type} [DecidableEq K] {m m' : List (K × V)} (hp : m.Perm m') (hn : (m.map (·.1)).Nodup)
    (k : K) : aget m k = aget m' k := by
  have hn' : (m'.map (·.1)).Nodup := (hp.map _).nodup_iff.mp hn
  cases h : aget m k with
  | none =>
    have := aget_none_iff.mp h
    rw [eq_comm, aget_none_iff]
    intro hk; exact this ((hp.map _).mem_iff.mpr hk)
  | some v =>
    exact (aget_of_mem_nodup hn' (hp.mem_iff.mp (aget_some_mem h))).symm

theorem MSorted_nil {V : Type} : MSorted ([] : List (Str × V)) := trivial

theorem MSorted.nodup {V : Type} {m : List (Str × V)} (h : MSorted m) : (m.map (·.1)).Nodup := by
  induction m with
  | nil => simp
  | cons p m ih =>
    simp only [MSorted] at h
    simp only [List.map_cons, List.nodup_cons]
    refine ⟨?_, ih h.2⟩
    intro hm
    obtain ⟨q, hq, he⟩ := List.mem_map.mp hm
    exact strLt_ne (h.1 q hq) he.symm

theorem mget_eq_aget {V : Type} (m : List (Str × V)) (k : Str) : mget m k = aget m k := by
  induction m with
  | nil => rfl
  | cons p m ih => obtain ⟨k', v⟩ := p; simp only [mget, aget, ih]

theorem aget_eq_find {K V : Type} [DecidableEq K] (m : List (K × V)) (k : K) :
    aget m k = (m.find? (fun e => decide (e.1 = k))).map (·.2) := by
  induction m with
  | nil => rfl
  | cons p m ih =>
    obtain ⟨k', v⟩ := p
    simp only [aget, List.find?_cons]
    by_cases h : k' = k <;> simp [h, ih]

theorem find_reverse_of_nodup {K V : Type} [DecidableEq K] {m : List (K × V)} (h : (m.map (·.1)).Nodup) (k : K) :
    (m.reverse.find? (fun e => decide (e.1 = k))).map (·.2) = (m.find? (fun e => decide (e.1 = k))).map (·.2) := by
  rw [← aget_eq_find, ← aget_eq_find]
  exact (aget_perm (List.reverse_perm m).symm h k).symm

end Astra
