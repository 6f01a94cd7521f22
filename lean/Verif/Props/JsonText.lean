/-
C92: what is written as JSON is JSON, and what is read as JSON is JSON, by the grammar of RFC 8259.
-/
import Verif.Lemmas.Json
import Verif.Spec.JsonText

namespace Astra.Props
open Spec

/-! ### White space -/

theorem isWs_iff (c : Char) : isWs c = true ↔ c = ' ' ∨ c = '\t' ∨ c = '\n' ∨ c = '\r' := by
  simp only [isWs, Bool.or_eq_true, decide_eq_true_eq]
  constructor
  · rintro (((h | h) | h) | h) <;> simp [h]
  · rintro (h | h | h | h) <;> simp [h]

theorem skipWs_white {w : Str} (hw : White w) (s : Str) : skipWs (w ++ s) = skipWs s := by
  induction w with
  | nil => rfl
  | cons c w ih =>
    simp only [List.cons_append, skipWs, (isWs_iff c).2 (hw c (by simp)), if_true]
    exact ih (fun x hx => hw x (by simp [hx]))

theorem skipWs_split (s : Str) : ∃ w, White w ∧ s = w ++ skipWs s := by
  induction s with
  | nil => exact ⟨[], by intro c hc; simp at hc, rfl⟩
  | cons c cs ih =>
    cases h : isWs c with
    | false => exact ⟨[], by intro c hc; simp at hc, by simp [skipWs, h]⟩
    | true =>
      obtain ⟨w, hw, he⟩ := ih
      refine ⟨c :: w, ?_, ?_⟩
      · intro x hx
        rcases List.mem_cons.1 hx with rfl | hx
        · exact (isWs_iff _).1 h
        · exact hw x hx
      · simp only [skipWs, h, if_true, List.cons_append]
        rw [← he]

theorem white_nil : White [] := by intro c hc; simp at hc

theorem white_newline (ind : Bool) (d : Nat) : White (newline ind d) := by
  intro c hc
  cases ind with
  | false => simp [newline] at hc
  | true =>
    simp only [newline, if_true, List.mem_cons, List.mem_replicate] at hc
    rcases hc with h | h
    · simp [h]
    · simp [h.2]

/-! ### Strings -/

theorem hexVal_iff (c : Char) (n : Nat) : hexVal c = some n ↔ Hex c n := by
  have le : ∀ a b : Char, a ≤ b ↔ a.toNat ≤ b.toNat := fun a b => Iff.rfl
  constructor
  · intro h
    unfold hexVal at h
    split at h
    · rename_i hc
      cases h
      exact .digit ((le _ _).2 hc.1) ((le _ _).2 hc.2)
    split at h
    · rename_i hc
      cases h
      have : c.toNat - 87 = 10 + (c.toNat - 'a'.toNat) := by
        have : 'a'.toNat = 97 := rfl
        omega
      rw [this]
      exact .lower ((le _ _).2 hc.1) ((le _ _).2 hc.2)
    split at h
    · rename_i hc
      cases h
      have : c.toNat - 55 = 10 + (c.toNat - 'A'.toNat) := by
        have : 'A'.toNat = 65 := rfl
        omega
      rw [this]
      exact .upper ((le _ _).2 hc.1) ((le _ _).2 hc.2)
    · cases h
  · intro h
    have e0 : '0'.toNat = 48 := rfl
    have e9 : '9'.toNat = 57 := rfl
    have ea : 'a'.toNat = 97 := rfl
    have ef : 'f'.toNat = 102 := rfl
    have eA : 'A'.toNat = 65 := rfl
    have eF : 'F'.toNat = 70 := rfl
    cases h with
    | digit h1 h2 =>
      rw [le] at h1 h2
      have : 48 ≤ c.toNat ∧ c.toNat ≤ 57 := by omega
      simp only [hexVal, this, and_self, if_true, e0]
    | lower h1 h2 =>
      rw [le] at h1 h2
      have h3 : ¬ (48 ≤ c.toNat ∧ c.toNat ≤ 57) := by omega
      have h4 : 97 ≤ c.toNat ∧ c.toNat ≤ 102 := by omega
      simp only [hexVal, h3, h4, if_false, and_self, if_true, ea, Option.some.injEq]
      omega
    | upper h1 h2 =>
      rw [le] at h1 h2
      have h3 : ¬ (48 ≤ c.toNat ∧ c.toNat ≤ 57) := by omega
      have h4 : ¬ (97 ≤ c.toNat ∧ c.toNat ≤ 102) := by omega
      have h5 : 65 ≤ c.toNat ∧ c.toNat ≤ 70 := by omega
      simp only [hexVal, h3, h4, h5, if_false, and_self, if_true, eA, Option.some.injEq]
      omega

theorem simpleEscape_iff (e c : Char) : simpleEscape e = some c ↔ (e, c) ∈ shortEscapes := by
  simp only [shortEscapes, List.mem_cons, Prod.mk.injEq, List.not_mem_nil, or_false]
  constructor
  · intro h
    unfold simpleEscape at h
    repeat' split at h
    all_goals (first | (cases h; done) | skip)
    all_goals (rename_i he; subst he; cases h; decide)
  · rintro (h | h | h | h | h | h | h | h) <;> (obtain ⟨rfl, rfl⟩ := h; rfl)

theorem uCode_iff {a b c d : Char} {n : Nat} : uCode a b c d = some n ↔ CodeText ['\\', 'u', a, b, c, d] n := by
  constructor
  · intro h
    unfold uCode at h
    split at h
    · rename_i i j k l h1 h2 h3 h4
      rw [hexVal_iff] at h1 h2 h3 h4
      cases h
      exact ⟨_, _, _, _, _, _, _, _, rfl, h1, h2, h3, h4, by omega⟩
    · cases h
  · rintro ⟨a', b', c', d', i, j, k, l, he, h1, h2, h3, h4, rfl⟩
    cases he
    simp only [uCode, (hexVal_iff _ _).2 h1, (hexVal_iff _ _).2 h2, (hexVal_iff _ _).2 h3, (hexVal_iff _ _).2 h4, Option.some.injEq]
    omega

/-- The text of the units of a string. -/
inductive UnitsText : Str → List JUnit → Prop
  | close : UnitsText ['"'] []
  | plain {c t us} : 0x20 ≤ c.toNat → c ≠ '"' → c ≠ '\\' → UnitsText t us → UnitsText (c :: t) (.char c :: us)
  | short {e c t us} : (e, c) ∈ shortEscapes → UnitsText t us → UnitsText ('\\' :: e :: t) (.char c :: us)
  | code {u n t us} : CodeText u n → UnitsText t us → UnitsText (u ++ t) (.code n :: us)

theorem codeText_append {u u' t t' : Str} {n m : Nat} (h : CodeText u n) (h' : CodeText u' m) (he : u ++ t = u' ++ t') :
    n = m ∧ t = t' := by
  obtain ⟨a, b, c, d, i, j, k, l, rfl, h1, h2, h3, h4, rfl⟩ := h
  obtain ⟨a', b', c', d', i', j', k', l', rfl, h1', h2', h3', h4', rfl⟩ := h'
  simp only [List.cons_append, List.nil_append, List.cons.injEq, true_and] at he
  obtain ⟨rfl, rfl, rfl, rfl, rfl⟩ := he
  rw [← hexVal_iff] at h1 h2 h3 h4 h1' h2' h3' h4'
  rw [h1] at h1'; rw [h2] at h2'; rw [h3] at h3'; rw [h4] at h4'
  cases h1'; cases h2'; cases h3'; cases h4'
  exact ⟨rfl, rfl⟩

/-- A text of units that begins with a numbered escape begins with its number. -/
theorem unitsText_code {t u t' : Str} {us : List JUnit} {m : Nat} (h : UnitsText t us) (hu : CodeText u m) (he : t = u ++ t') :
    ∃ us', us = .code m :: us' ∧ UnitsText t' us' := by
  cases h with
  | close =>
    obtain ⟨a, b, c, d, i, j, k, l, rfl, -⟩ := hu
    simp at he
  | plain _ _ h3 _ =>
    obtain ⟨a, b, c, d, i, j, k, l, rfl, -⟩ := hu
    simp only [List.cons_append, List.cons.injEq] at he
    exact absurd he.1 h3
  | short h1 _ =>
    obtain ⟨a, b, c, d, i, j, k, l, rfl, -⟩ := hu
    simp only [List.cons_append, List.cons.injEq, true_and] at he
    rw [he.1] at h1
    revert h1
    simp [shortEscapes]
  | code h1 h2 =>
    obtain ⟨rfl, rfl⟩ := codeText_append h1 hu he
    exact ⟨_, rfl, h2⟩

theorem parseUnits_sound : ∀ (s : Str) {us : List JUnit} {r : Str}, parseUnits s = some (us, r) → ∃ t, s = t ++ r ∧ UnitsText t us := by
  intro s
  induction s using parseUnits.induct with
  | case1 => intro v r h; simp [parseUnits] at h
  | case2 cs =>
    intro v r h
    simp only [parseUnits, Option.some.injEq, Prod.mk.injEq] at h
    obtain ⟨rfl, rfl⟩ := h
    exact ⟨['"'], rfl, .close⟩
  | case3 a b c d cs hu => intro v r h; simp [parseUnits, hu] at h
  | case4 a b c d cs x hu ih =>
    intro v r h
    simp only [parseUnits, hu, Option.map_eq_some_iff, Prod.mk.injEq] at h
    obtain ⟨⟨v', r'⟩, h1, rfl, rfl⟩ := h
    obtain ⟨t, rfl, ht⟩ := ih h1
    exact ⟨['\\', 'u', a, b, c, d] ++ t, by simp, .code (uCode_iff.1 hu) ht⟩
  | case5 e cs hne hu =>
    intro v r h
    rw [parseUnits] at h
    · simp [hu] at h
    · exact hne
  | case6 e cs hne x hu ih =>
    intro v r h
    rw [parseUnits] at h
    · simp only [hu, Option.map_eq_some_iff, Prod.mk.injEq] at h
      obtain ⟨⟨v', r'⟩, h1, rfl, rfl⟩ := h
      obtain ⟨t, rfl, ht⟩ := ih h1
      exact ⟨_, by simp, .short ((simpleEscape_iff _ _).1 hu) ht⟩
    · exact hne
  | case7 c cs h1 h2 h3 hc =>
    intro v r h
    rw [parseUnits] at h
    · simp only [hc, if_true] at h; cases h
    · exact h1
    · exact h2
    · exact h3
  | case8 c cs h1 h2 h3 hc ih =>
    intro v r h
    rw [parseUnits] at h
    · simp only [hc, if_false, Option.map_eq_some_iff, Prod.mk.injEq] at h
      obtain ⟨⟨v', r'⟩, h4, rfl, rfl⟩ := h
      obtain ⟨t, rfl, ht⟩ := ih h4
      rw [not_or] at hc
      exact ⟨_, by simp, .plain (by omega) h1 hc.1 ht⟩
    · exact h1
    · exact h2
    · exact h3

theorem parseUnits_complete {t : Str} {us : List JUnit} (h : UnitsText t us) (r : Str) : parseUnits (t ++ r) = some (us, r) := by
  induction h with
  | close => simp [parseUnits]
  | @plain c t s h1 h2 h3 _ ih =>
    rw [List.cons_append, parseUnits]
    · have : ¬ (c = '\\' ∨ c.toNat < 0x20) := by rw [not_or]; exact ⟨h3, by omega⟩
      simp only [this, if_false, ih, Option.map_some]
    · exact h2
    · intro _ _ _ _ _ h _; exact h3 h
    · intro _ _ h _; exact h3 h
  | @short e c t s he _ ih =>
    have hu : e ≠ 'u' := by
      rintro rfl
      revert he
      simp [shortEscapes]
    rw [List.cons_append, List.cons_append, parseUnits]
    · simp only [(simpleEscape_iff _ _).2 he, ih, Option.map_some]
    · intro _ _ _ _ _ h _; exact hu h
  | @code u n t us hu _ ih =>
    have hu' := hu
    obtain ⟨a, b, c, d, i, j, k, l, rfl, -⟩ := hu
    simp only [List.cons_append, List.nil_append, parseUnits, uCode_iff.2 hu', ih, Option.map_some]

theorem joinUnits_text : ∀ (n : Nat) (us : List JUnit), us.length ≤ n → ∀ t, UnitsText t us → StringText t (joinUnits us) := by
  intro n
  induction n with
  | zero =>
    intro us hl t h
    cases us with
    | nil => cases h; exact .close
    | cons _ _ => simp at hl
  | succ n ih =>
    intro us hl t h
    cases h with
    | close => exact .close
    | plain h1 h2 h3 h4 => rw [joinUnits]; exact .plain h1 h2 h3 (ih _ (by simpa using hl) _ h4)
    | short h1 h2 => rw [joinUnits]; exact .short h1 (ih _ (by simpa using hl) _ h2)
    | @code u k t us hu ht =>
      simp only [List.length_cons, Nat.add_le_add_iff_right] at hl
      rw [joinUnits_code]
      split
      · rename_i hs
        split
        · rename_i m us'
          split
          · rename_i hm
            cases ht with
            | @code u' _ t' _ hu' ht' =>
              simp only [List.length_cons] at hl
              exact .pair hu ⟨hs.1, hm.1⟩ hu' hm.2 (ih _ (by omega) _ ht')
          · rename_i hm
            refine .single hu ?_ ?_ (ih _ hl _ ht)
            · unfold HighSurrogate LowSurrogate; omega
            · rintro hh ⟨u', m', t', hu', hlow, rfl⟩
              obtain ⟨us'', he, -⟩ := unitsText_code ht hu' rfl
              cases he
              exact hm ⟨hh.2, hlow⟩
        · rename_i hne
          refine .single hu ?_ ?_ (ih _ hl _ ht)
          · unfold HighSurrogate LowSurrogate; omega
          · rintro hh ⟨u', m', t', hu', hlow, rfl⟩
            obtain ⟨us'', he, -⟩ := unitsText_code ht hu' rfl
            exact hne _ _ he
      · rename_i hs
        exact .code hu (fun h => hs ⟨h.1, by have := h.2; omega⟩) (fun h => hs ⟨by have := h.1; omega, h.2⟩) (ih _ hl _ ht)

theorem stringText_units {t v : Str} (h : StringText t v) : ∃ us, UnitsText t us ∧ joinUnits us = v := by
  induction h with
  | close => exact ⟨[], .close, rfl⟩
  | plain h1 h2 h3 _ ih => obtain ⟨us, hu, rfl⟩ := ih; exact ⟨_, .plain h1 h2 h3 hu, by rw [joinUnits]⟩
  | short h1 _ ih => obtain ⟨us, hu, rfl⟩ := ih; exact ⟨_, .short h1 hu, by rw [joinUnits]⟩
  | code hc h1 h2 _ ih =>
    obtain ⟨us, hu, rfl⟩ := ih
    refine ⟨_, .code hc hu, ?_⟩
    rw [joinUnits_code, if_neg]
    rintro ⟨h3, h4⟩
    unfold HighSurrogate at h1
    unfold LowSurrogate at h2
    omega
  | pair hc h1 hc' h2 _ ih =>
    obtain ⟨us, hu, rfl⟩ := ih
    refine ⟨_, .code hc (.code hc' hu), ?_⟩
    unfold HighSurrogate at h1
    unfold LowSurrogate at h2
    rw [joinUnits_code, if_pos ⟨h1.1, by omega⟩]
    simp only [h1.2, h2.1, h2.2, and_self, if_true]
  | @single u n t s hc h1 h2 _ ih =>
    obtain ⟨us, hu, rfl⟩ := ih
    refine ⟨_, .code hc hu, ?_⟩
    have h1' : 0xD800 ≤ n ∧ n ≤ 0xDFFF := by
      unfold HighSurrogate LowSurrogate at h1
      omega
    rw [joinUnits_code, if_pos h1']
    split
    · rw [if_neg]
      rintro ⟨h3, h4⟩
      cases hu with
      | code hc' _ => exact h2 ⟨h1'.1, h3⟩ ⟨_, _, _, hc', h4, rfl⟩
    · rfl

theorem parseStr_sound (s : Str) {v r : Str} (h : parseStr s = some (v, r)) : ∃ t, s = t ++ r ∧ StringText t v := by
  simp only [parseStr, Option.map_eq_some_iff, Prod.mk.injEq] at h
  obtain ⟨⟨us, r'⟩, h, rfl, rfl⟩ := h
  obtain ⟨t, rfl, ht⟩ := parseUnits_sound s h
  exact ⟨t, rfl, joinUnits_text _ us (Nat.le_refl _) t ht⟩

theorem parseStr_complete {t v : Str} (h : StringText t v) (r : Str) : parseStr (t ++ r) = some (v, r) := by
  obtain ⟨us, hu, rfl⟩ := stringText_units h
  rw [parseStr, parseUnits_complete hu, Option.map_some]

/-! ### Values -/

theorem parse_sound (n : Nat) :
    (∀ s j r, parseValue n s = some (j, r) → ∃ w t, White w ∧ ValueText t j ∧ s = w ++ t ++ r) ∧
    (∀ s xs r, parseElems n s = some (xs, r) → ∃ t, ElemsText t xs ∧ s = t ++ r) ∧
    (∀ s ms r, parseMembers n s = some (ms, r) → ∃ t, MembersText t ms ∧ s = t ++ r) := by
  induction n with
  | zero => exact ⟨by intro s j r h; simp [parseValue] at h, by intro s j r h; simp [parseElems] at h, by intro s j r h; simp [parseMembers] at h⟩
  | succ n ih =>
    obtain ⟨ihv, ihe, ihm⟩ := ih
    refine ⟨?_, ?_, ?_⟩
    · intro s j r h
      obtain ⟨w, hw, hs⟩ := skipWs_split s
      suffices ∃ t, ValueText t j ∧ skipWs s = t ++ r by
        obtain ⟨t, h1, h2⟩ := this
        exact ⟨w, t, hw, h1, by rw [List.append_assoc, ← h2]; exact hs⟩
      rw [parseValue] at h
      generalize skipWs s = u at h
      split at h
      · cases h
      · rename_i cs
        obtain ⟨w', hw', hs'⟩ := skipWs_split cs
        split at h
        · rename_i r' hr
          cases h
          rw [hr] at hs'
          exact ⟨_, .emptyObject hw', by rw [hs']; simp⟩
        · simp only [Option.map_eq_some_iff, Prod.mk.injEq] at h
          obtain ⟨⟨ms, r'⟩, hp, rfl, rfl⟩ := h
          obtain ⟨t, ht, he⟩ := ihm _ _ _ hp
          refine ⟨'{' :: (w' ++ t), .object ?_, by rw [hs', he]; simp⟩
          cases ht with
          | @last w0 q w1 w2 t w3 k v h0 hq h1 h2 hv h3 =>
            have hww : White (w' ++ w0) := by
              intro c hc
              rcases List.mem_append.1 hc with hc | hc
              · exact hw' c hc
              · exact h0 c hc
            simpa [List.append_assoc] using MembersText.last hww hq h1 h2 hv h3
          | @more w0 q w1 w2 t w3 t' k v ms h0 hq h1 h2 hv h3 hm =>
            have hww : White (w' ++ w0) := by
              intro c hc
              rcases List.mem_append.1 hc with hc | hc
              · exact hw' c hc
              · exact h0 c hc
            simpa [List.append_assoc] using MembersText.more hww hq h1 h2 hv h3 hm
      · rename_i cs
        obtain ⟨w', hw', hs'⟩ := skipWs_split cs
        split at h
        · rename_i r' hr
          cases h
          rw [hr] at hs'
          exact ⟨_, .emptyArray hw', by rw [hs']; simp⟩
        · simp only [Option.map_eq_some_iff, Prod.mk.injEq] at h
          obtain ⟨⟨ms, r'⟩, hp, rfl, rfl⟩ := h
          obtain ⟨t, ht, he⟩ := ihe _ _ _ hp
          refine ⟨'[' :: (w' ++ t), .array ?_, by rw [hs', he]; simp⟩
          cases ht with
          | @last w0 t w1 x h0 hv h1 =>
            have hww : White (w' ++ w0) := by
              intro c hc
              rcases List.mem_append.1 hc with hc | hc
              · exact hw' c hc
              · exact h0 c hc
            simpa [List.append_assoc] using ElemsText.last hww hv h1
          | @more w0 t w1 t' x xs h0 hv h1 hm =>
            have hww : White (w' ++ w0) := by
              intro c hc
              rcases List.mem_append.1 hc with hc | hc
              · exact hw' c hc
              · exact h0 c hc
            simpa [List.append_assoc] using ElemsText.more hww hv h1 hm
      · rename_i cs
        simp only [Option.map_eq_some_iff, Prod.mk.injEq] at h
        obtain ⟨⟨v, r'⟩, h1, rfl, rfl⟩ := h
        obtain ⟨t, rfl, ht⟩ := parseStr_sound _ h1
        exact ⟨_, .string ht, by simp⟩
      · cases h; exact ⟨_, .true, rfl⟩
      · cases h; exact ⟨_, .false, rfl⟩
      · cases h; exact ⟨_, .null, rfl⟩
      · dsimp only at h
        split at h
        · rename_i hn
          cases h
          exact ⟨_, .number ((number_iff _).1 hn), List.takeWhile_append_dropWhile.symm⟩
        · cases h
    · intro s xs r h
      rw [parseElems] at h
      split at h
      · cases h
      · rename_i x r1 hx
        obtain ⟨w, t, hw, ht, hs⟩ := ihv _ _ _ hx
        obtain ⟨w', hw', hs'⟩ := skipWs_split r1
        split at h
        · rename_i r2 hr
          cases h
          rw [hr] at hs'
          exact ⟨_, .last hw ht hw', by rw [hs, hs']; simp⟩
        · rename_i r2 hr
          simp only [Option.map_eq_some_iff, Prod.mk.injEq] at h
          obtain ⟨⟨ys, r'⟩, h1, rfl, rfl⟩ := h
          obtain ⟨t', ht', he⟩ := ihe _ _ _ h1
          rw [hr] at hs'
          exact ⟨_, .more hw ht hw' ht', by rw [hs, hs', he]; simp⟩
        · cases h
    · intro s ms r h
      rw [parseMembers] at h
      obtain ⟨w, hw, hs⟩ := skipWs_split s
      split at h
      · rename_i cs hcs
        rw [hcs] at hs
        split at h
        · cases h
        · rename_i k r1 hk
          obtain ⟨q, hq, hq'⟩ := parseStr_sound _ hk
          obtain ⟨w1, hw1, hs1⟩ := skipWs_split r1
          split at h
          · rename_i r2 hr2
            rw [hr2] at hs1
            split at h
            · cases h
            · rename_i v r3 hv
              obtain ⟨w2, t, hw2, ht, hs2⟩ := ihv _ _ _ hv
              obtain ⟨w3, hw3, hs3⟩ := skipWs_split r3
              split at h
              · rename_i r4 hr4
                cases h
                rw [hr4] at hs3
                exact ⟨_, .last hw hq' hw1 hw2 ht hw3, by rw [hs, hq, hs1, hs2, hs3]; simp⟩
              · rename_i r4 hr4
                simp only [Option.map_eq_some_iff, Prod.mk.injEq] at h
                obtain ⟨⟨ys, r'⟩, h1, rfl, rfl⟩ := h
                obtain ⟨t', ht', he⟩ := ihm _ _ _ h1
                rw [hr4] at hs3
                exact ⟨_, .more hw hq' hw1 hw2 ht hw3 ht', by rw [hs, hq, hs1, hs2, hs3, he]; simp⟩
              · cases h
          · cases h
      · cases h

/-- C92: what the decoder accepts begins with a JSON text of the value it returns. -/
theorem decoded_is_json (s : Str) (j : Json) (h : decodeText s = some j) : ∃ t rest, JsonText t j ∧ s = t ++ rest := by
  simp only [decodeText, Option.map_eq_some_iff] at h
  obtain ⟨⟨j', r⟩, h1, rfl⟩ := h
  obtain ⟨w, t, hw, ht, hs⟩ := (parse_sound _).1 _ _ _ h1
  exact ⟨w ++ t, r, ⟨w, t, [], hw, ht, white_nil, by simp⟩, hs⟩

example : decodeText c!" {\"a\": [1.5e3, \"\\n\"]} x" = some (.obj [(c!"a", .arr [.num c!"1.5e3", .str ['\n']])]) := rfl

/-- The first character of a value. -/
theorem value_head {t : Str} {j : Json} (h : ValueText t j) : ∃ c cs, t = c :: cs ∧ isWs c = false ∧ c ≠ ']' ∧ c ≠ '}' := by
  cases h with
  | null => exact ⟨_, _, rfl, by decide⟩
  | true => exact ⟨_, _, rfl, by decide⟩
  | false => exact ⟨_, _, rfl, by decide⟩
  | number hn =>
    have hc := number_chars hn
    cases t with
    | nil => exact absurd rfl (isNumber_ne_nil ((number_iff _).2 hn))
    | cons c cs =>
      have hc := hc c (by simp)
      refine ⟨c, cs, rfl, ?_, ?_, ?_⟩
      · cases h : isWs c with
        | false => rfl
        | true =>
          simp only [isWs, Bool.or_eq_true, decide_eq_true_eq] at h
          rcases h with ((h | h) | h) | h <;> subst h <;> revert hc <;> decide
      · intro h; subst h; revert hc; decide
      · intro h; subst h; revert hc; decide
  | string _ => exact ⟨_, _, rfl, by decide⟩
  | emptyArray _ => exact ⟨_, _, rfl, by decide⟩
  | array _ => exact ⟨_, _, rfl, by decide⟩
  | emptyObject _ => exact ⟨_, _, rfl, by decide⟩
  | object _ => exact ⟨_, _, rfl, by decide⟩

theorem parseValue_white {w : Str} (hw : White w) (n : Nat) (s : Str) : parseValue n (w ++ s) = parseValue n s := by
  cases n with
  | zero => simp [parseValue]
  | succ n => simp only [parseValue, skipWs_white hw]

theorem parseElems_white {w : Str} (hw : White w) (n : Nat) (s : Str) : parseElems n (w ++ s) = parseElems n s := by
  cases n with
  | zero => simp [parseElems]
  | succ n => simp only [parseElems, parseValue_white hw]

theorem stops_white {w : Str} (hw : White w) {c : Char} {s : Str} (h : isNumChar c = false) : Stops (w ++ c :: s) := by
  intro c' cs' e
  cases w with
  | nil => cases e; exact h
  | cons x w =>
    cases e
    rcases hw c' (by simp) with h | h | h | h <;> subst h <;> rfl

theorem elems_head {t : Str} {xs : List Json} (h : ElemsText t xs) (r : Str) :
    ∃ c cs, skipWs (t ++ r) = c :: cs ∧ c ≠ ']' := by
  cases h with
  | last hw hv _ =>
    obtain ⟨c, cs, rfl, h1, h2, _⟩ := value_head hv
    exact ⟨c, _, by simp only [List.append_assoc, skipWs_white hw, List.cons_append, skipWs_of_not h1]; rfl, h2⟩
  | more hw hv _ _ =>
    obtain ⟨c, cs, rfl, h1, h2, _⟩ := value_head hv
    exact ⟨c, _, by simp only [List.append_assoc, skipWs_white hw, List.cons_append, skipWs_of_not h1]; rfl, h2⟩

theorem parseElems_skip (n : Nat) (s : Str) : parseElems n (skipWs s) = parseElems n s := by
  obtain ⟨w, hw, hs⟩ := skipWs_split s
  rw [hs, parseElems_white hw, ← hs]

theorem parseMembers_skip (n : Nat) (s : Str) : parseMembers n (skipWs s) = parseMembers n s := by
  cases n with
  | zero => simp [parseMembers]
  | succ n => simp only [parseMembers, skipWs_idem]

theorem members_head {t : Str} {ms : List (Str × Json)} (h : MembersText t ms) (r : Str) : ∃ cs, skipWs (t ++ r) = '"' :: cs := by
  cases h with
  | last hw _ _ _ _ _ =>
    exact ⟨_, by simp only [List.append_assoc, skipWs_white hw, List.cons_append, skipWs_of_not (c := '"') rfl]; rfl⟩
  | more hw _ _ _ _ _ _ =>
    exact ⟨_, by simp only [List.append_assoc, skipWs_white hw, List.cons_append, skipWs_of_not (c := '"') rfl]; rfl⟩

/-- The decoder reads every text of the grammar, and stops after it. -/
theorem parse_complete {t : Str} {j : Json} (h : ValueText t j) :
    j.size ≤ t.length ∧ ∀ n rest, j.size ≤ n → Stops rest → parseValue n (t ++ rest) = some (j, rest) := by
  refine ValueText.rec
    (motive_1 := fun t j _ => j.size ≤ t.length ∧ ∀ n rest, j.size ≤ n → Stops rest → parseValue n (t ++ rest) = some (j, rest))
    (motive_2 := fun t xs _ => Json.sizeElems xs ≤ t.length ∧ ∀ n rest, Json.sizeElems xs ≤ n → parseElems n (t ++ rest) = some (xs, rest))
    (motive_3 := fun t ms _ => Json.sizeMembers ms ≤ t.length ∧ ∀ n rest, Json.sizeMembers ms ≤ n → parseMembers n (t ++ rest) = some (ms, rest))
    ?_ ?_ ?_ ?_ ?_ ?_ ?_ ?_ ?_ ?_ ?_ ?_ ?_ h
  · refine ⟨by decide, fun n rest hn _ => ?_⟩
    obtain ⟨m, rfl⟩ : ∃ m, n = m + 1 := ⟨n - 1, by simp only [Json.size] at hn; omega⟩
    simp [parseValue, skipWs, isWs]
  · refine ⟨by decide, fun n rest hn _ => ?_⟩
    obtain ⟨m, rfl⟩ : ∃ m, n = m + 1 := ⟨n - 1, by simp only [Json.size] at hn; omega⟩
    simp [parseValue, skipWs, isWs]
  · refine ⟨by decide, fun n rest hn _ => ?_⟩
    obtain ⟨m, rfl⟩ : ∃ m, n = m + 1 := ⟨n - 1, by simp only [Json.size] at hn; omega⟩
    simp [parseValue, skipWs, isWs]
  · intro t hn
    have hc := number_chars hn
    have hi := (number_iff _).2 hn
    cases t with
    | nil => exact absurd rfl (isNumber_ne_nil hi)
    | cons c cs =>
      refine ⟨by simp [Json.size], fun n rest hn hr => ?_⟩
      obtain ⟨m, rfl⟩ : ∃ m, n = m + 1 := ⟨n - 1, by simp only [Json.size] at hn; omega⟩
      obtain ⟨h1, h2⟩ := takeWhile_stop hc hr
      rw [List.cons_append, parseValue_number m _ (hc c (by simp)), ← List.cons_append, h1, h2, hi]
      rfl
  · intro t s hs
    refine ⟨by simp [Json.size], fun n rest hn _ => ?_⟩
    obtain ⟨m, rfl⟩ : ∃ m, n = m + 1 := ⟨n - 1, by simp only [Json.size] at hn; omega⟩
    simp [parseValue, skipWs, isWs, parseStr_complete hs]
  · intro w hw
    refine ⟨by simp [Json.size, Json.sizeElems], fun n rest hn _ => ?_⟩
    obtain ⟨m, rfl⟩ : ∃ m, n = m + 1 := ⟨n - 1, by simp only [Json.size] at hn; omega⟩
    simp only [List.cons_append, List.append_assoc, parseValue, skipWs_of_not (c := '[') rfl, skipWs_white hw, List.nil_append,
      skipWs_of_not (c := ']') rfl]
  · intro t xs ht ih
    refine ⟨by simp only [Json.size, List.length_cons]; omega, fun n rest hn _ => ?_⟩
    obtain ⟨m, rfl⟩ : ∃ m, n = m + 1 := ⟨n - 1, by simp only [Json.size] at hn; omega⟩
    obtain ⟨c, cs, h1, h2⟩ := elems_head ht rest
    have := ih.2 m rest (by simp only [Json.size] at hn; omega)
    rw [← parseElems_skip, h1] at this
    simp only [List.cons_append, parseValue, skipWs_of_not (c := '[') rfl, h1]
    split
    · rename_i h; exact absurd (List.cons.inj h).1 h2
    · rw [this]; rfl
  · intro w hw
    refine ⟨by simp [Json.size, Json.sizeMembers], fun n rest hn _ => ?_⟩
    obtain ⟨m, rfl⟩ : ∃ m, n = m + 1 := ⟨n - 1, by simp only [Json.size] at hn; omega⟩
    simp only [List.cons_append, List.append_assoc, parseValue, skipWs_of_not (c := '{') rfl, skipWs_white hw, List.nil_append,
      skipWs_of_not (c := '}') rfl]
  · intro t ms ht ih
    refine ⟨by simp only [Json.size, List.length_cons]; omega, fun n rest hn _ => ?_⟩
    obtain ⟨m, rfl⟩ : ∃ m, n = m + 1 := ⟨n - 1, by simp only [Json.size] at hn; omega⟩
    obtain ⟨cs, h1⟩ := members_head ht rest
    have := ih.2 m rest (by simp only [Json.size] at hn; omega)
    rw [← parseMembers_skip, h1] at this
    simp only [List.cons_append, parseValue, skipWs_of_not (c := '{') rfl, h1]
    split
    · rename_i h; exact absurd (List.cons.inj h).1 (by decide)
    · rw [this]; rfl
  · intro w t w' x hw _ hw' ih
    refine ⟨by simp only [Json.sizeElems, List.length_append, List.length_singleton]; omega, fun n rest hn => ?_⟩
    simp only [Json.sizeElems] at hn
    obtain ⟨m, rfl⟩ : ∃ m, n = m + 1 := ⟨n - 1, by omega⟩
    have := ih.2 m (w' ++ ']' :: rest) (by omega) (stops_white hw' rfl)
    simp only [List.append_assoc, List.singleton_append, parseElems, parseValue_white hw, this, skipWs_white hw',
      skipWs_of_not (c := ']') rfl]
  · intro w t w' t' x xs hw _ hw' _ ih ih'
    refine ⟨by simp only [Json.sizeElems, List.length_append, List.length_cons]; omega, fun n rest hn => ?_⟩
    simp only [Json.sizeElems] at hn
    obtain ⟨m, rfl⟩ : ∃ m, n = m + 1 := ⟨n - 1, by omega⟩
    have := ih.2 m (w' ++ ',' :: (t' ++ rest)) (by omega) (stops_white hw' rfl)
    simp only [List.append_assoc, List.cons_append, parseElems, parseValue_white hw, this, skipWs_white hw',
      skipWs_of_not (c := ',') rfl, ih'.2 m rest (by omega), Option.map_some]
  · intro w q w1 w2 t w3 k v hw hq hw1 hw2 _ hw3 ih
    refine ⟨by simp only [Json.sizeMembers, List.length_append, List.length_cons]; omega, fun n rest hn => ?_⟩
    simp only [Json.sizeMembers] at hn
    obtain ⟨m, rfl⟩ : ∃ m, n = m + 1 := ⟨n - 1, by omega⟩
    have := ih.2 m (w3 ++ '}' :: rest) (by omega) (stops_white hw3 rfl)
    simp only [List.append_assoc, List.cons_append, List.nil_append, parseMembers, skipWs_white hw, skipWs_of_not (c := '"') rfl,
      parseStr_complete hq, skipWs_white hw1, skipWs_of_not (c := ':') rfl, parseValue_white hw2, this, skipWs_white hw3,
      skipWs_of_not (c := '}') rfl]
  · intro w q w1 w2 t w3 t' k v ms hw hq hw1 hw2 _ hw3 _ ih ih'
    refine ⟨by simp only [Json.sizeMembers, List.length_append, List.length_cons]; omega, fun n rest hn => ?_⟩
    simp only [Json.sizeMembers] at hn
    obtain ⟨m, rfl⟩ : ∃ m, n = m + 1 := ⟨n - 1, by omega⟩
    have := ih.2 m (w3 ++ ',' :: (t' ++ rest)) (by omega) (stops_white hw3 rfl)
    simp only [List.append_assoc, List.cons_append, parseMembers, skipWs_white hw, skipWs_of_not (c := '"') rfl,
      parseStr_complete hq, skipWs_white hw1, skipWs_of_not (c := ':') rfl, parseValue_white hw2, this, skipWs_white hw3,
      skipWs_of_not (c := ',') rfl, ih'.2 m rest (by omega), Option.map_some]

theorem json_text_parse {t : Str} {j : Json} (h : JsonText t j) : ∃ r, White r ∧ parseValue (t.length + 1) t = some (j, r) := by
  obtain ⟨w, u, w', hw, hu, hw', rfl⟩ := h
  obtain ⟨h1, h2⟩ := parse_complete hu
  have hstop : Stops w' := by
    intro c cs e
    subst e
    rcases hw' c (by simp) with h | h | h | h <;> subst h <;> rfl
  refine ⟨w', hw', ?_⟩
  simp only [List.append_assoc, parseValue_white hw]
  exact h2 _ w' (by simp only [List.length_append]; omega) hstop

/-- C92: the decoder reads every JSON text as the value that the grammar gives it. -/
theorem json_is_decoded (t : Str) (j : Json) (h : JsonText t j) : decodeText t = some j := by
  obtain ⟨r, _, hp⟩ := json_text_parse h
  rw [decodeText, hp]
  rfl

/-- A string with an escaped surrogate pair, as the grammar reads it. -/
theorem smiley_text : JsonText c!"\"\\uD83D\\uDE00\"" (.str ['😀']) := by
  have h1 : CodeText c!"\\uD83D" 0xD83D := uCode_iff.1 (by decide +kernel)
  have h2 : CodeText c!"\\uDE00" 0xDE00 := uCode_iff.1 (by decide +kernel)
  have h := StringText.pair h1 (by unfold HighSurrogate; omega) h2 (by unfold LowSurrogate; omega) .close
  rw [show Char.ofNat (0x10000 + (0xD83D - 0xD800) * 0x400 + (0xDE00 - 0xDC00)) = '😀' by decide +kernel] at h
  exact ⟨[], _, [], white_nil, .string h, white_nil, by decide +kernel⟩

/-- C92: a text is the JSON text of at most one value. -/
theorem json_unambiguous (t : Str) (j k : Json) (hj : JsonText t j) (hk : JsonText t k) : j = k := by
  have := json_is_decoded t j hj
  rw [json_is_decoded t k hk] at this
  exact (Option.some.inj this).symm

/-! ### What is written -/

theorem hexDigit_hex (n : Nat) (h : n < 16) : Hex (hexDigit n) n := (hexVal_iff _ _).1 (hexVal_hexDigit n h)

theorem escStr_text (s : Str) : StringText (escStr s) s := by
  obtain ⟨t, h1, h2⟩ := parseStr_sound (escStr s) (v := s) (r := []) (by simpa using parseStr_escStr s [])
  rw [List.append_nil] at h1
  rw [h1]; exact h2

mutual
theorem render_text (ind : Bool) (d : Nat) : ∀ j, GoodJson j → ValueText (render ind d j) j
  | .null, _ => by simp only [render]; exact .null
  | .bool true, _ => by simp only [render]; exact .true
  | .bool false, _ => by simp only [render]; exact .false
  | .num t, h => by
    simp only [GoodJson] at h
    simp only [render]
    exact .number h
  | .str s, _ => by simp only [render, quoteStr]; exact .string (escStr_text s)
  | .arr [], _ => by simp only [render]; exact .emptyArray white_nil
  | .arr (x :: xs), h => by
    simp only [GoodJson, GoodElems] at h
    simp only [render, List.cons_append]
    exact .array (renderElems_text ind d (newline ind (d + 1)) (white_newline _ _) x xs (render_text ind (d + 1) x h.1) h.2)
  | .obj [], _ => by simp only [render]; exact .emptyObject white_nil
  | .obj ((k, v) :: ms), h => by
    simp only [GoodJson, GoodMembers] at h
    simp only [render, List.cons_append]
    exact .object (renderMembers_text ind d (newline ind (d + 1)) (white_newline _ _) k v ms (render_text ind (d + 1) v h.1) h.2)
theorem renderElems_text (ind : Bool) (d : Nat) (w : Str) (hw : White w) (x : Json) :
    ∀ xs, ValueText (render ind (d + 1) x) x → GoodElems xs → ElemsText (w ++ (render ind (d + 1) x ++ renderElems ind d xs)) (x :: xs)
  | [], hx, _ => by
    simpa [renderElems, List.append_assoc] using ElemsText.last hw hx (white_newline ind d)
  | y :: ys, hx, h => by
    simp only [GoodElems] at h
    have := renderElems_text ind d (newline ind (d + 1)) (white_newline _ _) y ys (render_text ind (d + 1) y h.1) h.2
    simpa [renderElems, List.append_assoc] using ElemsText.more hw hx white_nil this
theorem renderMembers_text (ind : Bool) (d : Nat) (w : Str) (hw : White w) (k : Str) (v : Json) :
    ∀ ms, ValueText (render ind (d + 1) v) v → GoodMembers ms →
      MembersText (w ++ (quoteStr k ++ (colon ind ++ (render ind (d + 1) v ++ renderMembers ind d ms)))) ((k, v) :: ms)
  | [], hv, _ => by
    cases ind with
    | false => simpa [renderMembers, quoteStr, colon, List.append_assoc] using
        MembersText.last hw (escStr_text k) white_nil white_nil hv (white_newline _ d)
    | true => simpa [renderMembers, quoteStr, colon, List.append_assoc] using
        MembersText.last hw (escStr_text k) white_nil (w2 := [' ']) (by intro c hc; simp at hc; simp [hc]) hv (white_newline _ d)
  | (k', v') :: ms, hv, h => by
    simp only [GoodMembers] at h
    have := renderMembers_text ind d (newline ind (d + 1)) (white_newline _ _) k' v' ms (render_text ind (d + 1) v' h.1) h.2
    cases ind with
    | false => simpa [renderMembers, quoteStr, colon, List.append_assoc] using
        MembersText.more hw (escStr_text k) white_nil white_nil hv white_nil this
    | true => simpa [renderMembers, quoteStr, colon, List.append_assoc] using
        MembersText.more hw (escStr_text k) white_nil (w2 := [' ']) (by intro c hc; simp at hc; simp [hc]) hv white_nil this
end

/-- What is written is a JSON text of the value. -/
theorem written_is_json (ind : Bool) (d : Nat) (j : Json) (h : GoodJson j) : JsonText (render ind d j) j :=
  ⟨[], _, [], white_nil, render_text ind d j h, white_nil, by simp⟩

example : GoodJson (.obj [(c!"a\n", .arr [.num c!"1.5e3", .str ['😀', '<']])]) := by
  simp only [GoodJson, GoodMembers, GoodElems, GoodNum, and_true]
  exact (number_iff _).1 (by decide)

end Astra.Props
