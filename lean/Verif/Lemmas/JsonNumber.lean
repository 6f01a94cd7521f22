/-
The numbers that the decoder accepts are those of the grammar.
-/
import Verif.Spec.JsonText

namespace Astra
open Spec

theorem isDigit_iff (c : Char) : c.isDigit = true ↔ Digit c := by
  simp only [Char.isDigit, Digit, Bool.and_eq_true, decide_eq_true_eq, Char.le_def, ge_iff_le]

theorem someDigits_iff (t : Str) : someDigits t = true ↔ Digits t := by
  cases t with
  | nil => simp [someDigits, Digits]
  | cons c t => simp [someDigits, Digits, isDigit_iff]

theorem intPart_iff (t : Str) : intPart t = true ↔ IntText t := by
  unfold intPart
  split
  · simp [IntText]
  · rename_i cs h
    constructor
    · intro h; cases h
    · rintro (h' | h')
      · simp_all
      · exact absurd rfl h'.2
  · rename_i h1 h2
    rw [someDigits_iff]
    constructor
    · intro h
      refine .inr ⟨h, ?_⟩
      intro hh
      cases t with
      | nil => simp at hh
      | cons c cs =>
        simp only [List.head?_cons, Option.some.injEq] at hh
        exact h2 cs (by rw [hh])
    · rintro (h | h)
      · exact absurd h h1
      · exact h.1

theorem expPart_iff (t : Str) : expPart t = true ↔
    ∃ sign ds, (sign = [] ∨ sign = ['+'] ∨ sign = ['-']) ∧ Digits ds ∧ t = sign ++ ds := by
  have nd : ∀ c, (c = '+' ∨ c = '-') → ¬ Digit c := by
    rintro c (rfl | rfl) <;> simp [Digit] <;> decide
  unfold expPart
  split
  · rename_i s
    rw [someDigits_iff]
    constructor
    · intro h; exact ⟨['+'], s, by simp, h, rfl⟩
    · rintro ⟨sign, ds, h1 | h1 | h1, h2, h3⟩ <;> subst h1
      · simp only [List.nil_append] at h3
        exact absurd (h2.2 '+' (by rw [← h3]; simp)) (nd _ (.inl rfl))
      · simp at h3; rw [h3]; exact h2
      · simp at h3
  · rename_i s
    rw [someDigits_iff]
    constructor
    · intro h; exact ⟨['-'], s, by simp, h, rfl⟩
    · rintro ⟨sign, ds, h1 | h1 | h1, h2, h3⟩ <;> subst h1
      · simp only [List.nil_append] at h3
        exact absurd (h2.2 '-' (by rw [← h3]; simp)) (nd _ (.inr rfl))
      · simp at h3
      · simp at h3; rw [h3]; exact h2
  · rename_i h1 h2
    rw [someDigits_iff]
    constructor
    · intro h; exact ⟨[], t, by simp, h, rfl⟩
    · rintro ⟨sign, ds, h | h | h, hd, ht⟩ <;> subst h
      · rw [ht]; exact hd
      · exact absurd ht (h1 ds)
      · exact absurd ht (h2 ds)

/-- The text after digits does not go on with a digit. -/
def NoDigit (r : Str) : Prop := ∀ c cs, r = c :: cs → c.isDigit = false

theorem digits_split {ds r : Str} (hd : ∀ c ∈ ds, Digit c) (hr : NoDigit r) :
    (ds ++ r).takeWhile Char.isDigit = ds ∧ (ds ++ r).dropWhile Char.isDigit = r := by
  induction ds with
  | nil =>
    cases r with
    | nil => simp
    | cons c cs => simp [hr c cs rfl]
  | cons c cs ih =>
    have h1 := (isDigit_iff c).2 (hd c (by simp))
    have h2 := ih (fun x hx => hd x (by simp [hx]))
    simp [h1, h2.1, h2.2]

theorem expText_noDigit {e : Str} (h : ExpText e) : NoDigit e := by
  intro c cs hc
  rcases h with h | ⟨x, sign, ds, hx, _, _, h⟩
  · rw [h] at hc; cases hc
  · rw [h] at hc
    cases hc
    rcases hx with rfl | rfl <;> rfl

theorem intText_digits {t : Str} (h : IntText t) : ∀ c ∈ t, Digit c := by
  rcases h with rfl | h
  · intro c hc; simp at hc; subst hc; constructor <;> decide
  · exact h.1.2

theorem unsigned_complete {int frac exp : Str} (hi : IntText int) (hf : FracText frac) (he : ExpText exp) :
    isUnsignedNumber (int ++ frac ++ exp) = true := by
  have hexp : ∀ c e, exp = c :: e → ((c = 'e' || c = 'E') && expPart e) = true := by
    intro c e h
    rcases he with he | ⟨x, sign, ds, hx, hs, hd, he⟩
    · rw [he] at h; cases h
    · rw [he] at h
      cases h
      rw [Bool.and_eq_true]
      exact ⟨by rcases hx with rfl | rfl <;> rfl, (expPart_iff _).2 ⟨sign, ds, hs, hd, rfl⟩⟩
  have hne : ∀ c e, exp = c :: e → c ≠ '.' := by
    intro c e h
    have := hexp c e h
    rintro rfl
    simp at this
  rcases hf with rfl | ⟨ds, hd, rfl⟩
  · obtain ⟨h1, h2⟩ := digits_split (intText_digits hi) (expText_noDigit he)
    simp only [List.append_nil, isUnsignedNumber, h1, h2, (intPart_iff _).2 hi, Bool.true_and]
    cases hx : exp with
    | nil => rfl
    | cons c e =>
      have hc := hne c e hx
      have := hexp c e hx
      split
      · rfl
      · rename_i h; exact absurd (List.cons.inj h).1 hc
      · rename_i h; cases h; exact this
  · have hnd : NoDigit ('.' :: (ds ++ exp)) := by intro c cs h; cases h; rfl
    obtain ⟨h1, h2⟩ := digits_split (intText_digits hi) hnd
    obtain ⟨h3, h4⟩ := digits_split hd.2 (expText_noDigit he)
    rw [List.append_assoc, List.cons_append]
    simp only [isUnsignedNumber, h1, h2, (intPart_iff _).2 hi, Bool.true_and, h3, h4, (someDigits_iff _).2 hd]
    cases hx : exp with
    | nil => rfl
    | cons c e => exact hexp c e hx

theorem takeDrop_digits (s : Str) : s = s.takeWhile Char.isDigit ++ s.dropWhile Char.isDigit := List.takeWhile_append_dropWhile.symm

theorem exp_sound {c : Char} {e : Str} (h : ((c = 'e' || c = 'E') && expPart e) = true) : ExpText (c :: e) := by
  rw [Bool.and_eq_true, Bool.or_eq_true, decide_eq_true_eq, decide_eq_true_eq] at h
  obtain ⟨sign, ds, h1, h2, rfl⟩ := (expPart_iff _).1 h.2
  exact .inr ⟨c, sign, ds, h.1, h1, h2, rfl⟩

theorem unsigned_sound {s : Str} (h : isUnsignedNumber s = true) :
    ∃ int frac exp, IntText int ∧ FracText frac ∧ ExpText exp ∧ s = int ++ frac ++ exp := by
  simp only [isUnsignedNumber, Bool.and_eq_true] at h
  obtain ⟨hi, hr⟩ := h
  refine ⟨s.takeWhile Char.isDigit, ?_⟩
  have hs := takeDrop_digits s
  generalize s.dropWhile Char.isDigit = r at hr hs
  rw [intPart_iff] at hi
  split at hr
  · exact ⟨[], [], hi, .inl rfl, .inl rfl, by simpa using hs⟩
  · rename_i r'
    rw [Bool.and_eq_true] at hr
    obtain ⟨hf, he⟩ := hr
    have hr' := takeDrop_digits r'
    generalize r'.dropWhile Char.isDigit = e at he hr'
    refine ⟨'.' :: r'.takeWhile Char.isDigit, e, hi, .inr ⟨_, (someDigits_iff _).1 hf, rfl⟩, ?_, ?_⟩
    · split at he
      · exact .inl rfl
      · exact exp_sound he
    · rw [List.append_assoc, List.cons_append, ← hr']; exact hs
  · rename_i c e _
    exact ⟨[], c :: e, hi, .inl rfl, exp_sound hr, by simpa using hs⟩

/-- The numbers that the decoder accepts are those of the grammar. -/
theorem number_iff (t : Str) : isNumber t = true ↔ NumberText t := by
  constructor
  · intro h
    unfold isNumber at h
    split at h
    · obtain ⟨i, f, e, hi, hf, he, rfl⟩ := unsigned_sound h
      exact ⟨['-'], i, f, e, .inr rfl, hi, hf, he, by simp⟩
    · obtain ⟨i, f, e, hi, hf, he, hs⟩ := unsigned_sound h
      exact ⟨[], i, f, e, .inl rfl, hi, hf, he, by simpa using hs⟩
  · rintro ⟨sign, i, f, e, hsg | hsg, hi, hf, he, rfl⟩ <;> subst hsg
    · simp only [List.nil_append]
      unfold isNumber
      split
      · rename_i s hs
        exfalso
        have : i ≠ [] := by
          rcases hi with rfl | hi
          · simp
          · exact hi.1.1
        cases i with
        | nil => exact this rfl
        | cons c i =>
          simp only [List.cons_append] at hs
          have := intText_digits hi c (by simp)
          rw [(List.cons.inj hs).1] at this
          revert this
          simp [Digit]
      · exact unsigned_complete hi hf he
    · exact unsigned_complete hi hf he

theorem number_chars {t : Str} (h : NumberText t) : ∀ c ∈ t, isNumChar c = true := by
  have hd : ∀ {c}, Digit c → isNumChar c = true := by
    intro c h; simp [isNumChar, (isDigit_iff c).2 h]
  obtain ⟨sign, i, f, e, hs, hi, hf, he, rfl⟩ := h
  intro c hc
  simp only [List.mem_append] at hc
  rcases hc with ((hc | hc) | hc) | hc
  · rcases hs with rfl | rfl
    · simp at hc
    · simp at hc; subst hc; rfl
  · exact hd (intText_digits hi c hc)
  · rcases hf with rfl | ⟨ds, h, rfl⟩
    · simp at hc
    · rcases List.mem_cons.1 hc with rfl | hc
      · rfl
      · exact hd (h.2 c hc)
  · rcases he with rfl | ⟨x, sg, ds, hx, hsg, h, rfl⟩
    · simp at hc
    · rcases List.mem_cons.1 hc with rfl | hc
      · rcases hx with rfl | rfl <;> rfl
      · rcases List.mem_append.1 hc with hc | hc
        · rcases hsg with rfl | rfl | rfl
          · simp at hc
          · simp at hc; subst hc; rfl
          · simp at hc; subst hc; rfl
        · exact hd (h.2 c hc)

end Astra
