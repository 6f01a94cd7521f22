/-
What the operations on texts do that the specifications of other properties mention: trimming, the text of comments, replacing, and reading
integers.
-/
import Verif.Spec.Text
import Verif.Spec.Handler
import Verif.Props.Enums
import Verif.Props.MainPackage

namespace Astra.Props

open Spec

theorem isSpace_iff (c : Char) : isSpace c = true ↔ c ∈ whiteSpace := by
  have hv : ∀ d : Char, c = d ↔ c.toNat = d.toNat := fun d => ⟨fun h => h ▸ rfl, fun h => Char.toNat_inj.mp h⟩
  have hu : ∀ n : UInt32, c.val = n ↔ c.toNat = n.toNat := fun n => ⟨fun h => by rw [← h]; rfl, fun h => UInt32.toNat_inj.mp h⟩
  have hl : ∀ n : UInt32, n ≤ c.val ↔ n.toNat ≤ c.toNat := fun n => UInt32.le_iff_toNat_le
  have hg : ∀ n : UInt32, c.val ≤ n ↔ c.toNat ≤ n.toNat := fun n => UInt32.le_iff_toNat_le
  simp only [isSpace, whiteSpace, List.mem_cons, List.not_mem_nil, or_false, Bool.or_eq_true, decide_eq_true_eq, Bool.and_eq_true]
  simp only [hv, hu, hl, hg]
  simp only [show ' '.toNat = 32 from rfl, show '\t'.toNat = 9 from rfl, show '\n'.toNat = 10 from rfl, show '\r'.toNat = 13 from rfl,
    show '\x0b'.toNat = 11 from rfl, show '\x0c'.toNat = 12 from rfl, show '\u0085'.toNat = 0x85 from rfl, show '\u00a0'.toNat = 0xa0 from rfl,
    show '\u1680'.toNat = 0x1680 from rfl, show '\u2000'.toNat = 0x2000 from rfl, show '\u2001'.toNat = 0x2001 from rfl,
    show '\u2002'.toNat = 0x2002 from rfl, show '\u2003'.toNat = 0x2003 from rfl, show '\u2004'.toNat = 0x2004 from rfl,
    show '\u2005'.toNat = 0x2005 from rfl, show '\u2006'.toNat = 0x2006 from rfl, show '\u2007'.toNat = 0x2007 from rfl,
    show '\u2008'.toNat = 0x2008 from rfl, show '\u2009'.toNat = 0x2009 from rfl, show '\u200a'.toNat = 0x200a from rfl,
    show '\u2028'.toNat = 0x2028 from rfl, show '\u2029'.toNat = 0x2029 from rfl, show '\u202f'.toNat = 0x202f from rfl,
    show '\u205f'.toNat = 0x205f from rfl, show '\u3000'.toNat = 0x3000 from rfl]
  simp only [UInt32.toNat_ofNat]
  omega

theorem trimLeftBy_spec (p : Char → Bool) (s : Str) :
    ∃ a, s = a ++ trimLeftBy p s ∧ (∀ c ∈ a, p c = true) ∧ ∀ c, (trimLeftBy p s).head? = some c → p c = false := by
  induction s with
  | nil => exact ⟨[], rfl, by simp, by simp [trimLeftBy]⟩
  | cons c s ih =>
    obtain ⟨a, e, h1, h2⟩ := ih
    by_cases h : p c = true
    · refine ⟨c :: a, ?_, ?_, ?_⟩
      · rw [trimLeftBy, if_pos h, List.cons_append, ← e]
      · intro d hd
        rcases List.mem_cons.mp hd with rfl | hd
        · exact h
        · exact h1 d hd
      · rw [trimLeftBy, if_pos h]; exact h2
    · refine ⟨[], ?_, by simp, ?_⟩
      · rw [trimLeftBy, if_neg h]; rfl
      · rw [trimLeftBy, if_neg h]
        intro d hd
        simp at hd
        subst hd
        simpa using h

/-- Trimming takes off all the characters at the two ends and nothing else. -/
theorem trimBy_exact (p : Char → Bool) (s : Str) : Trimmed (fun c => p c = true) s (trimBy p s) := by
  obtain ⟨a, e, h1, h2⟩ := trimLeftBy_spec p s
  obtain ⟨b, e', h3, h4⟩ := trimLeftBy_spec p (trimLeftBy p s).reverse
  have e2 : trimLeftBy p s = trimBy p s ++ b.reverse := by
    have := congrArg List.reverse e'
    rw [List.reverse_reverse, List.reverse_append] at this
    exact this
  refine ⟨a, b.reverse, ?_, h1, fun c hc => h3 c (List.mem_reverse.mp hc), ?_, ?_⟩
  · rw [List.append_assoc, ← e2]; exact e
  · intro c hc
    cases ht : trimBy p s with
    | nil => rw [ht] at hc; simp at hc
    | cons d u =>
      rw [ht] at hc e2
      simp at hc
      subst hc
      simpa using h2 d (by rw [e2]; rfl)
  · intro c hc
    rw [trimBy, trimRightBy, List.getLast?_reverse] at hc
    simpa using h4 c hc

/-- What is left after trimming is determined by the description. -/
theorem trimmed_unique {P : Char → Prop} {s t t' : Str} (h : Trimmed P s t) (h' : Trimmed P s t') : t = t' := by
  obtain ⟨a, b, e, ha, hb, hf, hl⟩ := h
  obtain ⟨a', b', e', ha', hb', hf', hl'⟩ := h'
  have key : ∀ {a a' u u' : Str}, a ++ u = a' ++ u' → (∀ c ∈ a, P c) → (∀ c ∈ a', P c) → (∀ c, u.head? = some c → ¬ P c) →
      (∀ c, u'.head? = some c → ¬ P c) → u = u' := by
    intro a
    induction a with
    | nil =>
      intro a' u u' e ha ha' hu hu'
      cases a' with
      | nil => exact e
      | cons x a' =>
        rw [List.nil_append] at e
        exact absurd (ha' x (by simp)) (hu x (by rw [e]; rfl))
    | cons x a ih =>
      intro a' u u' e ha ha' hu hu'
      cases a' with
      | nil =>
        rw [List.nil_append] at e
        exact absurd (ha x (by simp)) (hu' x (by rw [← e]; rfl))
      | cons y a' =>
        simp only [List.cons_append, List.cons.injEq] at e
        exact ih e.2 (fun c hc => ha c (by simp [hc])) (fun c hc => ha' c (by simp [hc])) hu hu'
  by_cases hn : t = []
  · by_cases hn' : t' = []
    · rw [hn, hn']
    · exfalso
      subst hn
      cases t' with
      | nil => exact hn' rfl
      | cons c t' =>
        have hall : ∀ d ∈ s, P d := by
          intro d hd
          rw [e] at hd
          simp only [List.append_nil, List.mem_append] at hd
          exact hd.elim (ha d) (hb d)
        exact hf' c rfl (hall c (by rw [e']; simp))
  · by_cases hn' : t' = []
    · exfalso
      subst hn'
      cases t with
      | nil => exact hn rfl
      | cons c t =>
        have hall : ∀ d ∈ s, P d := by
          intro d hd
          rw [e'] at hd
          simp only [List.append_nil, List.mem_append] at hd
          exact hd.elim (ha' d) (hb' d)
        exact hf c rfl (hall c (by rw [e]; simp))
    · have h1 : t ++ b = t' ++ b' := by
        apply key (a := a) (a' := a') (by rw [← List.append_assoc, ← List.append_assoc, ← e, ← e']) ha ha'
        · intro c hc
          cases t with
          | nil => exact absurd rfl hn
          | cons x t => exact hf c hc
        · intro c hc
          cases t' with
          | nil => exact absurd rfl hn'
          | cons x t' => exact hf' c hc
      have h2 : b.reverse ++ t.reverse = b'.reverse ++ t'.reverse := by
        rw [← List.reverse_append, ← List.reverse_append, h1]
      have h3 := key h2 (fun c hc => hb c (List.mem_reverse.mp hc)) (fun c hc => hb' c (List.mem_reverse.mp hc))
        (fun c hc => hl c (by rwa [List.head?_reverse] at hc)) (fun c hc => hl' c (by rwa [List.head?_reverse] at hc))
      exact List.reverse_inj.mp h3

/-- `strings.TrimSpace` as specified. -/
theorem trimSpace_exact (s t : Str) : trimSpace s = t ↔ Trimmed (· ∈ whiteSpace) s t := by
  have h := trimBy_exact isSpace s
  have hp : (fun c => isSpace c = true) = (· ∈ whiteSpace) := funext fun c => propext (isSpace_iff c)
  rw [hp] at h
  constructor
  · rintro rfl; exact h
  · exact trimmed_unique h

/-- C68, C83: the text of a comment is what the comment says. -/
theorem comment_text_exact (d t : Str) : commentText d = t ↔ Says d t := by
  unfold commentText Says trimPrefix
  by_cases h : hasPrefix d c!"//" = true
  · obtain ⟨rest, hr⟩ := hasPrefix_iff.mp h
    rw [if_pos h]
    subst hr
    constructor
    · intro e
      exact Or.inl ⟨rest, rfl, (trimSpace_exact _ _).mp e⟩
    · rintro (⟨r, e, ht⟩ | ⟨hn, _⟩)
      · have : rest = r := by simpa using e
        subst this
        exact (trimSpace_exact _ _).mpr ht
      · exact absurd ⟨rest, rfl⟩ hn
  · rw [if_neg h, trimSpace_exact]
    have hn : ¬ ∃ rest, d = '/' :: '/' :: rest := by
      rintro ⟨rest, rfl⟩
      exact h (hasPrefix_iff.mpr ⟨rest, rfl⟩)
    simp only [hn, not_false_eq_true, true_and]
    constructor
    · exact Or.inr
    · rintro (⟨rest, e, _⟩ | h')
      · exact absurd ⟨rest, e⟩ hn
      · exact h'

/-- A comment of a file with carriage returns, and one that is indented by a tabulator. -/
example : commentText c!"// Lists the users.\r" = c!"Lists the users." ∧ commentText c!"//\tLists the users. \n" = c!"Lists the users." := by decide

theorem replaced_cons {old new : Str} {c : Char} {s t : Str} (h : ¬ old <+: c :: s) (hr : Replaced old new s t) :
    Replaced old new (c :: s) (c :: t) := by
  have up : ∀ {a b : Str}, c :: s = a ++ old ++ b → ∃ a', a = c :: a' ∧ s = a' ++ old ++ b := by
    intro a b e
    cases a with
    | nil => exact absurd ⟨b, by simpa using e.symm⟩ h
    | cons d a =>
      simp only [List.cons_append, List.cons.injEq] at e
      exact ⟨a, by rw [e.1], e.2⟩
  cases hr with
  | none hn =>
    refine .none ?_
    rintro ⟨a, b, e⟩
    obtain ⟨a', _, e'⟩ := up e
    exact hn ⟨a', b, e'⟩
  | @one _ a b t hf hr =>
    have : c :: (a ++ new ++ t) = (c :: a) ++ new ++ t := rfl
    rw [this]
    refine .one ⟨by rw [hf.1]; rfl, ?_⟩ hr
    intro a' b' e
    obtain ⟨a'', rfl, e'⟩ := up e
    simpa using hf.2 a'' b' e'

theorem replaceAll_replaced (old new : Str) (hold : old ≠ []) : ∀ (n : Nat) (s : Str), s.length ≤ n → Replaced old new s (replaceAll s old new) := by
  intro n
  induction n with
  | zero =>
    intro s hs
    have : s = [] := List.length_eq_zero_iff.mp (Nat.le_zero.mp hs)
    subst this
    refine .none ?_
    rintro ⟨a, b, e⟩
    have := congrArg List.length e
    have hpos : 0 < old.length := List.length_pos_iff.mpr hold
    simp at this
    omega
  | succ n ih =>
    intro s hs
    cases s with
    | nil => exact ih [] (by simp)
    | cons c s =>
      have hls : s.length ≤ n := by simpa using hs
      by_cases hp : hasPrefix (c :: s) old = true
      · obtain ⟨b, hb⟩ := hasPrefix_iff.mp hp
        have hlen : s.drop (old.length - 1) = b := by
          have h1 : (c :: s).drop old.length = b := by rw [← hb]; simp
          cases hl : old.length with
          | zero => exact absurd (List.length_eq_zero_iff.mp hl) hold
          | succ m => rw [hl, List.drop_succ_cons] at h1; simpa using h1
        have e : replaceAll (c :: s) old new = [] ++ new ++ replaceAll b old new := by
          rw [replaceAll, replaceAllAux, if_pos hp, replaceAllAux_skip, hlen]
          rfl
        rw [e]
        refine .one ⟨by rw [← hb]; rfl, by intro a' b' _; simp⟩ (ih b ?_)
        have := congrArg List.length hb
        have hpos : 0 < old.length := List.length_pos_iff.mpr hold
        simp at this
        omega
      · have e : replaceAll (c :: s) old new = c :: replaceAll s old new := by
          rw [replaceAll, replaceAllAux, if_neg hp]
          rfl
        rw [e]
        exact replaced_cons (fun h => hp (hasPrefix_iff.mpr h)) (ih s hls)

theorem replaced_unique {old new s t t' : Str} (h : Replaced old new s t) (h' : Replaced old new s t') : t = t' := by
  induction h generalizing t' with
  | none hn =>
    cases h' with
    | none _ => rfl
    | one hf _ => exact absurd ⟨_, _, hf.1⟩ hn
  | @one s a b t hf hr ih =>
    cases h' with
    | none hn => exact absurd ⟨_, _, hf.1⟩ hn
    | @one _ a' b' t' hf' hr' =>
      have hl : a.length = a'.length := Nat.le_antisymm (hf.2 _ _ hf'.1) (hf'.2 _ _ hf.1)
      have e := hf.1.symm.trans hf'.1
      rw [List.append_assoc, List.append_assoc] at e
      obtain ⟨rfl, e'⟩ := List.append_inj e hl
      obtain rfl := List.append_cancel_left e'
      rw [ih hr']

/-- C43: `strings.ReplaceAll` as specified. -/
theorem replaceAll_exact (s old new t : Str) (hold : old ≠ []) : replaceAll s old new = t ↔ Replaced old new s t := by
  constructor
  · rintro rfl; exact replaceAll_replaced old new hold s.length s (Nat.le_refl _)
  · exact replaced_unique (replaceAll_replaced old new hold s.length s (Nat.le_refl _))

example : replaceAll c!"aaab" c!"aa" c!"x" = c!"xab" := by decide

/-- C43, exact for the contents: whatever the Go files contain, the temporary package consists of one copy of each of them, in which every
occurrence of the words is replaced, and of nothing else. -/
theorem temp_package_copies (w : World Proc) (d : FPath) (hw : w.st.svc.workDir ≠ []) (hd : DirAt w.cwd w.st.svc.workDir d)
    (ht : Tree w.fs) (ha : w.fs.look (d ++ [c!".astra"]) = some .dir)
    (hfiles : ∀ n, GoFile n ∨ ModFile n → w.fs.look (d ++ [n]) ≠ none → FileName n ∧ ∃ t, w.fs.look (d ++ [n]) = some (.file t)) :
    let r := setupTempMainPackage noFaults w
    let target := d ++ [c!".astra", c!"astramain"]
    r.2 = .ok () ∧ ChangesOnly (fun q => target <+: q) w.fs r.1.fs ∧
    ∀ n copy, r.1.fs.look (target ++ [n]) = some (.file copy) ↔
      ∃ t, GoFile n ∧ w.fs.look (d ++ [n]) = some (.file t) ∧ Replaced c!"package main" c!"package astramain" t copy := by
  obtain ⟨w', fs2, h1, _, _, _, h3, _, h5, h6⟩ := temp_package_ok w d hw (dirAt_iff.mp hd) ht ha hfiles
  intro r target
  have hrun : r = (w', .ok ()) := h1
  have hex : ∀ t copy, renamePackage t = copy ↔ Replaced c!"package main" c!"package astramain" t copy :=
    fun t copy => replaceAll_exact t c!"package main" c!"package astramain" copy (by decide)
  rw [hrun]
  refine ⟨rfl, h3, fun n copy => ⟨fun h => ?_, ?_⟩⟩
  · obtain ⟨m, hm, hl, e⟩ := h6 (target ++ [n]) ⟨[n], rfl⟩
      (by intro e; have := congrArg List.length e; simp [target] at this) (by show w'.fs.look _ ≠ none; rw [h]; simp)
    have : n = m := by simpa using List.append_cancel_left e
    subst this
    obtain ⟨_, t, hlt⟩ := hfiles n (Or.inl hm) hl
    have := h5 n t hm hlt
    rw [show w'.fs.look (d ++ [c!".astra", c!"astramain"] ++ [n]) = some (.file copy) from h] at this
    refine ⟨t, hm, hlt, (hex t copy).mp ?_⟩
    cases this
    rfl
  · rintro ⟨t, hn, hl, hr⟩
    rw [← (hex t copy).mpr hr]
    exact h5 n t hn hl

/-- The hypotheses are those of `temp_package_partial`, which `mainWorld` meets. A file in which the words occur twice, in the comment as well: -/
example : Replaced c!"package main" c!"package astramain" c!"// package main\npackage main" c!"// package astramain\npackage astramain" :=
  (replaceAll_exact _ _ _ _ (by decide)).mp (by decide)

theorem digitVal_iff (c : Char) (d : Nat) : digitVal c = some d ↔ '0' ≤ c ∧ c ≤ '9' ∧ d = c.toNat - '0'.toNat := by
  have h0 : '0' ≤ c ↔ 48 ≤ c.toNat := by rw [Char.le_def, UInt32.le_iff_toNat_le]; rfl
  have h9 : c ≤ '9' ↔ c.toNat ≤ 57 := by rw [Char.le_def, UInt32.le_iff_toNat_le]; rfl
  rw [h0, h9, show '0'.toNat = 48 from rfl]
  unfold digitVal
  split
  · rename_i h
    simp only [Option.some.injEq]
    constructor
    · intro e; exact ⟨h.1, h.2, e.symm⟩
    · intro e; exact e.2.2.symm
  · rename_i h
    constructor
    · intro e; cases e
    · intro e; exact absurd ⟨e.1, e.2.1⟩ h

theorem parseDigits_snoc (acc : Nat) (s : Str) (c : Char) :
    parseDigits acc (s ++ [c]) = (parseDigits acc s).bind (fun n => (digitVal c).map (fun d => n * 10 + d)) := by
  rw [parseDigits_append]
  cases parseDigits acc s with
  | none => rfl
  | some n =>
    simp only [Option.bind_some, parseDigits]
    cases digitVal c <;> rfl

theorem parseNat_iff (s : Str) (n : Nat) : parseNat s = some n ↔ DecimalText s n := by
  constructor
  · intro h
    cases s with
    | nil => cases h
    | cons x s =>
      simp only [parseNat] at h
      have hne : x :: s ≠ [] := by simp
      generalize x :: s = w at h hne
      obtain ⟨k, hk⟩ : ∃ k, w.length = k := ⟨_, rfl⟩
      induction k generalizing w n with
      | zero => exact absurd (List.length_eq_zero_iff.mp hk) hne
      | succ k ih =>
        obtain ⟨u, c, rfl⟩ : ∃ u c, w = u ++ [c] := ⟨w.dropLast, w.getLast hne, (List.dropLast_concat_getLast hne).symm⟩
        rw [parseDigits_snoc] at h
        cases hu : parseDigits 0 u with
        | none => rw [hu] at h; cases h
        | some m =>
          rw [hu, Option.bind_some] at h
          cases hc : digitVal c with
          | none => rw [hc] at h; cases h
          | some d =>
            rw [hc] at h
            simp at h
            obtain ⟨h1, h2, rfl⟩ := (digitVal_iff c d).mp hc
            by_cases he : u = []
            · subst he
              simp [parseDigits] at hu
              subst hu
              subst h
              simpa using DecimalText.digit c h1 h2
            · subst h
              have := DecimalText.more c (ih m u hu he (by simpa using hk)) h1 h2
              rwa [Nat.mul_comm] at this
  · intro h
    have aux : parseDigits 0 s = some n ∧ s ≠ [] := by
      induction h with
      | digit c h1 h2 => exact ⟨by simp [parseDigits, (digitVal_iff c _).mpr ⟨h1, h2, rfl⟩], by simp⟩
      | more c _ h1 h2 ih =>
        refine ⟨?_, by simp⟩
        rw [parseDigits_snoc, ih.1, Option.bind_some, (digitVal_iff c _).mpr ⟨h1, h2, rfl⟩, Option.map_some, Nat.mul_comm]
    cases s with
    | nil => exact absurd rfl aux.2
    | cons x s => exact aux.1

theorem decimal_head {s : Str} {n : Nat} (h : DecimalText s n) : ∃ c r, s = c :: r ∧ '0' ≤ c := by
  induction h with
  | digit c h _ => exact ⟨c, [], rfl, h⟩
  | more c _ _ _ ih =>
    obtain ⟨d, r, rfl, h⟩ := ih
    exact ⟨d, r ++ [c], rfl, h⟩

/-- C70: a text is read as the integer that it stands for, and as nothing else. -/
theorem atoi_exact (s : Str) (i : Int) : atoi s = some i ↔ IntegerText s i := by
  constructor
  · intro h
    have get : ∀ {r : Str} {f : Nat → Int}, (parseNat r).map f = some i → ∃ n, DecimalText r n ∧ f n = i := by
      intro r f h
      cases hp : parseNat r with
      | none => rw [hp] at h; cases h
      | some n =>
        rw [hp] at h
        exact ⟨n, (parseNat_iff _ _).mp hp, by simpa using h⟩
    unfold atoi at h
    split at h
    · obtain ⟨n, hn, rfl⟩ := get h
      exact .minus hn
    · obtain ⟨n, hn, rfl⟩ := get h
      exact .plus hn
    · obtain ⟨n, hn, rfl⟩ := get h
      exact .plain hn
  · intro h
    cases h with
    | minus h => rw [atoi, (parseNat_iff _ _).mpr h]; rfl
    | plus h => rw [atoi, (parseNat_iff _ _).mpr h]; rfl
    | plain h =>
      obtain ⟨c, r, rfl, hc⟩ := decimal_head h
      have hm : c ≠ '-' := by rintro rfl; revert hc; decide
      have hp : c ≠ '+' := by rintro rfl; revert hc; decide
      unfold atoi
      split
      · rename_i e; exact absurd (List.cons.inj e).1 hm
      · rename_i e; exact absurd (List.cons.inj e).1 hp
      · rw [(parseNat_iff _ _).mpr h]; rfl

example : IntegerText c!"-204" (-204) := (atoi_exact _ _).mp (by decide)

end Astra.Props
