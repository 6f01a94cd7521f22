/-
C23 and C70, exactly: which literals are read with their value.
-/
import Verif.Props.Enums
import Verif.Props.Expr
import Verif.Spec.Literals

namespace Astra.Props
open Astra.Spec

/-! ### Strings -/

theorem hex_not_quote {d : Nat} : ¬ Hex '"' d := by
  intro h
  generalize hq : '"' = c at h
  cases h with
  | digit h1 h2 => subst hq; exact absurd h1 (by decide)
  | lower h1 h2 => subst hq; exact absurd h1 (by decide)
  | upper h1 h2 => subst hq; exact absurd h1 (by decide)

theorem number_last {base n : Nat} {ds : Str} (h : Number base ds n) : ds.getLast? ≠ some '"' := by
  cases h with
  | none => simp
  | digit _ hc _ =>
    simp only [List.getLast?_append, List.getLast?_singleton, Option.some_or, ne_eq, Option.some.injEq]
    rintro rfl
    exact hex_not_quote hc

theorem escape_last {e : Str} {n : Nat} (h : Escape e n) : e ≠ [] ∧ (e.getLast? = some '"' → e = ['"'] ∧ n = 34) := by
  have keep : ∀ (c : Char) (ds : Str), ds ≠ [] → (c :: ds).getLast? = ds.getLast? := by
    intro c ds hd
    cases ds with
    | nil => exact absurd rfl hd
    | cons d ds => rw [List.getLast?_cons_cons]
  have ne : ∀ (ds : Str) (k : Nat), ds.length = k + 1 → ds ≠ [] := by
    rintro ds k hl rfl
    cases hl
  cases h with
  | short hm =>
    refine ⟨by simp, fun hl => ?_⟩
    simp only [List.getLast?_singleton, Option.some.injEq] at hl
    subst hl
    simp [goEscapes] at hm
    exact ⟨rfl, hm⟩
  | octal h hl _ => exact ⟨ne _ _ hl, fun hq => absurd hq (number_last h)⟩
  | hex h hl _ => exact ⟨by simp, fun hq => absurd (by rwa [keep _ _ (ne _ _ hl)] at hq) (number_last h)⟩
  | point h hl _ => exact ⟨by simp, fun hq => absurd (by rwa [keep _ _ (ne _ _ hl)] at hq) (number_last h)⟩
  | longPoint h hl _ => exact ⟨by simp, fun hq => absurd (by rwa [keep _ _ (ne _ _ hl)] at hq) (number_last h)⟩

theorem literal_head {text v : Str} (h : Literal text v) : text.head? ≠ some '"' := by
  cases h with
  | empty => simp
  | raw h1 _ _ _ => simpa using h1
  | escape _ _ => simp

theorem literal_plain_or_shorter {text v : Str} (h : Literal text v) : v.length ≤ text.length ∧ ('\\' ∈ text → v.length < text.length) ∧
    ('\\' ∉ text → v = text) := by
  induction h with
  | empty => simp
  | raw h1 h2 h3 _ ih =>
    obtain ⟨a, b, c⟩ := ih
    refine ⟨by simpa using a, fun hm => ?_, fun hm => ?_⟩
    · simp only [List.mem_cons] at hm
      rcases hm with hm | hm
      · exact absurd hm.symm h2
      · simpa using b hm
    · rw [c (fun hh => hm (by simp [hh]))]
  | escape he _ ih =>
    obtain ⟨a, b, c⟩ := ih
    have hlen : 1 ≤ List.length _ := List.length_pos_iff.2 (escape_last he).1
    refine ⟨?_, fun _ => ?_, fun hm => absurd (by simp) hm⟩
    · simp only [List.length_cons, List.length_append]; omega
    · simp only [List.length_cons, List.length_append]; omega

theorem literal_last {text v : Str} (h : Literal text v) (hl : text.getLast? = some '"') :
    ∃ t u, text = t ++ ['\\', '"'] ∧ v = u ++ ['"'] ∧ Literal t u := by
  induction h with
  | empty => simp at hl
  | @raw c text v h1 h2 h3 h ih =>
    cases ht : text with
    | nil => subst ht; simp at hl; exact absurd hl h1
    | cons d ds =>
      rw [ht, List.getLast?_cons_cons, ← ht] at hl
      obtain ⟨t, u, e1, e2, e3⟩ := ih hl
      rw [← ht, e1, e2]
      exact ⟨c :: t, c :: u, rfl, rfl, .raw h1 h2 h3 e3⟩
  | @escape e text v n he h ih =>
    cases ht : text with
    | nil =>
      subst ht
      cases h
      have hne := (escape_last he).1
      have : e.getLast? = some '"' := by
        cases e with
        | nil => exact absurd rfl hne
        | cons d ds => rw [List.append_nil, List.getLast?_cons_cons] at hl; exact hl
      obtain ⟨e1, e2⟩ := (escape_last he).2 this
      subst e1 e2
      exact ⟨[], [], rfl, rfl, .empty⟩
    | cons d ds =>
      have hlt : text.getLast? = some '"' := by
        rw [← List.cons_append, List.getLast?_append] at hl
        rw [ht] at hl ⊢
        rw [List.getLast?_cons] at hl ⊢
        simpa using hl
      obtain ⟨t, u, e1, e2, e3⟩ := ih hlt
      rw [← ht, e1, e2]
      exact ⟨'\\' :: (e ++ t), Char.ofNat n :: u, by simp, rfl, .escape he e3⟩

theorem trimBy_surrounded (m : Str) (k : Nat) (hh : m.head? ≠ some '"') (hl : m.getLast? ≠ some '"') :
    trimBy (fun x => decide (x = '"')) ('"' :: (m ++ List.replicate k '"')) = m := by
  have drop : ∀ (k : Nat) (t : Str), trimLeftBy (fun x => decide (x = '"')) (List.replicate k '"' ++ t) = trimLeftBy (fun x => decide (x = '"')) t := by
    intro k t
    induction k with
    | zero => rfl
    | succ k ih => rw [List.replicate_succ, List.cons_append, trimLeftBy, if_pos (by simp), ih]
  have fix : ∀ t : Str, t.head? ≠ some '"' → trimLeftBy (fun x => decide (x = '"')) t = t := by
    intro t ht
    apply trimLeftBy_fix
    intro c hc
    simp only [decide_eq_false_iff_not]
    rintro rfl
    exact ht hc
  unfold trimBy trimRightBy
  rw [trimLeftBy, if_pos (by simp)]
  cases m with
  | nil =>
    have := drop k []
    rw [List.append_nil] at this
    rw [List.nil_append, this]
    rfl
  | cons c m =>
    rw [fix (c :: m ++ List.replicate k '"') hh, List.reverse_append, List.reverse_replicate, drop, fix, List.reverse_reverse]
    rw [List.head?_reverse]
    exact hl

/-- A string literal is read with its value if and only if it is quoted and has no backslash. -/
theorem string_literal_read {text s : Str} (h : GoString text s) :
    trimBy (fun x => decide (x = '"')) text = s ↔ text.head? = some '"' ∧ '\\' ∉ text := by
  cases h with
  | @quoted body s h =>
    have hb : '\\' ∈ '"' :: (body ++ ['"']) ↔ '\\' ∈ body := by simp
    obtain ⟨_, h2, h3⟩ := literal_plain_or_shorter h
    by_cases hq : body.getLast? = some '"'
    · obtain ⟨t, u, rfl, rfl, ht⟩ := literal_last h hq
      have hm : trimBy (fun x => decide (x = '"')) ('"' :: (t ++ ['\\', '"'] ++ ['"'])) = t ++ ['\\'] := by
        have := trimBy_surrounded (t ++ ['\\']) 2 (by
          have := literal_head h
          cases t with
          | nil => simp
          | cons c t => simpa using this) (by simp)
        simpa [List.replicate] using this
      rw [hm]
      constructor
      · intro e
        have := congrArg List.getLast? e
        simp at this
      · intro hh
        exact absurd (by simp) hh.2
    · rw [show (['"'] : Str) = List.replicate 1 '"' from rfl, trimBy_surrounded body 1 (literal_head h) hq]
      simp only [List.head?_cons, true_and]
      rw [show (List.replicate 1 '"' : Str) = ['"'] from rfl, hb]
      constructor
      · intro e hm
        have := h2 hm
        rw [e] at this
        omega
      · intro hm
        exact (h3 hm).symm
  | raw h1 h2 =>
    simp only [List.head?_cons, Option.some.injEq]
    constructor
    · intro e
      have hq : trimBy (fun x => decide (x = '"')) ('`' :: (s ++ ['`'])) = '`' :: (s ++ ['`']) := by
        unfold trimBy trimRightBy
        rw [trimLeftBy_fix _ ('`' :: (s ++ ['`'])) (by simp), trimLeftBy_fix _ _ (by simp), List.reverse_reverse]
      rw [hq] at e
      have := congrArg List.length e
      simp at this
      omega
    · intro hh
      exact absurd hh.1 (by decide)

/-! ### Integers -/

theorem digitIn_eight {c : Char} {d : Nat} (h : digitIn 8 c = some d) : digitVal c = some d ∧ d < 8 := by
  simp only [digitIn] at h
  generalize hv : (if '0' ≤ c ∧ c ≤ '9' then c.toNat - 48 else if 'a' ≤ c ∧ c ≤ 'f' then c.toNat - 87
    else if 'A' ≤ c ∧ c ≤ 'F' then c.toNat - 55 else 16) = v at h
  by_cases h8 : v < 8
  · rw [if_pos h8] at h
    cases h
    refine ⟨?_, h8⟩
    rw [← digitIn_ten]
    simp only [digitIn, hv]
    rw [if_pos (by omega)]
  · rw [if_neg h8] at h
    cases h

theorem digitVal_zero {c : Char} (h : digitVal c = some 0) : c = '0' := by
  unfold digitVal at h
  split at h
  · rename_i hc
    have : c.toNat = 48 := by
      have := Option.some.inj h
      omega
    rw [← Char.ofNat_toNat c, this]
  · cases h

/-- Read as decimal, octal digits show a number at least as large, and the same one only if all but the last digit are zero. -/
theorem octal_as_decimal {ds : Str} : ∀ {a b n m : Nat}, digitsIn 8 a ds = some n → parseDigits b ds = some m → a ≤ b →
    n ≤ m ∧ (m = n → (ds = [] ∧ a = b) ∨ (a = 0 ∧ b = 0 ∧ ∀ c ∈ ds.dropLast, c = '0')) := by
  induction ds with
  | nil =>
    intro a b n m h1 h2 hab
    simp only [digitsIn, parseDigits, Option.some.injEq] at h1 h2
    subst h1 h2
    exact ⟨hab, fun e => Or.inl ⟨rfl, e.symm⟩⟩
  | cons c cs ih =>
    intro a b n m h1 h2 hab
    simp only [digitsIn] at h1
    cases hc : digitIn 8 c with
    | none => rw [hc] at h1; cases h1
    | some d =>
      rw [hc] at h1
      obtain ⟨hv, _⟩ := digitIn_eight hc
      simp only [parseDigits, hv] at h2
      obtain ⟨i1, i2⟩ := ih h1 h2 (by omega)
      refine ⟨i1, fun e => ?_⟩
      rcases i2 e with ⟨rfl, e'⟩ | ⟨e1, e2, e3⟩
      · right
        exact ⟨by omega, by omega, by simp⟩
      · right
        have hd0 : d = 0 := by omega
        subst hd0
        refine ⟨by omega, by omega, fun x hx => ?_⟩
        cases cs with
        | nil => simp at hx
        | cons y ys =>
          rw [List.dropLast_cons_cons] at hx
          rcases List.mem_cons.1 hx with rfl | hx
          · exact digitVal_zero hv
          · exact e3 x hx

theorem octal_single {ds : Str} : ∀ {n : Nat}, (∀ c ∈ ds.dropLast, c = '0') → digitsIn 8 0 ds = some n → parseDigits 0 ds = some n := by
  induction ds with
  | nil => intro n _ h; exact h
  | cons c cs ih =>
    intro n hz h
    simp only [digitsIn] at h
    cases hc : digitIn 8 c with
    | none => rw [hc] at h; cases h
    | some d =>
      rw [hc] at h
      obtain ⟨hv, _⟩ := digitIn_eight hc
      simp only [parseDigits, hv]
      cases cs with
      | nil => simpa [digitsIn, parseDigits] using h
      | cons y ys =>
        rw [List.dropLast_cons_cons] at hz
        have : c = '0' := hz c (by simp)
        subst this
        have hd0 : d = 0 := by
          have : digitVal '0' = some 0 := by decide
          rw [this] at hv
          exact (Option.some.inj hv).symm
        subst hd0
        simp only [Nat.zero_mul, Nat.zero_add] at h ⊢
        exact ih (fun x hx => hz x (by simp [hx])) h

theorem digit_chars {c : Char} : ('0' ≤ c ∧ c ≤ '9') ↔ (48 ≤ c.toNat ∧ c.toNat ≤ 57) := by
  constructor
  · rintro ⟨h1, h2⟩
    have e1 : ('0' : Char).toNat ≤ c.toNat := h1
    have e2 : c.toNat ≤ ('9' : Char).toNat := h2
    exact ⟨e1, e2⟩
  · rintro ⟨h1, h2⟩
    exact ⟨(show ('0' : Char).toNat ≤ c.toNat from h1), (show c.toNat ≤ ('9' : Char).toNat from h2)⟩

theorem parseNat_digits {text : Str} {n : Nat} (h : parseNat text = some n) : text ≠ [] ∧ ∀ c ∈ text, '0' ≤ c ∧ c ≤ '9' := by
  cases text with
  | nil => cases h
  | cons c t => exact ⟨by simp, fun x hx => digit_chars.2 (parseDigits_all h x hx)⟩

/-- The decimal digits that show the value of an integer literal. -/
theorem parseNat_literal {text : Str} {n : Nat} (h : intLiteral text = some n) :
    parseNat text = some n ↔ PlainDigits text := by
  by_cases hd : text ≠ [] ∧ ∀ c ∈ text, '0' ≤ c ∧ c ≤ '9'
  · have hd' : ∀ c ∈ text, 48 ≤ c.toNat ∧ c.toNat ≤ 57 := fun c hc => digit_chars.1 (hd.2 c hc)
    by_cases hz : ∃ x t, text = '0' :: x :: t
    · obtain ⟨x, t, rfl⟩ := hz
      have hx := hd' x (by simp)
      have h8 : numberIn 8 (x :: t) = some n := by
        unfold intLiteral at h
        rw [filter_digits hd'] at h
        simp only at h
        have nx : ∀ y : Char, 57 < y.toNat → x ≠ y := by
          rintro y hy rfl
          omega
        rw [if_neg (by simp [nx 'x' (by decide), nx 'X' (by decide)]), if_neg (by simp [nx 'b' (by decide), nx 'B' (by decide)]),
          if_neg (by simp [nx 'o' (by decide), nx 'O' (by decide)])] at h
        exact h
      have h8' : digitsIn 8 0 (x :: t) = some n := by simpa [numberIn] using h8
      have hp : parseNat ('0' :: x :: t) = parseDigits 0 (x :: t) := by
        simp only [parseNat, parseDigits, show digitVal '0' = some 0 by decide]
      rw [hp]
      constructor
      · intro e
        refine ⟨by simp, hd.2, fun _ => ?_⟩
        rcases (octal_as_decimal h8' e (Nat.le_refl 0)).2 rfl with ⟨e', _⟩ | ⟨_, _, e'⟩
        · cases e'
        · intro c hc
          rw [List.dropLast_cons_cons] at hc
          rcases List.mem_cons.1 hc with rfl | hc
          · rfl
          · exact e' c hc
      · rintro ⟨_, _, e⟩
        refine octal_single (fun c hc => e (by simp) c ?_) h8'
        rw [List.dropLast_cons_cons]
        exact List.mem_cons_of_mem _ hc
    · have : intLiteral text = parseNat text := intLiteral_decimal hd' (fun x t e => hz ⟨x, t, e⟩)
      rw [← this]
      refine ⟨fun _ => ⟨hd.1, hd.2, fun h0 c hc => ?_⟩, fun _ => h⟩
      cases text with
      | nil => simp at hc
      | cons y ys =>
        cases ys with
        | nil => simp at hc
        | cons z zs =>
          simp only [List.head?_cons, Option.some.injEq] at h0
          subst h0
          exact absurd ⟨z, zs, rfl⟩ hz
  · constructor
    · intro e
      exact absurd (parseNat_digits e) hd
    · rintro ⟨h1, h2, _⟩
      exact absurd ⟨h1, h2⟩ hd

theorem intLiteral_sign {text : Str} {n : Nat} (h : intLiteral text = some n) : ∀ c t, text = c :: t → c ≠ '-' ∧ c ≠ '+' := by
  intro c t he
  subst he
  constructor
  · rintro rfl
    simp only [intLiteral, ne_eq, List.filter_cons] at h
    simp [numberIn, digitsIn, digitIn] at h
  · rintro rfl
    simp only [intLiteral, ne_eq, List.filter_cons] at h
    simp [numberIn, digitsIn, digitIn] at h

theorem atoi_unsigned {text : Str} (h : ∀ c t, text = c :: t → c ≠ '-' ∧ c ≠ '+') : atoi text = (parseNat text).map Int.ofNat := by
  cases text with
  | nil => rfl
  | cons c t =>
    rw [atoi]
    · intro s e; exact (h _ _ e).1 rfl
    · intro s e; exact (h _ _ e).2 rfl

theorem atoi_none_of_char {text : Str} {c : Char} (hc : c ∈ text) (hd : ¬ ('0' ≤ c ∧ c ≤ '9')) (hs : c ≠ '-' ∧ c ≠ '+') :
    parseNat text = none ∧ atoi text = none := by
  have none_of : ∀ t : Str, c ∈ t → parseNat t = none := by
    intro t ht
    cases hp : parseNat t with
    | none => rfl
    | some n => exact absurd ((parseNat_digits hp).2 c ht) hd
  refine ⟨none_of _ hc, ?_⟩
  unfold atoi
  split
  · rename_i s
    rw [none_of s (by rcases List.mem_cons.1 hc with e | h; exact absurd e hs.1; exact h)]; rfl
  · rename_i s
    rw [none_of s (by rcases List.mem_cons.1 hc with e | h; exact absurd e hs.2; exact h)]; rfl
  · rw [none_of _ hc]; rfl

/-- A literal of an integer constant is read with its value if and only if it shows it. -/
theorem int_literal_read {text : Str} {i : Int} (h : WritesInt text i) :
    (atoi text = some i ↔ PlainDigits text) ∧
    ((parseNat text).map Int.ofNat = some i ↔ PlainDigits text) := by
  have other : ∀ c : Char, c ∈ text → ¬ ('0' ≤ c ∧ c ≤ '9') → c ≠ '-' ∧ c ≠ '+' →
      (atoi text = some i ↔ PlainDigits text) ∧
      ((parseNat text).map Int.ofNat = some i ↔ PlainDigits text) := by
    intro c hc hd hs
    obtain ⟨h1, h2⟩ := atoi_none_of_char hc hd hs
    rw [h1, h2]
    constructor
    · exact ⟨(fun e => by cases e), fun e => absurd (e.2.1 c hc) hd⟩
    · exact ⟨(fun e => by cases e), fun e => absurd (e.2.1 c hc) hd⟩
  cases h with
  | @int text n h =>
    have key : (parseNat text).map Int.ofNat = some (Int.ofNat n) ↔ parseNat text = some n := by
      cases parseNat text with
      | none => simp
      | some m => simp [Int.ofNat_inj]
    rw [atoi_unsigned (intLiteral_sign h), key]
    exact ⟨parseNat_literal h, parseNat_literal h⟩
  | rune => exact other '\'' (by simp) (by decide) (by decide)
  | float hc hm =>
    simp only [List.mem_cons, List.not_mem_nil, or_false] at hm
    rcases hm with rfl | rfl | rfl | rfl | rfl
    · exact other '.' hc (by decide) (by decide)
    · exact other 'e' hc (by decide) (by decide)
    · exact other 'E' hc (by decide) (by decide)
    · exact other 'p' hc (by decide) (by decide)
    · exact other 'P' hc (by decide) (by decide)

/-! ### Enums -/

/-- C23: a literal for a constant of a string or integer type is listed with its value if and only if it shows it: it is a quoted string
without backslash, or decimal digits without leading zeros that make it octal. -/
theorem enum_literal_exact (Γ : TypeEnv) (kind : BasicKind) (text : Str) (v : EnumVal) (h : Writes kind text v) :
    enumLit Γ kind text = some v ↔ LiteralShows kind text := by
  have key : ∀ (o : Option Int) (i : Int), o.map EnumVal.int = some (EnumVal.int i) ↔ o = some i := by
    intro o i
    cases o <;> simp
  cases kind <;> cases v <;> simp only [Writes] at h
  · rw [enumLit, Option.some.injEq, EnumVal.str.injEq, string_literal_read h]
    exact Iff.rfl
  · rw [enumLit, key]
    exact (int_literal_read h).1
  · rw [enumLit, key]
    exact (int_literal_read h).1
  · refine Iff.trans ?_ (int_literal_read h).2
    rw [enumLit, ← key, Option.map_map]
    exact Iff.rfl

theorem enumSpec_block (Γ : TypeEnv) (kind : BasicKind) (n : Str) (s : ConstSpec) (h : Declares kind n s) :
    (enumSpec Γ kind n s).length ≤ ((s.truth.filter (fun c => c.1 = n)).map (·.2)).length ∧
    (enumSpec Γ kind n s = (s.truth.filter (fun c => c.1 = n)).map (·.2) ↔ ShownPlainly kind n s) := by
  unfold enumSpec
  by_cases ht : s.typeIdent = some n
  · obtain ⟨vs, h1, h2, h3⟩ := h ht
    have hsp : ShownPlainly kind n s ↔ ∀ x ∈ vs, ∃ text, x.1 = .lit text ∧ LiteralShows kind text := by
      unfold ShownPlainly
      rw [h1]
      constructor
      · intro hh x hx
        exact hh.1 ht x.1 (List.mem_map_of_mem hx)
      · intro hh
        refine ⟨fun _ v hv => ?_, fun hn => absurd ht hn⟩
        obtain ⟨x, hx, rfl⟩ := List.mem_map.1 hv
        exact hh x hx
    have htr : (s.truth.filter (fun c => c.1 = n)).map (·.2) = vs.map (·.2) := by
      rw [h2, List.filter_eq_self.2, List.map_map]
      · rfl
      · intro c hc
        obtain ⟨x, _, rfl⟩ := List.mem_map.1 hc
        simp
    rw [if_pos ht, htr, h1, hsp]
    clear h1 h2 hsp htr h ht
    induction vs with
    | nil => simp
    | cons x vs ih =>
      obtain ⟨i1, i2⟩ := ih (fun y hy => h3 y (by simp [hy]))
      obtain ⟨e, v⟩ := x
      cases e with
      | other =>
        simp only [List.map_cons, List.filterMap_cons, List.length_cons, List.mem_cons, forall_eq_or_imp]
        refine ⟨by omega, fun he => ?_, fun hh => ?_⟩
        · have := congrArg List.length he
          simp only [List.length_cons] at this
          omega
        · obtain ⟨t, ht, _⟩ := hh.1
          cases ht
      | lit text =>
        have hx := enum_literal_exact Γ kind text v (h3 (.lit text, v) (by simp) text rfl)
        simp only [List.map_cons, List.filterMap_cons, List.length_cons, List.mem_cons, forall_eq_or_imp]
        cases hl : enumLit Γ kind text with
        | none =>
          rw [hl] at hx
          simp only
          refine ⟨by omega, fun he => ?_, fun hh => ?_⟩
          · have := congrArg List.length he
            simp only [List.length_cons] at this
            omega
          · obtain ⟨t, ht, hs⟩ := hh.1
            cases ht
            exact absurd (hx.2 hs) (by simp)
        | some w =>
          rw [hl] at hx
          simp only [List.length_cons, List.cons.injEq]
          refine ⟨by omega, fun he => ?_, fun hh => ?_⟩
          · exact ⟨⟨text, rfl, hx.1 (by rw [he.1])⟩, i2.1 he.2⟩
          · obtain ⟨t, ht, hs⟩ := hh.1
            cases ht
            exact ⟨Option.some.inj (hx.2 hs), i2.2 hh.2⟩
  · rw [if_neg ht]
    refine ⟨by simp, ?_⟩
    unfold ShownPlainly
    constructor
    · intro e
      refine ⟨fun h => absurd h ht, fun _ c hc hcn => ?_⟩
      have : c.2 ∈ (s.truth.filter (fun c => c.1 = n)).map (·.2) := List.mem_map_of_mem (List.mem_filter.2 ⟨hc, by simp [hcn]⟩)
      rw [← e] at this
      simp at this
    · intro hh
      have : s.truth.filter (fun c => c.1 = n) = [] := by
        rw [List.filter_eq_nil_iff]
        intro c hc
        simp [hh.2 ht c hc]
      rw [this]
      rfl

/-- C23, exactly: the enum values of a string, integer or boolean type are the constants that the package declares of it, in source order,
if and only if every one of these is written as a literal that shows its value, after the name of the type. -/
theorem enum_values_exact (Γ : TypeEnv) (pkg : Str) (kind : BasicKind) (n : Str)
    (h : ∀ d ∈ (Γ.files pkg).flatten, ∀ s ∈ constSpecs d, Declares kind n s) :
    enumValuesOf Γ pkg kind n = declaredConstants (Γ.files pkg) n ↔
      ∀ d ∈ (Γ.files pkg).flatten, ∀ s ∈ constSpecs d, ShownPlainly kind n s := by
  unfold enumValuesOf declaredConstants
  have h' : ∀ s ∈ (Γ.files pkg).flatten.flatMap constSpecs, Declares kind n s := by
    intro s hs
    obtain ⟨d, hd, hs⟩ := List.mem_flatMap.1 hs
    exact h d hd s hs
  have hr : (∀ d ∈ (Γ.files pkg).flatten, ∀ s ∈ constSpecs d, ShownPlainly kind n s) ↔
      ∀ s ∈ (Γ.files pkg).flatten.flatMap constSpecs, ShownPlainly kind n s := by
    constructor
    · intro hh s hs
      obtain ⟨d, hd, hs⟩ := List.mem_flatMap.1 hs
      exact hh d hd s hs
    · intro hh d hd s hs
      exact hh s (List.mem_flatMap.2 ⟨d, hd, hs⟩)
  rw [hr, ← List.flatMap_def, ← List.flatMap_def]
  generalize (Γ.files pkg).flatten.flatMap constSpecs = l at h'
  suffices hs : (l.flatMap (enumSpec Γ kind n)).length ≤ (l.flatMap (fun s => (s.truth.filter (fun c => c.1 = n)).map (·.2))).length ∧
      (l.flatMap (enumSpec Γ kind n) = l.flatMap (fun s => (s.truth.filter (fun c => c.1 = n)).map (·.2)) ↔ ∀ s ∈ l, ShownPlainly kind n s) from hs.2
  induction l with
  | nil => simp
  | cons s l ih =>
    obtain ⟨i1, i2⟩ := ih (fun x hx => h' x (by simp [hx]))
    obtain ⟨b1, b2⟩ := enumSpec_block Γ kind n s (h' s (by simp))
    rw [List.flatMap_cons, List.flatMap_cons]
    refine ⟨by rw [List.length_append, List.length_append]; omega, fun he => ?_, fun hh => ?_⟩
    · have hl := congrArg List.length he
      rw [List.length_append, List.length_append] at hl
      obtain ⟨e1, e2⟩ := List.append_inj he (by omega)
      intro x hx
      rcases List.mem_cons.1 hx with rfl | hx
      · exact b2.1 e1
      · exact i2.1 e2 x hx
    · rw [b2.2 (hh s (by simp)), i2.2 (fun x hx => hh x (by simp [hx]))]

/-- A package with `type Status string` and constants whose literals do not all show their value: `"open"`, `"a\tb"`, and one declared by
conversion. -/
def mixedSpecs : List ConstSpec := [
  { typeIdent := some c!"Status", values := [.lit c!"\"open\""], truth := [(c!"Status", .str c!"open")] },
  { typeIdent := some c!"Status", values := [.lit c!"\"a\\tb\"", .other], truth := [(c!"Status", .str c!"a\tb"), (c!"Status", .str c!"c")] },
  { truth := [(c!"Status", .str c!"d")] }]

theorem mixed_declares : ∀ d ∈ ((statusEnv [[.const mixedSpecs]]).files c!"p").flatten, ∀ s ∈ constSpecs d, Declares .string c!"Status" s := by
  intro d hd s hs
  simp only [statusEnv, List.flatten_cons, List.flatten_nil, List.append_nil, List.mem_cons, List.not_mem_nil, or_false] at hd
  subst hd
  simp only [constSpecs, mixedSpecs, List.mem_cons, List.not_mem_nil, or_false] at hs
  have tab : Escape ['t'] 9 := .short (by decide)
  have hb : Literal c!"b" c!"b" := .raw (by decide) (by decide) (by decide) .empty
  rcases hs with rfl | rfl | rfl
  · refine fun _ => ⟨[(.lit c!"\"open\"", .str c!"open")], rfl, rfl, ?_⟩
    intro x hx text ht
    simp only [List.mem_cons, List.not_mem_nil, or_false] at hx
    subst hx
    cases ht
    exact .quoted (.raw (by decide) (by decide) (by decide) (.raw (by decide) (by decide) (by decide)
      (.raw (by decide) (by decide) (by decide) (.raw (by decide) (by decide) (by decide) .empty))))
  · refine fun _ => ⟨[(.lit c!"\"a\\tb\"", .str c!"a\tb"), (.other, .str c!"c")], rfl, rfl, ?_⟩
    intro x hx text ht
    simp only [List.mem_cons, List.not_mem_nil, or_false] at hx
    rcases hx with rfl | rfl
    · cases ht
      exact .quoted (.raw (by decide) (by decide) (by decide) (.escape tab hb))
    · cases ht
  · intro h
    cases h

example : ShownPlainly .string c!"Status" ⟨some c!"Status", [.lit c!"\"open\""], [(c!"Status", .str c!"open")]⟩ :=
  ⟨(fun _ v hv => by
    simp only [List.mem_cons, List.not_mem_nil, or_false] at hv
    exact ⟨_, hv, by decide, by decide⟩), fun h => absurd rfl h⟩
example : Writes .uint c!"007" (.int 7) ∧ LiteralShows .uint c!"007" ∧ Writes .int c!"0x1F" (.int 31) ∧ ¬ LiteralShows .int c!"0x1F" ∧
    Writes .sizedInt c!"1_000" (.int 1000) ∧ Writes .sizedInt c!"'a'" (.int 97) :=
  ⟨.int (n := 7) (by decide), ⟨by decide, by decide, by decide⟩, .int (n := 31) (by decide), (fun h => absurd (h.2.1 'x' (by decide)) (by decide)),
    .int (n := 1000) (by decide), .rune⟩

/-! ### Arguments -/

/-- C70, exactly, for literals: the status code that is documented for an integer literal is its value if and only if the literal is
decimal digits without leading zeros that make it octal. -/
theorem status_literal_exact (E : ExprEnv) (file : FileId) (id : NodeId) (text : Str) (n k : Nat) (h : intLiteral text = some n) :
    extractStatusCode (argView E file (k + 1) (.lit id .int text)) = .ok (Int.ofNat n) ↔ PlainDigits text := by
  rw [← (int_literal_read (.int h)).1]
  have hv : (argView E file (k + 1) (.lit id .int text)).value = .ok text := by
    simp only [argView, exprValue]
    rfl
  simp only [extractStatusCode, hv]
  cases atoi text with
  | none => simp
  | some i => simp

/-- C70, exactly, for literals: the name that is documented for a string literal is its value if and only if the literal is quoted and
has no backslash. -/
theorem name_literal_exact (E : ExprEnv) (file : FileId) (id : NodeId) (text s : Str) (k : Nat) (h : GoString text s) :
    (argView E file (k + 1) (.lit id .string text)).value = .ok s ↔ text.head? = some '"' ∧ '\\' ∉ text := by
  rw [← string_literal_read h]
  have hv : (argView E file (k + 1) (.lit id .string text)).value = .ok (trimBy (fun x => decide (x = '"')) text) := by
    simp only [argView, exprValue, if_true]
  rw [hv]
  exact ⟨fun e => by cases e; rfl, fun e => by rw [e]⟩

example : intLiteral c!"404" = some 404 ∧ PlainDigits c!"404" ∧ intLiteral c!"0624" = some 404 ∧ ¬ PlainDigits c!"0624" :=
  ⟨by decide, ⟨by decide, by decide, by decide⟩, by decide, (fun h => absurd (h.2.2 (by decide) '6' (by decide)) (by decide))⟩

end Astra.Props
