/-
Helper lemmas about the type traversal.
-/
import Verif.Lemmas.Basic
import Verif.Model.TypeTraversal

namespace Astra

/-- Induction over Go types, with the field types of a struct as premises. -/
theorem goType_induction {P : GoType → Prop}
    (basic : ∀ k n, P (.basic k n)) (named : ∀ p n a, P (.named p n a)) (pointer : ∀ e, P e → P (.pointer e))
    (slice : ∀ e, P e → P (.slice e)) (array : ∀ l e, P e → P (.array l e)) (map : ∀ k v, P k → P v → P (.map k v))
    (struct : ∀ fs : List (StructField × GoType), (∀ e ∈ fs, P e.2) → P (.struct fs))
    (interface : P .interface) (other : P .other) : ∀ t, P t
  | .basic k n => basic k n
  | .named p n a => named p n a
  | .pointer e => pointer e (goType_induction basic named pointer slice array map struct interface other e)
  | .slice e => slice e (goType_induction basic named pointer slice array map struct interface other e)
  | .array l e => array l e (goType_induction basic named pointer slice array map struct interface other e)
  | .map k v => map k v (goType_induction basic named pointer slice array map struct interface other k)
      (goType_induction basic named pointer slice array map struct interface other v)
  | .struct fs => struct fs (go fs)
  | .interface => interface
  | .other => other
where
  go : ∀ (fs : List (StructField × GoType)), ∀ e ∈ fs, P e.2
    | [], _, he => by simp at he
    | (f, t) :: r, e, he => by
      simp only [List.mem_cons] at he
      rcases he with rfl | he
      · exact goType_induction basic named pointer slice array map struct interface other t
      · exact go r e he

/-- A recursion callback for the underlying types. -/
abbrev TRec := List Field → Option Str → Str → GoType → TOut Result

theorem finishResult_ok {name : Str} {r r' : Result} (h : finishResult name r = .ok r') :
    r.type ≠ [] ∧ r' = if name ≠ [] then { r with name := name } else r := by
  unfold finishResult at h
  split at h
  · rename_i h1; exact ⟨h1, (Res.ok.inj h).symm⟩
  · cases h

/-- The traversal is monotone in the callback. -/
theorem typeStep_mono (Γ : TypeEnv) (adding : Bool) (rec rec' : TRec)
    (h : ∀ st p n t o, rec st p n t = some o → rec' st p n t = some o) (t : GoType) :
    ∀ st p n o, typeStep Γ adding rec st p n t = some o → typeStep Γ adding rec' st p n t = some o := by
  induction t using goType_induction with
  | basic k tn => intro st p n o ho; simpa only [typeStep] using ho
  | named p tn a =>
    intro st pk n o ho
    cases p with
    | none => simpa only [typeStep] using ho
    | some p =>
      simp only [typeStep] at ho ⊢
      split at ho
      · rename_i hl; rw [if_pos hl]; exact ho
      · rename_i hl
        rw [if_neg hl]
        split at ho
        · rename_i ha
          rw [if_pos ha]
          cases hr : rec st (some p) tn (Γ.underlying p tn a) with
          | none => rw [hr] at ho; cases ho
          | some x => rw [hr] at ho; rw [h _ _ _ _ _ hr]; exact ho
        · rename_i ha; rw [if_neg ha]; exact ho
  | pointer e ih => intro st p n o ho; simp only [typeStep] at ho ⊢; exact ih _ _ _ _ ho
  | slice e ih =>
    intro st p n o ho
    simp only [typeStep] at ho ⊢
    cases hr : typeStep Γ adding rec st p [] e with
    | none => rw [hr] at ho; cases ho
    | some x => rw [hr] at ho; rw [ih _ _ _ _ hr]; exact ho
  | array l e ih =>
    intro st p n o ho
    simp only [typeStep] at ho ⊢
    cases hr : typeStep Γ adding rec st p [] e with
    | none => rw [hr] at ho; cases ho
    | some x => rw [hr] at ho; rw [ih _ _ _ _ hr]; exact ho
  | map k v ihk ihv =>
    intro st p n o ho
    simp only [typeStep] at ho ⊢
    cases hr : typeStep Γ adding rec st p [] k with
    | none => rw [hr] at ho; cases ho
    | some x =>
      rw [hr] at ho; rw [ihk _ _ _ _ hr]
      obtain ⟨st', res⟩ := x
      cases res with
      | err e => exact ho
      | panic m => exact ho
      | ok kr =>
        simp only at ho ⊢
        cases hv : typeStep Γ adding rec st' p [] v with
        | none => rw [hv] at ho; cases ho
        | some y => rw [hv] at ho; rw [ihv _ _ _ _ hv]; exact ho
  | struct fs ih =>
    intro st p n o ho
    have hs : ∀ (fs : List (StructField × GoType)), (∀ e ∈ fs, ∀ st p n o, typeStep Γ adding rec st p n e.2 = some o →
        typeStep Γ adding rec' st p n e.2 = some o) → ∀ st p acc o, structStep Γ adding rec st p acc fs = some o →
        structStep Γ adding rec' st p acc fs = some o := by
      intro fs
      induction fs with
      | nil => intro _ st p acc o ho; simpa only [structStep] using ho
      | cons e fs ihf =>
        obtain ⟨f, t⟩ := e
        intro hm st p acc o ho
        have ihf := ihf (fun e he => hm e (by simp [he]))
        simp only [structStep] at ho ⊢
        split at ho
        · rename_i hx; rw [if_pos hx]; exact ihf _ _ _ _ ho
        · rename_i hx
          rw [if_neg hx]
          cases hr : typeStep Γ adding rec st p [] t with
          | none => rw [hr] at ho; cases ho
          | some x =>
            rw [hr] at ho; rw [hm (f, t) (by simp) _ _ _ _ hr]
            obtain ⟨st', res⟩ := x
            cases res with
            | err e => exact ho
            | panic m => exact ho
            | ok r =>
              simp only at ho ⊢
              cases hd : fieldDoc Γ r f.pos with
              | err e => rw [hd] at ho; exact ho
              | panic m => rw [hd] at ho; exact ho
              | ok doc => rw [hd] at ho; exact ihf _ _ _ _ ho
    simp only [typeStep] at ho ⊢
    cases hr : structStep Γ adding rec st p [] fs with
    | none => rw [hr] at ho; cases ho
    | some x => rw [hr] at ho; rw [hs fs ih _ _ _ _ hr]; exact ho
  | interface => intro st p n o ho; simpa only [typeStep] using ho
  | other => intro st p n o ho; simpa only [typeStep] using ho

/-- More fuel does not change an outcome. -/
theorem typeResult_mono (Γ : TypeEnv) (adding : Bool) (k : Nat) :
    ∀ st p n t o, typeResult Γ adding k st p n t = some o → typeResult Γ adding (k + 1) st p n t = some o := by
  induction k with
  | zero =>
    intro st p n t o h
    simp only [typeResult] at h ⊢
    exact typeStep_mono Γ adding _ _ (fun _ _ _ _ _ h => by cases h) t _ _ _ _ h
  | succ k ih =>
    intro st p n t o h
    rw [typeResult.eq_2] at h ⊢
    exact typeStep_mono Γ adding _ _ ih t _ _ _ _ h

theorem typeResult_le (Γ : TypeEnv) (adding : Bool) {k k' : Nat} (hk : k ≤ k') {st : List Field} {p : Option Str} {n : Str}
    {t : GoType} {o : List Field × Res Result} (h : typeResult Γ adding k st p n t = some o) :
    typeResult Γ adding k' st p n t = some o := by
  induction hk with
  | refl => exact h
  | step _ ih => exact typeResult_mono Γ adding _ _ _ _ _ _ ih

end Astra
