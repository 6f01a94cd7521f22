/-
C18-C21: translation of Go types.
-/
import Verif.Lemmas.TypeTraversal
import Verif.Spec.Types
import Verif.Props.SafePushing

namespace Astra.Props
open Astra.Spec

/-- The outcome of a translation is unique. -/
theorem translates_unique (Γ : TypeEnv) (st : List Field) (pkg : Option Str) (t : GoType) (o o' : List Field × Res Result)
    (h : Translates Γ st pkg t o) (h' : Translates Γ st pkg t o') : o = o' := by
  obtain ⟨k, hk⟩ := h
  obtain ⟨k', hk'⟩ := h'
  have h1 := typeResult_le Γ true (Nat.le_max_left k k') hk
  have h2 := typeResult_le Γ true (Nat.le_max_right k k') hk'
  rw [h1] at h2
  exact Option.some.inj h2

/-! ### C18: termination -/

/-- If the callback always answers for the names that occur, the traversal answers. -/
theorem typeStep_total (Γ : TypeEnv) (rec : TRec) (t : GoType)
    (h : ∀ p n a, Occurs t (p, n, a) → ∀ st, rec st (some p) n (Γ.underlying p n a) ≠ none) :
    ∀ st pkg name, typeStep Γ true rec st pkg name t ≠ none := by
  induction t using goType_induction with
  | basic k tn => intro st pkg name; simp only [typeStep]; split <;> (try split) <;> (try split) <;> simp
  | named p tn a =>
    intro st pkg name
    cases p with
    | none => simp [typeStep]
    | some p =>
      simp only [typeStep, if_true]
      split
      · simp
      · cases hr : rec st (some p) tn (Γ.underlying p tn a) with
        | none => exact absurd hr (h p tn a (.named p tn a) st)
        | some x =>
          obtain ⟨st', res⟩ := x
          cases res <;> simp
  | pointer e ih => intro st pkg name; simp only [typeStep]; exact ih (fun p n a ho => h p n a (.pointer ho)) _ _ _
  | slice e ih =>
    intro st pkg name
    simp only [typeStep]
    have := ih (fun p n a ho => h p n a (.slice ho)) st pkg []
    cases hr : typeStep Γ true rec st pkg [] e with
    | none => exact absurd hr this
    | some x => obtain ⟨st', res⟩ := x; cases res <;> simp
  | array l e ih =>
    intro st pkg name
    simp only [typeStep]
    have := ih (fun p n a ho => h p n a (.array ho)) st pkg []
    cases hr : typeStep Γ true rec st pkg [] e with
    | none => exact absurd hr this
    | some x => obtain ⟨st', res⟩ := x; cases res <;> simp
  | map k v ihk ihv =>
    intro st pkg name
    simp only [typeStep]
    have hk := ihk (fun p n a ho => h p n a (.key ho)) st pkg []
    cases hr : typeStep Γ true rec st pkg [] k with
    | none => exact absurd hr hk
    | some x =>
      obtain ⟨st', res⟩ := x
      cases res with
      | err e => simp
      | panic m => simp
      | ok kr =>
        simp only
        have hv := ihv (fun p n a ho => h p n a (.value ho)) st' pkg []
        cases hr' : typeStep Γ true rec st' pkg [] v with
        | none => exact absurd hr' hv
        | some y => obtain ⟨st'', res'⟩ := y; cases res' <;> simp
  | struct fs ih =>
    intro st pkg name
    have hs : ∀ (l : List (StructField × GoType)), (∀ e ∈ l, e ∈ fs) → ∀ st acc,
        structStep Γ true rec st pkg acc l ≠ none := by
      intro l
      induction l with
      | nil => intro _ st acc; simp [structStep]
      | cons e l ihl =>
        obtain ⟨f, t⟩ := e
        intro hl st acc
        simp only [structStep]
        split
        · exact ihl (fun e he => hl e (by simp [he])) _ _
        · rename_i hx
          have hexp : f.exported = true := by simpa using hx
          have ht := ih (f, t) (hl _ (by simp)) (fun p n a ho => h p n a (.field (hl (f, t) (by simp)) hexp ho)) st pkg []
          cases hr : typeStep Γ true rec st pkg [] t with
          | none => exact absurd hr ht
          | some x =>
            obtain ⟨st', res⟩ := x
            cases res with
            | err e => simp
            | panic m => simp
            | ok r =>
              simp only
              cases fieldDoc Γ r f.pos with
              | err e => simp
              | panic m => simp
              | ok d => exact ihl (fun e he => hl e (by simp [he])) _ _
    simp only [typeStep]
    have := hs fs (fun _ h => h) st []
    cases hr : structStep Γ true rec st pkg [] fs with
    | none => exact absurd hr this
    | some x => obtain ⟨st', res⟩ := x; cases res <;> simp
  | interface => intro st pkg name; simp [typeStep]
  | other => intro st pkg name; simp [typeStep]

/-- C18, partial: the translation of a type ends (with a result, an error or a panic) whenever the definitions it uses
are not recursive: there is a rank that decreases along `Uses` on the named types in question. Missing: recursive types,
for which it fails (below). -/
theorem translation_terminates_partial (Γ : TypeEnv) (S : TName → Prop) (rank : TName → Nat)
    (hS : ∀ x y, S x → Uses Γ x y → S y ∧ rank y < rank x) (t : GoType) (ht : ∀ x, Occurs t x → S x)
    (st : List Field) (pkg : Option Str) : ∃ o, Translates Γ st pkg t o := by
  have key : ∀ k t, (∀ x, Occurs t x → S x ∧ rank x < k) → ∀ st pkg name, typeResult Γ true k st pkg name t ≠ none := by
    intro k
    induction k with
    | zero =>
      intro t h st pkg name
      simp only [typeResult]
      apply typeStep_total
      intro p n a ho
      exact absurd (h _ ho).2 (by omega)
    | succ k ih =>
      intro t h st pkg name
      simp only [typeResult]
      apply typeStep_total
      intro p n a ho st
      obtain ⟨h1, h2⟩ := h _ ho
      apply ih
      intro y hy
      obtain ⟨g1, g2⟩ := hS (p, n, a) y h1 hy
      exact ⟨g1, by omega⟩
  -- the names that occur in `t` are finitely many, so their ranks are bounded
  have bound : ∀ t : GoType, ∃ b, ∀ x, Occurs t x → rank x < b := by
    intro t
    induction t using goType_induction with
    | basic k n => exact ⟨0, fun x h => by cases h⟩
    | named p n a =>
      cases p with
      | none => exact ⟨0, fun x h => by cases h⟩
      | some p => exact ⟨rank (p, n, a) + 1, fun x h => by cases h; omega⟩
    | pointer e ih => obtain ⟨b, hb⟩ := ih; exact ⟨b, fun x h => by cases h with | pointer h => exact hb x h⟩
    | slice e ih => obtain ⟨b, hb⟩ := ih; exact ⟨b, fun x h => by cases h with | slice h => exact hb x h⟩
    | array l e ih => obtain ⟨b, hb⟩ := ih; exact ⟨b, fun x h => by cases h with | array h => exact hb x h⟩
    | map k v ihk ihv =>
      obtain ⟨b, hb⟩ := ihk
      obtain ⟨c, hc⟩ := ihv
      refine ⟨b + c, fun x h => ?_⟩
      cases h with
      | key h => have := hb x h; omega
      | value h => have := hc x h; omega
    | struct fs ih =>
      have : ∀ l : List (StructField × GoType), (∀ e ∈ l, e ∈ fs) → ∃ b, ∀ e ∈ l, ∀ x, Occurs e.2 x → rank x < b := by
        intro l
        induction l with
        | nil => intro _; exact ⟨0, fun e he => by simp at he⟩
        | cons e l ihl =>
          intro hl
          obtain ⟨b, hb⟩ := ihl (fun e he => hl e (by simp [he]))
          obtain ⟨c, hc⟩ := ih e (hl e (by simp))
          refine ⟨b + c, fun e' he' x hx => ?_⟩
          simp only [List.mem_cons] at he'
          rcases he' with rfl | he'
          · have := hc x hx; omega
          · have := hb e' he' x hx; omega
      obtain ⟨b, hb⟩ := this fs (fun _ h => h)
      refine ⟨b, fun x h => ?_⟩
      cases h with
      | field hm _ ho => exact hb _ hm x ho
    | interface => exact ⟨0, fun x h => by cases h⟩
    | other => exact ⟨0, fun x h => by cases h⟩
  obtain ⟨b, hb⟩ := bound t
  have h := key b t (fun x hx => ⟨ht x hx, hb x hx⟩) st pkg []
  cases hr : typeResult Γ true b st pkg [] t with
  | none => exact absurd hr h
  | some o => exact ⟨o, b, hr⟩

/-- If a translation succeeds, the callback succeeded for every name that occurs. -/
theorem typeStep_ok_occurs (Γ : TypeEnv) (rec : TRec) (t : GoType) (p n a : Str) (ho : Occurs t (p, n, a)) :
    ∀ st pkg name st' r, typeStep Γ true rec st pkg name t = some (st', .ok r) →
      ∃ st1 st2 r2, rec st1 (some p) n (Γ.underlying p n a) = some (st2, .ok r2) := by
  induction t using goType_induction with
  | basic k tn => cases ho
  | named q tn b =>
    intro st pkg name st' r h
    cases ho
    simp only [typeStep, if_true] at h
    split at h
    · cases h
    · cases hr : rec st (some p) n (Γ.underlying p n a) with
      | none => rw [hr] at h; cases h
      | some x =>
        obtain ⟨s2, res⟩ := x
        rw [hr] at h
        cases res with
        | err e => simp at h
        | panic m => simp at h
        | ok r2 => exact ⟨st, s2, r2, hr⟩
  | pointer e ih => intro st pkg name st' r h; cases ho with | pointer ho => simp only [typeStep] at h; exact ih ho _ _ _ _ _ h
  | slice e ih =>
    intro st pkg name st' r h
    cases ho with
    | slice ho =>
      simp only [typeStep] at h
      cases hr : typeStep Γ true rec st pkg [] e with
      | none => rw [hr] at h; cases h
      | some x =>
        obtain ⟨s2, res⟩ := x
        rw [hr] at h
        cases res with
        | err e => simp at h
        | panic m => simp at h
        | ok r2 => exact ih ho _ _ _ _ _ hr
  | array l e ih =>
    intro st pkg name st' r h
    cases ho with
    | array ho =>
      simp only [typeStep] at h
      cases hr : typeStep Γ true rec st pkg [] e with
      | none => rw [hr] at h; cases h
      | some x =>
        obtain ⟨s2, res⟩ := x
        rw [hr] at h
        cases res with
        | err e => simp at h
        | panic m => simp at h
        | ok r2 => exact ih ho _ _ _ _ _ hr
  | map k v ihk ihv =>
    intro st pkg name st' r h
    simp only [typeStep] at h
    cases hr : typeStep Γ true rec st pkg [] k with
    | none => rw [hr] at h; cases h
    | some x =>
      obtain ⟨s2, res⟩ := x
      rw [hr] at h
      cases res with
      | err e => simp at h
      | panic m => simp at h
      | ok kr =>
        simp only at h
        cases hv : typeStep Γ true rec s2 pkg [] v with
        | none => rw [hv] at h; cases h
        | some y =>
          obtain ⟨s3, res'⟩ := y
          rw [hv] at h
          cases res' with
          | err e => simp at h
          | panic m => simp at h
          | ok vr =>
            cases ho with
            | key ho => exact ihk ho _ _ _ _ _ hr
            | value ho => exact ihv ho _ _ _ _ _ hv
  | struct fs ih =>
    intro st pkg name st' r h
    cases ho with
    | field hm hexp ho =>
      rename_i f t
      have hs : ∀ (l : List (StructField × GoType)), (∀ e ∈ l, e ∈ fs) → (f, t) ∈ l → ∀ st acc st' out,
          structStep Γ true rec st pkg acc l = some (st', .ok out) →
          ∃ st1 st2 r2, rec st1 (some p) n (Γ.underlying p n a) = some (st2, .ok r2) := by
        intro l
        induction l with
        | nil => intro _ hm; simp at hm
        | cons e l ihl =>
          obtain ⟨g, u⟩ := e
          intro hl hm st acc st' out h
          simp only [structStep] at h
          split at h
          · rename_i hx
            simp only [List.mem_cons, Prod.mk.injEq] at hm
            rcases hm with ⟨rfl, _⟩ | hm
            · rw [hexp] at hx; cases hx
            · exact ihl (fun e he => hl e (by simp [he])) hm _ _ _ _ h
          · cases hr : typeStep Γ true rec st pkg [] u with
            | none => rw [hr] at h; cases h
            | some x =>
              obtain ⟨s2, res⟩ := x
              rw [hr] at h
              cases res with
              | err e => simp at h
              | panic m => simp at h
              | ok r2 =>
                simp only [List.mem_cons, Prod.mk.injEq] at hm
                rcases hm with ⟨rfl, rfl⟩ | hm
                · exact ih (f, t) (hl _ (by simp)) ho _ _ _ _ _ hr
                · simp only at h
                  cases hd : fieldDoc Γ r2 g.pos with
                  | err e => rw [hd] at h; simp at h
                  | panic m => rw [hd] at h; simp at h
                  | ok d =>
                    rw [hd] at h
                    exact ihl (fun e he => hl e (by simp [he])) hm _ _ _ _ h
      simp only [typeStep] at h
      cases hr : structStep Γ true rec st pkg [] fs with
      | none => rw [hr] at h; cases h
      | some x =>
        obtain ⟨s2, res⟩ := x
        rw [hr] at h
        cases res with
        | err e => simp at h
        | panic m => simp at h
        | ok out => exact hs fs (fun _ h => h) hm _ _ _ _ hr
  | interface => cases ho
  | other => cases ho

/-- The definition of `x` is translated successfully within `k` nested definitions. -/
def OkAt (Γ : TypeEnv) (k : Nat) (x : TName) : Prop :=
  ∃ st st' r, typeResult Γ true k st (some x.1) x.2.1 (Γ.underlying x.1 x.2.1 x.2.2) = some (st', .ok r)

theorem okAt_uses {Γ : TypeEnv} {k : Nat} {x y : TName} (h : OkAt Γ k x) (hu : Uses Γ x y) : ∃ k', k' < k ∧ OkAt Γ k' y := by
  obtain ⟨st, st', r, h⟩ := h
  obtain ⟨p, n, a⟩ := y
  cases k with
  | zero =>
    simp only [typeResult] at h
    obtain ⟨s1, s2, r2, hr⟩ := typeStep_ok_occurs Γ _ _ p n a hu _ _ _ _ _ h
    cases hr
  | succ k =>
    simp only [typeResult] at h
    obtain ⟨s1, s2, r2, hr⟩ := typeStep_ok_occurs Γ _ _ p n a hu _ _ _ _ _ h
    exact ⟨k, by omega, s1, s2, r2, hr⟩

theorem okAt_usesPlus {Γ : TypeEnv} {x y : TName} (hu : UsesPlus Γ x y) : ∀ k, OkAt Γ k x → ∃ k', k' < k ∧ OkAt Γ k' y := by
  induction hu with
  | one hu => intro k h; exact okAt_uses h hu
  | more hu _ ih =>
    intro k h
    obtain ⟨k1, h1, ho⟩ := okAt_uses h hu
    obtain ⟨k2, h2, ho2⟩ := ih k1 ho
    exact ⟨k2, by omega, ho2⟩

/-- C18 fails: if a type reaches a named type whose definition uses itself, directly or through others, its translation
never produces a result, whatever else is in the program. -/
theorem recursive_type_never_translated (Γ : TypeEnv) (t : GoType) (x : TName) (hr : Reaches Γ t x)
    (hrec : UsesPlus Γ x x) (st : List Field) (pkg : Option Str) (st' : List Field) (r : Result) :
    ¬ Translates Γ st pkg t (st', .ok r) := by
  have no : ∀ k, ¬ OkAt Γ k x := by
    intro k
    induction k using Nat.strongRecOn with
    | ind k ih =>
      intro h
      obtain ⟨k', hlt, h'⟩ := okAt_usesPlus hrec k h
      exact ih k' hlt h'
  rintro ⟨fuel, h⟩
  have start : ∀ y, Occurs t y → ∃ k, OkAt Γ k y := by
    rintro ⟨p, n, a⟩ ho
    cases fuel with
    | zero =>
      simp only [typeResult] at h
      obtain ⟨s1, s2, r2, hr⟩ := typeStep_ok_occurs Γ _ _ p n a ho _ _ _ _ _ h
      cases hr
    | succ k =>
      simp only [typeResult] at h
      obtain ⟨s1, s2, r2, hr⟩ := typeStep_ok_occurs Γ _ _ p n a ho _ _ _ _ _ h
      exact ⟨k, s1, s2, r2, hr⟩
  cases hr with
  | direct ho => obtain ⟨k, hk⟩ := start x ho; exact no k hk
  | through ho hu =>
    obtain ⟨k, hk⟩ := start _ ho
    obtain ⟨k', _, hk'⟩ := okAt_usesPlus hu k hk
    exact no k' hk'

/-- A program with the linked list `type Node struct { Next *Node; V int }` in package `p`. -/
def listEnv : TypeEnv where
  loadable := fun _ => true
  underlying := fun _ _ _ => .struct [({ name := c!"Next" }, .pointer (.named (some c!"p") c!"Node" [])),
    ({ name := c!"V" }, .basic .int c!"int")]
  files := fun _ => []
  nodeAt := fun _ _ => .other
  parseFloat := fun _ => none

theorem struct_first_none (Γ : TypeEnv) (rec : TRec) (st : List Field) (pkg : Option Str) (name : Str)
    (fe : StructField × GoType) (rest : List (StructField × GoType)) (hx : fe.1.exported = true)
    (h : typeStep Γ true rec st pkg [] fe.2 = none) : typeStep Γ true rec st pkg name (.struct (fe :: rest)) = none := by
  obtain ⟨f, t⟩ := fe
  simp only at hx h
  simp only [typeStep, structStep, h, hx]
  rfl

/-- C18 fails (concrete): translating the linked list type never ends. -/
theorem linked_list_diverges : Diverges listEnv [] none (.named (some c!"p") c!"Node" []) := by
  have key : ∀ k st pkg name, typeResult listEnv true k st pkg name (.named (some c!"p") c!"Node" []) = none ∧
      typeResult listEnv true k st pkg name (.struct [({ name := c!"Next" }, .pointer (.named (some c!"p") c!"Node" [])),
    ({ name := c!"V" }, .basic .int c!"int")]) = none := by
    intro k
    induction k with
    | zero => intro st pkg name; constructor <;> rfl
    | succ k ih =>
      intro st pkg name
      have h1 : ∀ st pkg name, typeResult listEnv true (k + 1) st pkg name (.named (some c!"p") c!"Node" []) = none := by
        intro st pkg name
        simp only [typeResult, typeStep, listEnv]
        have := (ih st (some c!"p") c!"Node").2
        simp only [listEnv] at this
        simp [this]
      refine ⟨h1 st pkg name, ?_⟩
      have h2 := h1 st pkg []
      rw [typeResult.eq_2] at h2 ⊢
      exact struct_first_none _ _ _ _ _ _ _ rfl h2
  intro fuel
  exact (key fuel [] none []).1

example : UsesPlus listEnv (c!"p", c!"Node", []) (c!"p", c!"Node", []) :=
  .one (.field (f := { name := c!"Next" }) (t := .pointer (.named (some c!"p") c!"Node" [])) (List.Mem.head _) rfl
    (.pointer (.named _ _ _)))

end Astra.Props
