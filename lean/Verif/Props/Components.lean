/-
C19, C20, C21: components, unexported fields, pointers.
-/
import Verif.Lemmas.TypeTraversal
import Verif.Spec.Types
import Verif.Props.SafePushing
import Verif.Props.Types

namespace Astra.Props
open Astra.Spec

/-! ### C19: every named type in use becomes a component -/

/-- There is a component for the named type. -/
def HasComponent (components : List Field) (x : TName) : Prop := ∃ c ∈ components, c.name = x.2.1 ∧ c.package = x.1

theorem pushComponent_keeps (st : List Field) (r : Result) : st <+: pushComponent st r := by
  unfold pushComponent
  split
  · exact (addComponent_prefix_nodup st _).1
  · exact List.prefix_refl _

/-- The traversal only adds components. -/
theorem typeStep_prefix (Γ : TypeEnv) (adding : Bool) (rec : TRec)
    (hrec : ∀ st p n t st' r, rec st p n t = some (st', r) → st <+: st') (t : GoType) :
    ∀ st pkg name st' r, typeStep Γ adding rec st pkg name t = some (st', r) → st <+: st' := by
  induction t using goType_induction with
  | basic k tn =>
    intro st pkg name st' r h
    simp only [typeStep] at h
    split at h
    · cases h; exact List.prefix_refl _
    · split at h
      · cases h; exact List.prefix_refl _
      · split at h <;> (cases h; exact List.prefix_refl _)
  | named p tn a =>
    intro st pkg name st' r h
    cases p with
    | none => simp only [typeStep] at h; cases h; exact List.prefix_refl _
    | some p =>
      simp only [typeStep] at h
      split at h
      · cases h; exact List.prefix_refl _
      · split at h
        · cases hr : rec st (some p) tn (Γ.underlying p tn a) with
          | none => rw [hr] at h; cases h
          | some x =>
            obtain ⟨s2, res⟩ := x
            have h1 := hrec _ _ _ _ _ _ hr
            rw [hr] at h
            cases res with
            | err e => cases h; exact h1
            | panic m => cases h; exact h1
            | ok r2 => cases h; exact h1.trans (pushComponent_keeps _ _)
        · cases h; exact List.prefix_refl _
  | pointer e ih => intro st pkg name st' r h; simp only [typeStep] at h; exact ih _ _ _ _ _ h
  | slice e ih =>
    intro st pkg name st' r h
    simp only [typeStep] at h
    cases hr : typeStep Γ adding rec st pkg [] e with
    | none => rw [hr] at h; cases h
    | some x =>
      obtain ⟨s2, res⟩ := x
      have h1 := ih _ _ _ _ _ hr
      rw [hr] at h
      cases res <;> (cases h; exact h1)
  | array l e ih =>
    intro st pkg name st' r h
    simp only [typeStep] at h
    cases hr : typeStep Γ adding rec st pkg [] e with
    | none => rw [hr] at h; cases h
    | some x =>
      obtain ⟨s2, res⟩ := x
      have h1 := ih _ _ _ _ _ hr
      rw [hr] at h
      cases res <;> (cases h; exact h1)
  | map k v ihk ihv =>
    intro st pkg name st' r h
    simp only [typeStep] at h
    cases hr : typeStep Γ adding rec st pkg [] k with
    | none => rw [hr] at h; cases h
    | some x =>
      obtain ⟨s2, res⟩ := x
      have h1 := ihk _ _ _ _ _ hr
      rw [hr] at h
      cases res with
      | err e => cases h; exact h1
      | panic m => cases h; exact h1
      | ok kr =>
        simp only at h
        cases hv : typeStep Γ adding rec s2 pkg [] v with
        | none => rw [hv] at h; cases h
        | some y =>
          obtain ⟨s3, res'⟩ := y
          have h2 := ihv _ _ _ _ _ hv
          rw [hv] at h
          cases res' <;> (cases h; exact h1.trans h2)
  | struct fs ih =>
    intro st pkg name st' r h
    have hs : ∀ (l : List (StructField × GoType)), (∀ e ∈ l, e ∈ fs) → ∀ st acc st' out,
        structStep Γ adding rec st pkg acc l = some (st', out) → st <+: st' := by
      intro l
      induction l with
      | nil => intro _ st acc st' out h; simp only [structStep] at h; cases h; exact List.prefix_refl _
      | cons e l ihl =>
        obtain ⟨f, t⟩ := e
        intro hl st acc st' out h
        have hl' : ∀ e ∈ l, e ∈ fs := fun e he => hl e (by simp [he])
        simp only [structStep] at h
        split at h
        · exact ihl hl' _ _ _ _ h
        · cases hr : typeStep Γ adding rec st pkg [] t with
          | none => rw [hr] at h; cases h
          | some x =>
            obtain ⟨s2, res⟩ := x
            have h1 := ih (f, t) (hl _ (by simp)) _ _ _ _ _ hr
            rw [hr] at h
            cases res with
            | err e => cases h; exact h1
            | panic m => cases h; exact h1
            | ok r2 =>
              simp only at h
              cases hd : fieldDoc Γ r2 f.pos with
              | err e => rw [hd] at h; cases h; exact h1
              | panic m => rw [hd] at h; cases h; exact h1
              | ok d => rw [hd] at h; exact h1.trans (ihl hl' _ _ _ _ h)
    simp only [typeStep] at h
    cases hr : structStep Γ adding rec st pkg [] fs with
    | none => rw [hr] at h; cases h
    | some x =>
      obtain ⟨s2, res⟩ := x
      have h1 := hs fs (fun _ h => h) _ _ _ _ hr
      rw [hr] at h
      cases res <;> (cases h; exact h1)
  | interface => intro st pkg name st' r h; simp only [typeStep] at h; cases h; exact List.prefix_refl _
  | other => intro st pkg name st' r h; simp only [typeStep] at h; cases h; exact List.prefix_refl _

theorem typeResult_prefix (Γ : TypeEnv) (adding : Bool) (k : Nat) :
    ∀ st p n t st' r, typeResult Γ adding k st p n t = some (st', r) → st <+: st' := by
  induction k with
  | zero => intro st p n t st' r h; exact typeStep_prefix Γ adding _ (fun _ _ _ _ _ _ h => by cases h) t _ _ _ _ _ h
  | succ k ih => intro st p n t st' r h; exact typeStep_prefix Γ adding _ ih t _ _ _ _ _ h

/-- The package of the result of an element type. -/
theorem element_package (Γ : TypeEnv) (rec : TRec) (p : Str) (t : GoType) (ht : ElementOf p t) :
    ∀ st name st' r, typeStep Γ true rec st (some p) name t = some (st', .ok r) → r.package = some p := by
  induction t using goType_induction with
  | basic k tn =>
    intro st name st' r h
    simp only [typeStep] at h
    split at h
    · obtain ⟨h1, h2⟩ := Prod.mk.inj (Option.some.inj h)
      obtain ⟨_, h3⟩ := finishResult_ok h2
      rw [h3]; split <;> rfl
    · split at h
      · cases h
      · obtain ⟨h1, h2⟩ := Prod.mk.inj (Option.some.inj h)
        obtain ⟨_, h3⟩ := finishResult_ok h2
        rw [h3]; split <;> rfl
  | named q tn a =>
    intro st name st' r h
    cases q with
    | none => exact absurd ht (by simp [ElementOf])
    | some q =>
      have hq : q = p := ht
      subst hq
      simp only [typeStep, if_true] at h
      split at h
      · cases h
      · cases hr : rec st (some q) tn (Γ.underlying q tn a) with
        | none => rw [hr] at h; cases h
        | some x =>
          obtain ⟨s2, res⟩ := x
          rw [hr] at h
          cases res with
          | err e => cases h
          | panic m => cases h
          | ok r2 =>
            obtain ⟨h1, h2⟩ := Prod.mk.inj (Option.some.inj h)
            obtain ⟨_, h3⟩ := finishResult_ok h2
            rw [h3]; split <;> rfl
  | pointer e ih => intro st name st' r h; simp only [typeStep] at h; exact ih ht _ _ _ _ h
  | slice e ih =>
    intro st name st' r h
    simp only [typeStep] at h
    cases hr : typeStep Γ true rec st (some p) [] e with
    | none => rw [hr] at h; cases h
    | some x =>
      obtain ⟨s2, res⟩ := x
      rw [hr] at h
      cases res with
      | err e => cases h
      | panic m => cases h
      | ok r2 =>
        have h0 := ih ht _ _ _ _ hr
        obtain ⟨h1, h2⟩ := Prod.mk.inj (Option.some.inj h)
        obtain ⟨_, h3⟩ := finishResult_ok h2
        rw [h3]; split <;> exact h0
  | array l e ih =>
    intro st name st' r h
    simp only [typeStep] at h
    cases hr : typeStep Γ true rec st (some p) [] e with
    | none => rw [hr] at h; cases h
    | some x =>
      obtain ⟨s2, res⟩ := x
      rw [hr] at h
      cases res with
      | err e => cases h
      | panic m => cases h
      | ok r2 =>
        have h0 := ih ht _ _ _ _ hr
        obtain ⟨h1, h2⟩ := Prod.mk.inj (Option.some.inj h)
        obtain ⟨_, h3⟩ := finishResult_ok h2
        rw [h3]; split <;> exact h0
  | map k v ihk ihv =>
    intro st name st' r h
    simp only [typeStep] at h
    cases hr : typeStep Γ true rec st (some p) [] k with
    | none => rw [hr] at h; cases h
    | some x =>
      obtain ⟨s2, res⟩ := x
      rw [hr] at h
      cases res with
      | err e => cases h
      | panic m => cases h
      | ok kr =>
        simp only at h
        cases hv : typeStep Γ true rec s2 (some p) [] v with
        | none => rw [hv] at h; cases h
        | some y =>
          obtain ⟨s3, res'⟩ := y
          rw [hv] at h
          cases res' with
          | err e => cases h
          | panic m => cases h
          | ok vr =>
            have h0 := ihv ht _ _ _ _ hv
            obtain ⟨h1, h2⟩ := Prod.mk.inj (Option.some.inj h)
            obtain ⟨_, h3⟩ := finishResult_ok h2
            rw [h3]; split <;> exact h0
  | struct fs ih =>
    intro st name st' r h
    simp only [typeStep] at h
    cases hr : structStep Γ true rec st (some p) [] fs with
    | none => rw [hr] at h; cases h
    | some x =>
      obtain ⟨s2, res⟩ := x
      rw [hr] at h
      cases res with
      | err e => cases h
      | panic m => cases h
      | ok fs' =>
        obtain ⟨h1, h2⟩ := Prod.mk.inj (Option.some.inj h)
        obtain ⟨_, h3⟩ := finishResult_ok h2
        rw [h3]; split <;> rfl
  | interface =>
    intro st name st' r h
    simp only [typeStep] at h
    obtain ⟨h1, h2⟩ := Prod.mk.inj (Option.some.inj h)
    obtain ⟨_, h3⟩ := finishResult_ok h2
    rw [h3]; split <;> rfl
  | other => exact absurd ht (by simp [ElementOf])

theorem own_element {p : Str} {t : GoType} (h : OwnDefinition p t) : ElementOf p t := by
  cases t <;> first | exact h | trivial | exact absurd h (by simp [OwnDefinition])

/-- The result of an own definition carries the type's name. -/
theorem own_name (Γ : TypeEnv) (rec : TRec) (p n : Str) (hn : n ≠ []) (t : GoType) (ht : OwnDefinition p t) :
    ∀ st st' r, typeStep Γ true rec st (some p) n t = some (st', .ok r) → r.name = n := by
  have hf : ∀ (r r' : Result), finishResult n r = .ok r' → r'.name = n := by
    intro r r' h
    obtain ⟨_, h3⟩ := finishResult_ok h
    rw [h3, if_pos hn]
  intro st st' r h
  cases t with
  | basic k tn =>
    simp only [typeStep, if_neg hn] at h
    split at h
    · cases h
    · exact hf _ _ (Prod.mk.inj (Option.some.inj h)).2
  | named q tn a => exact absurd ht (by simp [OwnDefinition])
  | pointer e => exact absurd ht (by simp [OwnDefinition])
  | slice e =>
    simp only [typeStep] at h
    split at h
    · exact hf _ _ (Prod.mk.inj (Option.some.inj h)).2
    · rename_i x hx; exact absurd h (hx st' r)
  | array l e =>
    simp only [typeStep] at h
    split at h
    · exact hf _ _ (Prod.mk.inj (Option.some.inj h)).2
    · rename_i x hx; exact absurd h (hx st' r)
  | map k v =>
    simp only [typeStep] at h
    split at h
    · split at h
      · exact hf _ _ (Prod.mk.inj (Option.some.inj h)).2
      · rename_i x hx; exact absurd h (hx st' r)
    · rename_i x hx; exact absurd h (hx st' r)
  | struct fs =>
    simp only [typeStep] at h
    split at h
    · cases h
    · cases h
    · cases h
    · exact hf _ _ (Prod.mk.inj (Option.some.inj h)).2
  | interface => simp only [typeStep] at h; exact hf _ _ (Prod.mk.inj (Option.some.inj h)).2
  | other => exact absurd ht (by simp [OwnDefinition])

theorem parse_name (r : Result) : (parseResultToField r).name = r.name := by cases r; rfl

theorem parse_package (r : Result) (hn : r.name ≠ []) : (parseResultToField r).package = r.package.getD [] := by
  cases r; simp only [parseResultToField, needsPackage, nodePath] at *; simp [hn]

theorem pushComponent_has (st : List Field) (r : Result) (p n : Str) (hn : r.name = n) (hn' : n ≠ []) (hp : r.package = some p)
    (hp' : p ≠ []) (a : Str) : HasComponent (pushComponent st r) (p, n, a) := by
  have hname : (parseResultToField r).name = n := by rw [parse_name, hn]
  have hpkg : (parseResultToField r).package = p := by rw [parse_package r (by rw [hn]; exact hn'), hp]; rfl
  unfold pushComponent
  rw [if_pos (by rw [hpkg]; exact hp')]
  have hfw := addComponent_first_wins st [parseResultToField r] (n, p)
  have : (definitionOf (st ++ [parseResultToField r]) (n, p)).isSome := by
    unfold definitionOf
    rw [List.find?_isSome]
    exact ⟨parseResultToField r, by simp, by simp [compKey, hname, hpkg]⟩
  rw [← hfw] at this
  unfold definitionOf at this
  rw [List.find?_isSome] at this
  obtain ⟨c, hc, hk⟩ := this
  simp only [compKey, Prod.mk.injEq, decide_eq_true_eq] at hk
  exact ⟨c, hc, hk.1, hk.2⟩

theorem HasComponent.mono {st st' : List Field} {x : TName} (h : HasComponent st x) (hp : st <+: st') : HasComponent st' x := by
  obtain ⟨c, hc, hk⟩ := h
  exact ⟨c, hp.subset hc, hk⟩

/-- Everything an expression mentions directly has a component after a successful traversal, and so has everything the
callback guarantees for the definitions. -/
theorem typeStep_closed (Γ : TypeEnv) (rec : TRec) (good : TName → Prop) (guar : TName → List Field → Prop)
    (hmono : ∀ x st st', guar x st → st <+: st' → guar x st')
    (hrec : ∀ st p n t st' r, rec st p n t = some (st', r) → st <+: st')
    (hown : ∀ x, good x → x.1 ≠ [] ∧ x.2.1 ≠ [] ∧ ∀ st st' r, rec st (some x.1) x.2.1 (Γ.underlying x.1 x.2.1 x.2.2) = some (st', .ok r) →
      r.name = x.2.1 ∧ r.package = some x.1)
    (hguar : ∀ x st st' r, rec st (some x.1) x.2.1 (Γ.underlying x.1 x.2.1 x.2.2) = some (st', .ok r) → guar x st')
    (t : GoType) (x : TName) (ho : Occurs t x) :
    ∀ st pkg name st' r, typeStep Γ true rec st pkg name t = some (st', .ok r) → guar x st' ∧ (good x → HasComponent st' x) := by
  have hm : ∀ {st st'}, (guar x st ∧ (good x → HasComponent st x)) → st <+: st' → guar x st' ∧ (good x → HasComponent st' x) :=
    fun h hp => ⟨hmono x _ _ h.1 hp, fun hg => (h.2 hg).mono hp⟩
  induction t using goType_induction with
  | basic k tn => cases ho
  | named q tn a =>
    intro st pkg name st' r h
    cases ho
    rename_i p
    simp only [typeStep, if_true] at h
    split at h
    · cases h
    · cases hr : rec st (some p) tn (Γ.underlying p tn a) with
      | none => rw [hr] at h; cases h
      | some y =>
        obtain ⟨s2, res⟩ := y
        rw [hr] at h
        cases res with
        | err e => cases h
        | panic m => cases h
        | ok r2 =>
          obtain ⟨h1, h2⟩ := Prod.mk.inj (Option.some.inj h)
          subst h1
          refine ⟨hmono _ _ _ (hguar (p, tn, a) _ _ _ hr) (pushComponent_keeps _ _), fun hg => ?_⟩
          obtain ⟨g1, g2, g3⟩ := hown _ hg
          obtain ⟨g4, g5⟩ := g3 _ _ _ hr
          refine pushComponent_has _ _ p tn ?_ g2 ?_ g1 a
          · exact g4
          · exact g5
  | pointer e ih => intro st pkg name st' r h; cases ho with | pointer ho => simp only [typeStep] at h; exact ih ho _ _ _ _ _ h
  | slice e ih =>
    intro st pkg name st' r h
    cases ho with
    | slice ho =>
      simp only [typeStep] at h
      cases hr : typeStep Γ true rec st pkg [] e with
      | none => rw [hr] at h; cases h
      | some y =>
        obtain ⟨s2, res⟩ := y
        rw [hr] at h
        cases res with
        | err e => cases h
        | panic m => cases h
        | ok r2 =>
          have h0 := ih ho _ _ _ _ _ hr
          obtain ⟨h1, _⟩ := Prod.mk.inj (Option.some.inj h)
          subst h1; exact h0
  | array l e ih =>
    intro st pkg name st' r h
    cases ho with
    | array ho =>
      simp only [typeStep] at h
      cases hr : typeStep Γ true rec st pkg [] e with
      | none => rw [hr] at h; cases h
      | some y =>
        obtain ⟨s2, res⟩ := y
        rw [hr] at h
        cases res with
        | err e => cases h
        | panic m => cases h
        | ok r2 =>
          have h0 := ih ho _ _ _ _ _ hr
          obtain ⟨h1, _⟩ := Prod.mk.inj (Option.some.inj h)
          subst h1; exact h0
  | map k v ihk ihv =>
    intro st pkg name st' r h
    simp only [typeStep] at h
    cases hr : typeStep Γ true rec st pkg [] k with
    | none => rw [hr] at h; cases h
    | some y =>
      obtain ⟨s2, res⟩ := y
      rw [hr] at h
      cases res with
      | err e => cases h
      | panic m => cases h
      | ok kr =>
        simp only at h
        cases hv : typeStep Γ true rec s2 pkg [] v with
        | none => rw [hv] at h; cases h
        | some z =>
          obtain ⟨s3, res'⟩ := z
          rw [hv] at h
          cases res' with
          | err e => cases h
          | panic m => cases h
          | ok vr =>
            obtain ⟨h1, _⟩ := Prod.mk.inj (Option.some.inj h)
            subst h1
            cases ho with
            | key ho => exact hm (ihk ho _ _ _ _ _ hr) (typeStep_prefix Γ true rec hrec v _ _ _ _ _ hv)
            | value ho => exact ihv ho _ _ _ _ _ hv
  | struct fs ih =>
    intro st pkg name st' r h
    cases ho with
    | field hmem hexp ho =>
      rename_i f t
      have hpre : ∀ (l : List (StructField × GoType)) st acc st' out,
          structStep Γ true rec st pkg acc l = some (st', .ok out) → st <+: st' := by
        intro l st acc st' out hl
        induction l generalizing st acc with
        | nil => simp only [structStep] at hl; cases hl; exact List.prefix_refl _
        | cons e l ihl =>
          obtain ⟨g, u⟩ := e
          simp only [structStep] at hl
          split at hl
          · exact ihl _ _ hl
          · cases hr : typeStep Γ true rec st pkg [] u with
            | none => rw [hr] at hl; cases hl
            | some y =>
              obtain ⟨s2, res⟩ := y
              rw [hr] at hl
              cases res with
              | err e => cases hl
              | panic m => cases hl
              | ok r2 =>
                simp only at hl
                cases hd : fieldDoc Γ r2 g.pos with
                | err e => rw [hd] at hl; cases hl
                | panic m => rw [hd] at hl; cases hl
                | ok d =>
                  rw [hd] at hl
                  exact (typeStep_prefix Γ true rec hrec u _ _ _ _ _ hr).trans (ihl _ _ hl)
      have hs : ∀ (l : List (StructField × GoType)), (∀ e ∈ l, e ∈ fs) → (f, t) ∈ l → ∀ st acc st' out,
          structStep Γ true rec st pkg acc l = some (st', .ok out) → guar x st' ∧ (good x → HasComponent st' x) := by
        intro l
        induction l with
        | nil => intro _ hmem; simp at hmem
        | cons e l ihl =>
          obtain ⟨g, u⟩ := e
          intro hl hmem st acc st' out h
          simp only [structStep] at h
          split at h
          · rename_i hx
            simp only [List.mem_cons, Prod.mk.injEq] at hmem
            rcases hmem with ⟨rfl, _⟩ | hmem
            · rw [hexp] at hx; cases hx
            · exact ihl (fun e he => hl e (by simp [he])) hmem _ _ _ _ h
          · cases hr : typeStep Γ true rec st pkg [] u with
            | none => rw [hr] at h; cases h
            | some y =>
              obtain ⟨s2, res⟩ := y
              rw [hr] at h
              cases res with
              | err e => cases h
              | panic m => cases h
              | ok r2 =>
                simp only at h
                cases hd : fieldDoc Γ r2 g.pos with
                | err e => rw [hd] at h; cases h
                | panic m => rw [hd] at h; cases h
                | ok d =>
                  rw [hd] at h
                  simp only [List.mem_cons, Prod.mk.injEq] at hmem
                  rcases hmem with ⟨rfl, rfl⟩ | hmem
                  · exact hm (ih (f, t) (hl _ (by simp)) ho _ _ _ _ _ hr) (hpre _ _ _ _ _ h)
                  · exact ihl (fun e he => hl e (by simp [he])) hmem _ _ _ _ h
      simp only [typeStep] at h
      cases hr : structStep Γ true rec st pkg [] fs with
      | none => rw [hr] at h; cases h
      | some y =>
        obtain ⟨s2, res⟩ := y
        rw [hr] at h
        cases res with
        | err e => cases h
        | panic m => cases h
        | ok out =>
          have h0 := hs fs (fun _ h => h) hmem _ _ _ _ hr
          obtain ⟨h1, _⟩ := Prod.mk.inj (Option.some.inj h)
          subst h1; exact h0
  | interface => cases ho
  | other => cases ho

/-- A defined type that is recorded under its own name. -/
def OwnType (Γ : TypeEnv) (x : TName) : Prop := x.1 ≠ [] ∧ x.2.1 ≠ [] ∧ OwnDefinition x.1 (Γ.underlying x.1 x.2.1 x.2.2)

/-- What a type mentions, and what the definitions of that use, has components. -/
theorem typeResult_closed (Γ : TypeEnv) : ∀ k t y, Occurs t y → ∀ st pkg name st' r, typeResult Γ true k st pkg name t = some (st', .ok r) →
    (∀ z, UsesPlus Γ y z → OwnType Γ z → HasComponent st' z) ∧ (OwnType Γ y → HasComponent st' y) := by
  -- per fuel: the definitions used by `y` have components
  let good : TName → Prop := OwnType Γ
  let guar : TName → List Field → Prop := fun y st => ∀ z, UsesPlus Γ y z → good z → HasComponent st z
  have hmono : ∀ y st st', guar y st → st <+: st' → guar y st' := fun y st st' hg hpre z hz hgz => (hg z hz hgz).mono hpre
  have hown' : ∀ (rec : TRec), (∃ k, rec = typeResult Γ true k) ∨ rec = (fun _ _ _ _ => none) → ∀ y, good y →
      y.1 ≠ [] ∧ y.2.1 ≠ [] ∧ ∀ st st' r, rec st (some y.1) y.2.1 (Γ.underlying y.1 y.2.1 y.2.2) = some (st', .ok r) →
      r.name = y.2.1 ∧ r.package = some y.1 := by
    intro rec hrec y hy
    refine ⟨hy.1, hy.2.1, fun st st' r hr => ?_⟩
    rcases hrec with ⟨k, rfl⟩ | rfl
    · cases k with
      | zero => exact ⟨own_name Γ _ _ _ hy.2.1 _ hy.2.2 _ _ _ hr, element_package Γ _ _ _ (own_element hy.2.2) _ _ _ _ hr⟩
      | succ k => exact ⟨own_name Γ _ _ _ hy.2.1 _ hy.2.2 _ _ _ hr, element_package Γ _ _ _ (own_element hy.2.2) _ _ _ _ hr⟩
    · cases hr
  have main : ∀ k t y, Occurs t y → ∀ st pkg name st' r, typeResult Γ true k st pkg name t = some (st', .ok r) →
      guar y st' ∧ (good y → HasComponent st' y) := by
    intro k
    induction k with
    | zero =>
      intro t y ho st pkg name st' r h
      simp only [typeResult] at h
      exact typeStep_closed Γ _ good guar hmono (fun _ _ _ _ _ _ h => by cases h) (hown' _ (Or.inr rfl))
        (fun _ _ _ _ h => by cases h) t y ho _ _ _ _ _ h
    | succ k ih =>
      intro t y ho st pkg name st' r h
      simp only [typeResult] at h
      refine typeStep_closed Γ _ good guar hmono (typeResult_prefix Γ true k) (hown' _ (Or.inl ⟨k, rfl⟩)) ?_ t y ho _ _ _ _ _ h
      intro z st st' r hz w hw hgw
      cases hw with
      | one hu => exact (ih _ _ hu _ _ _ _ _ hz).2 hgw
      | more hu hw => exact (ih _ _ hu _ _ _ _ _ hz).1 w hw hgw
  exact main

/-- C19, partial: after a successful translation every named type the type reaches, at any depth of definitions, has a
component under its own name and package. Missing: named types that are defined as a pointer or as a collection of types
of another package (see below). -/
theorem components_closed_partial (Γ : TypeEnv) (st : List Field) (pkg : Option Str) (t : GoType) (st' : List Field) (r : Result)
    (h : Translates Γ st pkg t (st', .ok r)) (x : TName) (hx : Reaches Γ t x)
    (hp : x.1 ≠ []) (hn : x.2.1 ≠ []) (hown : OwnDefinition x.1 (Γ.underlying x.1 x.2.1 x.2.2)) :
    HasComponent st' x := by
  obtain ⟨k, hk⟩ := h
  cases hx with
  | direct ho => exact (typeResult_closed Γ k t x ho _ _ _ _ _ hk).2 ⟨hp, hn, hown⟩
  | through ho hu => exact (typeResult_closed Γ k t _ ho _ _ _ _ _ hk).1 x hu ⟨hp, hn, hown⟩

/-- A shop: `Order` has exported fields of type `[]*Item` and `Money` (an int), and an unexported one of type `Secret`. -/
def shopEnv : TypeEnv where
  loadable := fun _ => true
  underlying := fun _ n _ =>
    if n = c!"Order" then .struct [({ name := c!"Items" }, .slice (.pointer (.named (some c!"shop") c!"Item" []))),
      ({ name := c!"Total" }, .named (some c!"money") c!"Money" []),
      ({ name := c!"secret", exported := false }, .named (some c!"shop") c!"Secret" [])]
    else if n = c!"Item" then .struct [({ name := c!"Price" }, .named (some c!"money") c!"Money" [])]
    else if n = c!"Items" then .slice (.named (some c!"money") c!"Money" [])
    else .basic .int c!"int"
  files := fun _ => []
  nodeAt := fun _ _ => .other
  parseFloat := fun _ => none

example : (typeResult shopEnv true 3 [] none [] (.named (some c!"shop") c!"Order" [])).map (fun o =>
    (o.1.map (fun c => (c.name, c.package)), o.2.isOk)) =
    some ([(c!"Money", c!"money"), (c!"Item", c!"shop"), (c!"Order", c!"shop")], true) := by decide +kernel

/-- C19 fails: a named slice of a type of another package is recorded under the element's package, so a reference to it
has no component. -/
theorem named_collection_misplaced :
    (typeResult shopEnv true 3 [] none [] (.named (some c!"shop") c!"Items" [])).map (fun o =>
      (o.1.map (fun c => (c.name, c.package)), match o.2 with | .ok r => some (r.type, r.package) | _ => none)) =
    some ([(c!"Money", c!"money"), (c!"Items", c!"money")], some (c!"Items", some c!"shop")) := by decide

/-! ### C20: unexported fields -/

theorem structStep_filter (Γ : TypeEnv) (adding : Bool) (rec : TRec) (pkg : Option Str) (fs : List (StructField × GoType)) :
    ∀ st acc, structStep Γ adding rec st pkg acc fs
      = structStep Γ adding rec st pkg acc (fs.filter (fun e => e.1.exported)) := by
  induction fs with
  | nil => intro st acc; rfl
  | cons e fs ih =>
    obtain ⟨f, t⟩ := e
    intro st acc
    cases hx : f.exported with
    | false =>
      rw [List.filter_cons_of_neg (by simp [hx])]
      simp only [structStep, hx, if_true]
      exact ih _ _
    | true =>
      rw [List.filter_cons_of_pos (by simp [hx])]
      simp only [structStep, hx, Bool.true_eq_false, if_false]
      cases hr : typeStep Γ adding rec st pkg [] t with
      | none => rfl
      | some y =>
        obtain ⟨s2, res⟩ := y
        cases res with
        | err e => rfl
        | panic m => rfl
        | ok r =>
          simp only
          cases hd : fieldDoc Γ r f.pos with
          | err e => rfl
          | panic m => rfl
          | ok d => exact ih _ _

/-- C20: translating a struct is the same as translating it without its unexported fields: neither the result nor the
components nor the outcome depend on them. -/
theorem unexported_fields_ignored (Γ : TypeEnv) (adding : Bool) (fuel : Nat) (st : List Field) (pkg : Option Str) (name : Str)
    (fs : List (StructField × GoType)) :
    typeResult Γ adding fuel st pkg name (.struct fs)
      = typeResult Γ adding fuel st pkg name (.struct (fs.filter (fun e => e.1.exported))) := by
  cases fuel <;> simp only [typeResult, typeStep] <;> rw [← structStep_filter]

theorem keys_aset {V : Type} (m : List (Str × V)) (k : Str) (v : V) (x : Str) :
    x ∈ (aset m k v).map (·.1) ↔ x = k ∨ x ∈ m.map (·.1) := by
  induction m with
  | nil => simp [aset]
  | cons e m ih =>
    obtain ⟨k', v'⟩ := e
    simp only [aset]
    split
    · rename_i h; simp [h]
    · simp only [List.map_cons, List.mem_cons, ih]
      constructor
      · rintro (h | h | h)
        · exact Or.inr (Or.inl h)
        · exact Or.inl h
        · exact Or.inr (Or.inr h)
      · rintro (h | h | h)
        · exact Or.inr (Or.inl h)
        · exact Or.inl h
        · exact Or.inr (Or.inr h)

/-- C20: the struct fields of a successful translation are exactly the exported fields. -/
theorem struct_fields_exact (Γ : TypeEnv) (fuel : Nat) (st : List Field) (pkg : Option Str) (name : Str)
    (fs : List (StructField × GoType)) (st' : List Field) (r : Result)
    (h : typeResult Γ true fuel st pkg name (.struct fs) = some (st', .ok r)) (k : Str) :
    k ∈ r.structFields.map (·.1) ↔ ∃ e ∈ fs, e.1.exported = true ∧ e.1.name = k := by
  have hs : ∀ (rec : TRec) (l : List (StructField × GoType)) st acc st' out,
      structStep Γ true rec st pkg acc l = some (st', .ok out) →
      (k ∈ out.map (·.1) ↔ k ∈ acc.map (·.1) ∨ ∃ e ∈ l, e.1.exported = true ∧ e.1.name = k) := by
    intro rec l
    induction l with
    | nil =>
      intro st acc st' out h
      simp only [structStep] at h
      obtain ⟨_, h2⟩ := Prod.mk.inj (Option.some.inj h)
      cases h2; simp
    | cons e l ihl =>
      obtain ⟨g, u⟩ := e
      intro st acc st' out h
      simp only [structStep] at h
      split at h
      · rename_i hx
        rw [ihl _ _ _ _ h]
        constructor
        · rintro (h | ⟨e, he, h⟩)
          · exact Or.inl h
          · exact Or.inr ⟨e, by simp [he], h⟩
        · rintro (h | ⟨e, he, h⟩)
          · exact Or.inl h
          · simp only [List.mem_cons] at he
            rcases he with rfl | he
            · rw [hx] at h; cases h.1
            · exact Or.inr ⟨e, he, h⟩
      · rename_i hx
        have hx' : g.exported = true := by simpa using hx
        cases hr : typeStep Γ true rec st pkg [] u with
        | none => rw [hr] at h; cases h
        | some y =>
          obtain ⟨s2, res⟩ := y
          rw [hr] at h
          cases res with
          | err e => cases h
          | panic m => cases h
          | ok r2 =>
            simp only at h
            cases hd : fieldDoc Γ r2 g.pos with
            | err e => rw [hd] at h; cases h
            | panic m => rw [hd] at h; cases h
            | ok d =>
              rw [hd] at h
              rw [ihl _ _ _ _ h, keys_aset]
              constructor
              · rintro ((h | h) | ⟨e, he, h⟩)
                · exact Or.inr ⟨(g, u), by simp, hx', h.symm⟩
                · exact Or.inl h
                · exact Or.inr ⟨e, by simp [he], h⟩
              · rintro (h | ⟨e, he, h⟩)
                · exact Or.inl (Or.inr h)
                · simp only [List.mem_cons] at he
                  rcases he with rfl | he
                  · exact Or.inl (Or.inl h.2.symm)
                  · exact Or.inr ⟨e, he, h⟩
  have hgo : ∀ rec : TRec, typeStep Γ true rec st pkg name (.struct fs) = some (st', .ok r) →
      (k ∈ r.structFields.map (·.1) ↔ ∃ e ∈ fs, e.1.exported = true ∧ e.1.name = k) := by
    intro rec h
    simp only [typeStep] at h
    cases hr : structStep Γ true rec st pkg [] fs with
    | none => rw [hr] at h; cases h
    | some y =>
      obtain ⟨s2, res⟩ := y
      rw [hr] at h
      cases res with
      | err e => cases h
      | panic m => cases h
      | ok out =>
        have h0 := hs rec fs _ _ _ _ hr
        obtain ⟨_, h2⟩ := Prod.mk.inj (Option.some.inj h)
        obtain ⟨_, h3⟩ := finishResult_ok h2
        have h4 : r.structFields = out := by rw [h3]; split <;> rfl
        rw [h4, h0]; simp
  cases fuel with
  | zero => exact hgo _ h
  | succ k => exact hgo _ h

example : (typeResult shopEnv true 3 [] none [] (shopEnv.underlying c!"shop" c!"Order" [])).map (fun o =>
    match o.2 with | .ok r => r.structFields.map (·.1) | _ => []) = some [c!"Items", c!"Total"] := by decide

/-! ### C21: pointers -/

mutual
/-- Remove all pointers from a type. -/
def erasePtr : GoType → GoType
  | .basic k n => .basic k n
  | .named p n a => .named p n a
  | .pointer e => erasePtr e
  | .slice e => .slice (erasePtr e)
  | .array l e => .array l (erasePtr e)
  | .map k v => .map (erasePtr k) (erasePtr v)
  | .struct fs => .struct (erasePtrs fs)
  | .interface => .interface
  | .other => .other
def erasePtrs : List (StructField × GoType) → List (StructField × GoType)
  | [] => []
  | (f, t) :: r => (f, erasePtr t) :: erasePtrs r
end

/-- The program with all pointers removed from its type definitions. -/
def erasePtrEnv (Γ : TypeEnv) : TypeEnv := { Γ with underlying := fun p n a => erasePtr (Γ.underlying p n a) }

def NotPointer : GoType → Prop
  | .pointer _ => False
  | _ => True

theorem typeStep_erase (Γ : TypeEnv) (adding : Bool) (rec rec' : TRec)
    (h : ∀ st p n a, rec st (some p) n (Γ.underlying p n a) = rec' st (some p) n (erasePtr (Γ.underlying p n a))) (t : GoType) :
    ∀ st pkg name, (name = [] ∨ NotPointer t) →
      typeStep Γ adding rec st pkg name t = typeStep (erasePtrEnv Γ) adding rec' st pkg name (erasePtr t) := by
  have hdoc : ∀ r pos, fieldDoc (erasePtrEnv Γ) r pos = fieldDoc Γ r pos := fun _ _ => rfl
  induction t using goType_induction with
  | basic k tn => intro st pkg name _; rfl
  | named p tn a =>
    intro st pkg name _
    cases p with
    | none => rfl
    | some p =>
      simp only [erasePtr, typeStep, erasePtrEnv, h]
      rfl
  | pointer e ih =>
    intro st pkg name hn
    have hn : name = [] := by rcases hn with h | h; exact h; exact absurd h (by simp [NotPointer])
    subst hn
    simp only [erasePtr]
    rw [typeStep.eq_5]
    exact ih _ _ _ (Or.inl rfl)
  | slice e ih => intro st pkg name _; simp only [erasePtr, typeStep, ih _ _ _ (Or.inl rfl)]
  | array l e ih => intro st pkg name _; simp only [erasePtr, typeStep, ih _ _ _ (Or.inl rfl)]
  | map k v ihk ihv => intro st pkg name _; simp only [erasePtr, typeStep, ihk _ _ _ (Or.inl rfl), ihv _ _ _ (Or.inl rfl)]
  | struct fs ih =>
    intro st pkg name _
    have hs : ∀ (l : List (StructField × GoType)), (∀ e ∈ l, e ∈ fs) → ∀ st acc,
        structStep Γ adding rec st pkg acc l = structStep (erasePtrEnv Γ) adding rec' st pkg acc (erasePtrs l) := by
      intro l
      induction l with
      | nil => intro _ st acc; rfl
      | cons e l ihl =>
        obtain ⟨g, u⟩ := e
        intro hl st acc
        have ihl := ihl (fun e he => hl e (by simp [he]))
        simp only [erasePtrs, structStep, hdoc]
        rw [← ih (g, u) (hl _ (by simp)) st pkg [] (Or.inl rfl)]
        split
        · exact ihl _ _
        · cases hr : typeStep Γ adding rec st pkg [] u with
          | none => rfl
          | some y =>
            obtain ⟨s2, res⟩ := y
            cases res with
            | err e => rfl
            | panic m => rfl
            | ok r =>
              simp only
              cases hd : fieldDoc Γ r g.pos with
              | err e => rfl
              | panic m => rfl
              | ok d => exact ihl _ _
    simp only [erasePtr, typeStep, hs fs (fun _ h => h)]
  | interface => intro st pkg name _; rfl
  | other => intro st pkg name _; rfl

/-- C21, partial: translating a type gives the same outcome and components as translating it in the program with all
pointers removed, at any depth. Missing: named types defined as pointers (`type P *T`), see below. -/
theorem pointers_transparent_partial (Γ : TypeEnv) (hΓ : ∀ p n a, NotPointer (Γ.underlying p n a)) (adding : Bool) (fuel : Nat)
    (st : List Field) (pkg : Option Str) (t : GoType) :
    typeResult Γ adding fuel st pkg [] t = typeResult (erasePtrEnv Γ) adding fuel st pkg [] (erasePtr t) := by
  have key : ∀ fuel st pkg name t, (name = [] ∨ NotPointer t) →
      typeResult Γ adding fuel st pkg name t = typeResult (erasePtrEnv Γ) adding fuel st pkg name (erasePtr t) := by
    intro fuel
    induction fuel with
    | zero => intro st pkg name t hn; exact typeStep_erase Γ adding _ _ (fun _ _ _ _ => rfl) t st pkg name hn
    | succ k ih =>
      intro st pkg name t hn
      exact typeStep_erase Γ adding _ _ (fun st p n a => ih _ _ _ _ (Or.inr (hΓ p n a))) t st pkg name hn
  exact key fuel st pkg [] t (Or.inl rfl)

example : erasePtr (.slice (.pointer (.pointer (.basic .int c!"int")))) = .slice (.basic .int c!"int") := rfl
example : ∀ p n a, NotPointer (shopEnv.underlying p n a) := by
  intro p n a
  simp only [shopEnv]
  split
  · trivial
  · split
    · trivial
    · split <;> trivial

/-- C19/C21 fail for a named pointer type: `type P *Item` gets a component without a name, and no component called `P`
exists although the result refers to `P`. -/
theorem named_pointer_loses_name :
    (typeResult { shopEnv with
        underlying := fun p n a => if n = c!"P" then .pointer (.named (some c!"shop") c!"Item" []) else shopEnv.underlying p n a }
      true 4 [] none [] (.named (some c!"shop") c!"P" [])).map (fun o =>
        (o.1.map (fun c => (c.name, c.package, c.type)), match o.2 with | .ok r => r.type | _ => [])) =
    some ([(c!"Money", c!"money", c!"int"), (c!"Item", c!"shop", c!"struct"), ([], c!"shop", c!"Item")], c!"P") := by
  decide +kernel

/-- C15/C18 fail: a struct that embeds a type of its own package makes the traversal panic, because the field found at the
position of an embedded field has no names. -/
theorem embedded_field_panics :
    (typeResult { shopEnv with
        underlying := fun p n a => if n = c!"Special" then
            .struct [({ name := c!"Item", embedded := true, pos := 7 }, .named (some c!"shop") c!"Item" [])]
          else shopEnv.underlying p n a,
        nodeAt := fun _ pos => if pos = 7 then .field [] [] else .other }
      true 4 [] none [] (.named (some c!"shop") c!"Special" [])).map (fun o => o.2.isPanic) = some true := by
  decide +kernel

end Astra.Props
