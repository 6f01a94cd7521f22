/-
C89: where the components come from. Every component was made from the definition of a type, and with it come those of the types that the
definition uses.
-/
import Verif.Props.DocEntries

namespace Astra.Props
open Astra.Spec

/-- A relation between the components before and after a traversal holds if it holds for each defined type on the way. -/
theorem typeStep_grows (Γ : TypeEnv) (adding : Bool) (rec : TRec) (Q : List Field → List Field → Prop) (hrefl : ∀ st, Q st st)
    (htrans : ∀ a b c, Q a b → Q b c → Q a c) (t : GoType)
    (hnamed : ∀ p tn a, Occurs t (p, tn, a) → ∀ st st' r, rec st (some p) tn (Γ.underlying p tn a) = some (st', r) →
      Q st st' ∧ ∀ r2, r = .ok r2 → Q st (pushComponent st' { r2 with doc := typeDoc Γ p tn })) :
    ∀ st pkg name st' r, typeStep Γ adding rec st pkg name t = some (st', r) → Q st st' := by
  induction t using goType_induction with
  | basic k tn =>
    intro st pkg name st' r h
    simp only [typeStep] at h
    split at h
    · cases h; exact hrefl _
    · split at h
      · cases h; exact hrefl _
      · split at h <;> (cases h; exact hrefl _)
  | named p tn a =>
    intro st pkg name st' r h
    cases p with
    | none => simp only [typeStep] at h; cases h; exact hrefl _
    | some p =>
      simp only [typeStep] at h
      split at h
      · cases h; exact hrefl _
      · split at h
        · cases hr : rec st (some p) tn (Γ.underlying p tn a) with
          | none => rw [hr] at h; cases h
          | some x =>
            obtain ⟨s2, res⟩ := x
            have h1 := hnamed p tn a (.named p tn a) _ _ _ hr
            rw [hr] at h
            cases res with
            | err e => cases h; exact h1.1
            | panic m => cases h; exact h1.1
            | ok r2 => cases h; exact h1.2 r2 rfl
        · cases h; exact hrefl _
  | pointer e ih =>
    intro st pkg name st' r h
    simp only [typeStep] at h
    exact ih (fun p tn a ho => hnamed p tn a (.pointer ho)) _ _ _ _ _ h
  | slice e ih =>
    intro st pkg name st' r h
    simp only [typeStep] at h
    cases hr : typeStep Γ adding rec st pkg [] e with
    | none => rw [hr] at h; cases h
    | some x =>
      obtain ⟨s2, res⟩ := x
      have h1 := ih (fun p tn a ho => hnamed p tn a (.slice ho)) _ _ _ _ _ hr
      rw [hr] at h
      cases res <;> (cases h; exact h1)
  | array l e ih =>
    intro st pkg name st' r h
    simp only [typeStep] at h
    cases hr : typeStep Γ adding rec st pkg [] e with
    | none => rw [hr] at h; cases h
    | some x =>
      obtain ⟨s2, res⟩ := x
      have h1 := ih (fun p tn a ho => hnamed p tn a (.array ho)) _ _ _ _ _ hr
      rw [hr] at h
      cases res <;> (cases h; exact h1)
  | map k v ihk ihv =>
    intro st pkg name st' r h
    simp only [typeStep] at h
    cases hr : typeStep Γ adding rec st pkg [] k with
    | none => rw [hr] at h; cases h
    | some x =>
      obtain ⟨s2, res⟩ := x
      have h1 := ihk (fun p tn a ho => hnamed p tn a (.key ho)) _ _ _ _ _ hr
      rw [hr] at h
      cases res with
      | err e => cases h; exact h1
      | panic m => cases h; exact h1
      | ok kr =>
        simp only at h
        cases hv : typeStep Γ adding rec s2 pkg [] v with
        | none => rw [hv] at h; cases h
        | some y =>
          obtain ⟨s3, res'⟩ := y
          have h2 := ihv (fun p tn a ho => hnamed p tn a (.value ho)) _ _ _ _ _ hv
          rw [hv] at h
          cases res' <;> (cases h; exact htrans _ _ _ h1 h2)
  | struct fs ih =>
    intro st pkg name st' r h
    have hs : ∀ (l : List (StructField × GoType)), (∀ e ∈ l, e ∈ fs) → ∀ st acc st' out,
        structStep Γ adding rec st pkg acc l = some (st', out) → Q st st' := by
      intro l
      induction l with
      | nil => intro _ st acc st' out h; simp only [structStep] at h; cases h; exact hrefl _
      | cons e l ihl =>
        obtain ⟨f, t⟩ := e
        intro hl st acc st' out h
        have hl' : ∀ e ∈ l, e ∈ fs := fun e he => hl e (by simp [he])
        simp only [structStep] at h
        split at h
        · exact ihl hl' _ _ _ _ h
        · rename_i hx
          have hx : f.exported = true := by simpa using hx
          cases hr : typeStep Γ adding rec st pkg [] t with
          | none => rw [hr] at h; cases h
          | some x =>
            obtain ⟨s2, res⟩ := x
            have h1 := ih (f, t) (hl _ (by simp)) (fun p tn a ho => hnamed p tn a (.field (hl _ (by simp)) hx ho)) _ _ _ _ _ hr
            rw [hr] at h
            cases res with
            | err e => cases h; exact h1
            | panic m => cases h; exact h1
            | ok r2 =>
              simp only at h
              cases hd : fieldDoc Γ r2 f.pos with
              | err e => rw [hd] at h; cases h; exact h1
              | panic m => rw [hd] at h; cases h; exact h1
              | ok d => rw [hd] at h; exact htrans _ _ _ h1 (ihl hl' _ _ _ _ h)
    simp only [typeStep] at h
    cases hr : structStep Γ adding rec st pkg [] fs with
    | none => rw [hr] at h; cases h
    | some x =>
      obtain ⟨s2, res⟩ := x
      have h1 := hs fs (fun _ h => h) _ _ _ _ hr
      rw [hr] at h
      cases res <;> (cases h; exact h1)
  | interface => intro st pkg name st' r h; simp only [typeStep] at h; cases h; exact hrefl _
  | other => intro st pkg name st' r h; simp only [typeStep] at h; cases h; exact hrefl _

/-- The component, as it was collected, is that of the definition of the type. -/
def RawFrom (Γ : TypeEnv) (x : TName) (c : Field) : Prop :=
  ∃ k st st' r, typeResult Γ true k st (some x.1) x.2.1 (Γ.underlying x.1 x.2.1 x.2.2) = some (st', .ok r) ∧
    c = parseResultToField { r with doc := typeDoc Γ x.1 x.2.1 }

theorem RawFrom.clean {Γ : TypeEnv} {x : TName} {c : Field} (h : RawFrom Γ x c) (m : Str) : MadeFrom Γ m x (cleanField m c) := by
  obtain ⟨k, st, st', r, h1, rfl⟩ := h
  exact ⟨k, st, st', r, h1, rfl⟩

/-- The types whose definitions are recorded under their own names, with no two instances of one generic type. -/
structure OwnTypes (Γ : TypeEnv) (D : TName → Prop) : Prop where
  closed : ∀ x, D x → ∀ y, Uses Γ x y → D y
  names : ∀ x, D x → x.1 ≠ [] ∧ x.2.1 ≠ []
  own : ∀ x, D x → OwnDefinition x.1 (Γ.underlying x.1 x.2.1 x.2.2)
  instances : ∀ x, D x → ∀ y, D y → x.1 = y.1 → x.2.1 = y.2.1 → x = y

theorem Documentable.ownTypes {Γ : TypeEnv} {marshal : Str → Str → Option (Json → Prop)} {types : List (Str × TypeFormat)} {m : Str}
    {D : TName → Prop} (h : Documentable Γ marshal types m D) : OwnTypes Γ D :=
  ⟨h.closed, fun x hx => ⟨(h.names x hx).1, (h.names x hx).2.1⟩, h.own, h.instances⟩

theorem result_identity {Γ : TypeEnv} {D : TName → Prop} (hD : OwnTypes Γ D) {x : TName} (hx : D x) {k : Nat} {st st' : List Field} {r : Result}
    (h : typeResult Γ true k st (some x.1) x.2.1 (Γ.underlying x.1 x.2.1 x.2.2) = some (st', .ok r)) : r.name = x.2.1 ∧ r.package = some x.1 := by
  have hn := hD.names x hx
  have ho := hD.own x hx
  cases k with
  | zero => exact ⟨own_name Γ _ _ _ hn.2 _ ho _ _ _ h, element_package Γ _ _ _ (own_element ho) _ _ _ _ h⟩
  | succ k => exact ⟨own_name Γ _ _ _ hn.2 _ ho _ _ _ h, element_package Γ _ _ _ (own_element ho) _ _ _ _ h⟩

theorem raw_identity {Γ : TypeEnv} {D : TName → Prop} (hD : OwnTypes Γ D) {x : TName} (hx : D x) {c : Field} (h : RawFrom Γ x c) :
    c.name = x.2.1 ∧ c.package = x.1 := by
  obtain ⟨k, st, st', r, h1, rfl⟩ := h
  obtain ⟨i1, i2⟩ := result_identity hD hx h1
  have hn := hD.names x hx
  refine ⟨by rw [parse_name]; exact i1, ?_⟩
  rw [parse_package _ (by show r.name ≠ []; rw [i1]; exact hn.2)]
  show r.package.getD [] = _
  rw [i2]
  rfl

/-- Every component was made from the definition of a type of `D`, and the types that this definition uses have components too. -/
def Rooted (Γ : TypeEnv) (D : TName → Prop) (st : List Field) : Prop :=
  ∀ c ∈ st, ∃ x, D x ∧ RawFrom Γ x c ∧ ∀ y, Uses Γ x y → ∃ c' ∈ st, RawFrom Γ y c'

theorem rooted_nil (Γ : TypeEnv) (D : TName → Prop) : Rooted Γ D [] := by intro c hc; cases hc

theorem raw_of_component {Γ : TypeEnv} {D : TName → Prop} (hD : OwnTypes Γ D) {st : List Field} (hst : Rooted Γ D st) {x : TName} (hx : D x)
    (h : HasComponent st x) : ∃ c ∈ st, RawFrom Γ x c := by
  obtain ⟨c, hc, h1, h2⟩ := h
  obtain ⟨y, hy, hraw, _⟩ := hst c hc
  obtain ⟨i1, i2⟩ := raw_identity hD hy hraw
  have : x = y := hD.instances x hx y hy (by rw [← h2, i2]) (by rw [← h1, i1])
  subst this
  exact ⟨c, hc, hraw⟩

theorem addComponent_mem (st : List Field) (c : Field) : ∀ y ∈ addComponent st [c], y ∈ st ∨ y = c := by
  intro y hy
  unfold addComponent at hy
  simp only [List.foldl_cons, List.foldl_nil] at hy
  unfold addComponent1 at hy
  split at hy
  · simp only [List.mem_append, List.mem_singleton] at hy; exact hy
  · split at hy
    · exact Or.inl hy
    · simp only [List.mem_append, List.mem_singleton] at hy; exact hy

/-- Translating a type whose defined types are in `D` keeps the components rooted. -/
theorem typeResult_rooted {Γ : TypeEnv} {D : TName → Prop} (hD : OwnTypes Γ D) (k : Nat) : ∀ t, (∀ x, Occurs t x → D x) →
    ∀ st pkg name st' r, typeResult Γ true k st pkg name t = some (st', r) → Rooted Γ D st → Rooted Γ D st' := by
  induction k with
  | zero =>
    intro t _ st pkg name st' r h
    exact typeStep_grows Γ true _ (fun a b => Rooted Γ D a → Rooted Γ D b) (fun _ h => h) (fun _ _ _ h1 h2 h => h2 (h1 h)) t
      (fun p tn a _ st st' r h => by cases h) st pkg name st' r h
  | succ k ih =>
    intro t ht st pkg name st' r h
    refine typeStep_grows Γ true _ (fun a b => Rooted Γ D a → Rooted Γ D b) (fun _ h => h) (fun _ _ _ h1 h2 h => h2 (h1 h)) t ?_ st pkg name st' r h
    intro p tn a ho st st' r hr
    have hx := ht _ ho
    have h1 := ih _ (hD.closed _ hx) st (some p) tn st' r hr
    refine ⟨h1, ?_⟩
    rintro r2 rfl hst
    have hst' := h1 hst
    have hpre := pushComponent_keeps st' { r2 with doc := typeDoc Γ p tn }
    have hraw : RawFrom Γ (p, tn, a) (parseResultToField { r2 with doc := typeDoc Γ p tn }) := ⟨k, st, st', r2, hr, rfl⟩
    have huses : ∀ y, Uses Γ (p, tn, a) y → ∃ c' ∈ st', RawFrom Γ y c' := by
      intro y hy
      have hy' := hD.closed _ hx y hy
      refine raw_of_component hD hst' hy' ?_
      -- the translation of the definition is one of the named type
      have hn := hD.names y hy'
      have hs : typeResult Γ true k st (some p) tn (Γ.underlying p tn a) = some (st', .ok r2) := hr
      exact (typeResult_closed Γ k _ y hy _ _ _ _ _ hs).2 ⟨hn.1, hn.2, hD.own y hy'⟩
    intro c hc
    unfold pushComponent at hc
    split at hc
    · rename_i hp
      rcases addComponent_mem _ _ c hc with hc | rfl
      · obtain ⟨x, k1, k2, k3⟩ := hst' c hc
        refine ⟨x, k1, k2, fun y hy => ?_⟩
        obtain ⟨c', hc', hr'⟩ := k3 y hy
        exact ⟨c', hpre.subset hc', hr'⟩
      · refine ⟨_, hx, hraw, fun y hy => ?_⟩
        obtain ⟨c', hc', hr'⟩ := huses y hy
        exact ⟨c', hpre.subset hc', hr'⟩
    · obtain ⟨x, k1, k2, k3⟩ := hst' c hc
      refine ⟨x, k1, k2, fun y hy => ?_⟩
      obtain ⟨c', hc', hr'⟩ := k3 y hy
      exact ⟨c', hpre.subset hc', hr'⟩

/-- The types of `D` that have a component. -/
def Recorded (Γ : TypeEnv) (D : TName → Prop) (st : List Field) (x : TName) : Prop := D x ∧ ∃ c ∈ st, RawFrom Γ x c

theorem recorded_closed {Γ : TypeEnv} {D : TName → Prop} (hD : OwnTypes Γ D) {st : List Field} (hst : Rooted Γ D st) :
    ∀ x, Recorded Γ D st x → ∀ y, Uses Γ x y → Recorded Γ D st y := by
  rintro x ⟨hx, c, hc, hraw⟩ y hy
  obtain ⟨x', hx', hraw', hall⟩ := hst c hc
  have i := raw_identity hD hx hraw
  have i' := raw_identity hD hx' hraw'
  have : x = x' := hD.instances x hx x' hx' (by rw [← i.2, i'.2]) (by rw [← i.1, i'.1])
  subst this
  exact ⟨hD.closed x hx y hy, hall y hy⟩

theorem Documentable.recorded {Γ : TypeEnv} {marshal : Str → Str → Option (Json → Prop)} {types : List (Str × TypeFormat)} {m : Str}
    {D : TName → Prop} (h : Documentable Γ marshal types m D) {st : List Field} (hst : Rooted Γ D st) :
    Documentable Γ marshal types m (Recorded Γ D st) where
  closed := recorded_closed (Documentable.ownTypes h) hst
  names := fun x hx => h.names x hx.1
  duration := fun x hx => h.duration x hx.1
  instances := fun x hx y hy => h.instances x hx.1 y hy.1
  main := fun x hx => h.main x hx.1
  own := fun x hx => h.own x hx.1
  fits := fun x hx => h.fits x hx.1
  formats := h.formats
  separable := fun pkgs hp => h.separable pkgs (fun q hq => by obtain ⟨x, hx, e⟩ := hp q hq; exact ⟨x, hx.1, e⟩)

theorem rooted_made {Γ : TypeEnv} {D : TName → Prop} {st : List Field} (hst : Rooted Γ D st) (m : Str) :
    MadeFromAll Γ m (Recorded Γ D st) (st.map (cleanField m)) := by
  refine ⟨?_, ?_⟩
  · intro c hc
    obtain ⟨c0, hc0, rfl⟩ := List.mem_map.mp hc
    obtain ⟨x, hx, hraw, _⟩ := hst c0 hc0
    exact ⟨x, ⟨hx, c0, hc0, hraw⟩, hraw.clean m⟩
  · rintro x ⟨hx, c, hc, hraw⟩
    exact ⟨_, List.mem_map.mpr ⟨c, hc, rfl⟩, hraw.clean m⟩

/-- After the translation of a type, what it reaches is recorded. -/
theorem reached_recorded {Γ : TypeEnv} {D : TName → Prop} (hD : OwnTypes Γ D) {st st' : List Field} {pkg : Option Str} {t : GoType} {r : Result}
    (ht : ∀ x, Occurs t x → D x) (h : Translates Γ st pkg t (st', .ok r)) (hst : Rooted Γ D st') : ∀ x, Occurs t x → Recorded Γ D st' x := by
  intro x hx
  have hn := hD.names x (ht x hx)
  exact ⟨ht x hx, raw_of_component hD hst (ht x hx) (components_closed_partial Γ st pkg t st' r h x (.direct hx) hn.1 hn.2 (hD.own x (ht x hx)))⟩

theorem Recorded.mono {Γ : TypeEnv} {D : TName → Prop} {st st' : List Field} (hp : st <+: st') {x : TName} (h : Recorded Γ D st x) :
    Recorded Γ D st' x := ⟨h.1, by obtain ⟨c, hc, hr⟩ := h.2; exact ⟨c, hp.subset hc, hr⟩⟩

end Astra.Props
