/-
C89, C90: schemas of Go types, and the JSON they admit. This file: what holds of any document that has the right entries.
-/
import Verif.Spec.JsonDoc

namespace Astra.Props
open Astra.Spec

theorem primitive_types : ∀ x ∈ primitives,
    (x.1 = c!"string" → x.2.1 = c!"string") ∧ (x.1 = c!"bool" → x.2.1 = c!"boolean") ∧
    (x.1 ∈ integerTypes → x.1 ∉ [c!"byte", c!"rune", c!"file"] → x.2.1 = c!"integer") ∧
    (x.1 ∈ [c!"float32", c!"float64"] → x.2.1 = c!"number") := by decide +kernel

/-- A description does not change what a schema admits. -/
theorem admits_description {schemas : List (Str × Schema)} {s : Schema} {v : Json} (h : Admits schemas s v) (d : Str) :
    Admits schemas { s with description := d } v := by
  cases h with
  | ref h1 h2 h3 => exact .ref (s := { s with description := d }) h1 h2 h3
  | here h1 h2 h3 h4 h5 h6 h7 => exact .here (s := { s with description := d }) h1 h2 h3 h4 h5 h6 h7

/-- A schema with only a type and a format admits what has that type. -/
theorem admits_plain {schemas : List (Str × Schema)} {type format : Str} {v : Json} (h : HasJsonType type v) :
    Admits schemas { type := type, format := format } v :=
  .here rfl h (Or.inl rfl) (by intro i xs h; cases h) (by intro ms k x t _ _ h; cases h) (by intro a ms k x h; cases h)
    (by intro t h; cases h)

/-- The JSON of a slice, map or struct is an array or an object. -/
theorem outline_admits {Γ : TypeEnv} {marshal : Str → Str → Option (Json → Prop)} {schemas : List (Str × Schema)} {t : GoType}
    (hc : Composite Γ t) {s : Schema} (ho : Outline t s) {v : Json} (h : Encodes Γ marshal false t v) : Admits schemas s v := by
  induction hc with
  | slice hb =>
    cases ho
    cases h with
    | slice _ _ => exact admits_plain (format := []) (Or.inr (Or.inr (Or.inr (Or.inr (Or.inr (Or.inl ⟨rfl, _, rfl⟩))))))
    | bytes _ h => exact absurd h hb
    | nilSlice h => cases h
  | map =>
    cases ho
    cases h with
    | map _ _ => exact admits_plain (format := []) (Or.inr (Or.inr (Or.inr (Or.inr (Or.inr (Or.inr ⟨rfl, _, rfl⟩))))))
    | nilMap h => cases h
  | struct =>
    cases ho
    cases h with
    | struct _ _ _ _ _ _ _ _ => exact admits_plain (format := []) (Or.inr (Or.inr (Or.inr (Or.inr (Or.inr (Or.inr ⟨rfl, _, rfl⟩))))))
  | pointer _ ih =>
    cases ho with
    | pointer ho =>
      cases h with
      | pointer h => exact ih ho h
      | nilPointer h => cases h

/-- The element type of a slice, array or map that is covered. -/
theorem outline_composite {Γ : TypeEnv} {e : GoType} {s : Schema} (ho : Outline e s) :
    (Describable Γ (.slice e) → Composite Γ e) ∧ (∀ l, Describable Γ (.array l e) → Composite Γ e) ∧
    (∀ k, Describable Γ (.map k e) → Composite Γ e) := by
  have hs : ¬ Single e := by
    intro h
    induction h with
    | basic _ _ => cases ho
    | named _ _ _ _ _ => cases ho
    | interface => cases ho
    | pointer _ ih => cases ho with | pointer ho => exact ih ho
  refine ⟨fun h => ?_, fun l h => ?_, fun k h => ?_⟩
  · cases h with
    | single h => cases h
    | slice h _ => exact absurd h hs
    | slices h => exact h
  · cases h with
    | single h => cases h
    | array h => exact absurd h hs
    | arrays h => exact h
  · cases h with
    | single h => cases h
    | map h => exact absurd h hs
    | maps h => exact h

/-- If every defined type has an entry that describes it, then the schema of a type admits every JSON value the type is encoded as. -/
theorem described_admits {Γ : TypeEnv} {marshal : Str → Str → Option (Json → Prop)} {target : Str → Str → Option Str}
    {schemas : List (Str × Schema)} {D : TName → Prop}
    (hD : ∀ x, D x → ∀ s, target x.1 x.2.1 = some s → ∃ e, (s, e) ∈ schemas ∧ Describes Γ marshal target D x e)
    {t : GoType} {v : Json} (h : Encodes Γ marshal false t v) :
    Describable Γ t → (∀ x, Occurs t x → D x) → ∀ s, TypeSchema target t s → Admits schemas s v := by
  have prim : ∀ {k : BasicKind} {n : Str} {v : Json} {s : Schema},
      (∀ type, n ∉ [c!"byte", c!"rune", c!"file"] → (∀ fmt, (n, type, fmt) ∈ primitives → HasJsonType type v)) →
      Describable Γ (.basic k n) → TypeSchema target (.basic k n) s → Admits schemas s v := by
    intro k n v s hv hd hs
    cases hs with
    | primitive hp =>
      refine admits_plain (hv _ ?_ _ hp)
      cases hd with
      | single h => cases h with | basic _ h => exact h
  let M1 : GoType → Json → Prop := fun t v =>
    (Describable Γ t → (∀ x, Occurs t x → D x) → ∀ s, TypeSchema target t s → Admits schemas s v) ∧
    ∀ fs, t = .struct fs → Embeds Γ marshal fs → (∀ e ∈ fs, e.1.embedded = true → NoJsonName e.1 ∧ ∃ z, Base e.2 z ∧ D z) →
      (∀ path y, Offers Γ fs path y → Describable Γ y.2 ∧ (∀ z, Occurs y.2 z → D z) ∧ ∀ k o, JsonMember y.1 k o → c!"string" ∉ o) →
      ∀ s, StructSchema target fs s → Admits schemas s v
  have main : M1 t v := by
    refine Encodes.rec (motive := fun t v _ => M1 t v) ?_ ?_ ?_ ?_ ?_ ?_ ?_ ?_ ?_ ?_ ?_ ?_ ?_ ?_ ?_ ?_ h
    · intro k s
      refine ⟨fun hd _ sch hs => ?_, fun fs e => by cases e⟩
      exact prim (fun type _ fmt hp => Or.inr (Or.inl ⟨(primitive_types _ hp).1 rfl, s, rfl⟩)) hd hs
    · intro k b
      refine ⟨fun hd _ sch hs => ?_, fun fs e => by cases e⟩
      exact prim (fun type _ fmt hp => Or.inr (Or.inr (Or.inl ⟨(primitive_types _ hp).2.1 rfl, b, rfl⟩))) hd hs
    · intro k n i hn
      refine ⟨fun hd _ sch hs => ?_, fun fs e => by cases e⟩
      exact prim (fun type hx fmt hp => Or.inr (Or.inr (Or.inr (Or.inl ⟨(primitive_types _ hp).2.2.1 hn hx, i, rfl⟩)))) hd hs
    · intro k n text hn
      refine ⟨fun hd _ sch hs => ?_, fun fs e => by cases e⟩
      exact prim (fun type hx fmt hp => Or.inr (Or.inr (Or.inr (Or.inr (Or.inl ⟨(primitive_types _ hp).2.2.2 hn, text, rfl⟩))))) hd hs
    · intro v
      refine ⟨fun _ _ s hs => ?_, fun fs e => by cases e⟩
      cases hs
      exact admits_plain (type := []) (format := []) (Or.inl rfl)
    · intro p n a v hm _ ih
      refine ⟨fun _ hocc s hs => ?_, fun fs e => by cases e⟩
      cases hs with
      | named ht =>
        obtain ⟨e, he, hdesc⟩ := hD (p, n, a) (hocc _ (.named p n a)) _ ht
        refine .ref rfl he ?_
        cases hdesc with
        | custom h1 _ => rw [h1] at hm; cases hm
        | declared h1 _ => rw [h1] at hm; cases hm
        | struct _ h1 h2 h3 h4 h5 => exact ih.2 _ h1 h3 h4 h5 _ h2
        | other _ h1 h2 h3 => exact admits_description (ih.1 h1 h3 _ h2) _
    · intro p n a M v hm hv
      refine ⟨fun _ hocc s hs => ?_, fun fs e => by cases e⟩
      cases hs with
      | named ht =>
        obtain ⟨e, he, hdesc⟩ := hD (p, n, a) (hocc _ (.named p n a)) _ ht
        refine .ref rfl he ?_
        cases hdesc with
        | custom h1 h2 =>
          simp only at h1
          rw [hm] at h1
          cases h1
          exact admits_description (admits_plain (h2 v hv)) _
        | declared h1 h2 =>
          simp only at h1
          rw [hm] at h1
          cases h1
          exact .here rfl (h2 v hv).1 (Or.inr (h2 v hv).2) (by intro i xs h; cases h) (by intro ms k x t _ _ h; cases h)
            (by intro a ms k x h; cases h) (by intro t h; cases h)
        | struct h0 => rw [h0] at hm; cases hm
        | other h0 => rw [h0] at hm; cases hm
    · intro e v _ ih
      refine ⟨fun hd hocc s hs => ?_, fun fs e => by cases e⟩
      cases hs with
      | pointer hs =>
        refine ih.1 ?_ (fun x hx => hocc x (.pointer hx)) s hs
        cases hd with
        | single h => cases h with | pointer h => exact .single h
        | pointer h => exact h
    · intro e xs _ henc ih
      refine ⟨fun hd hocc s hs => ?_, fun fs e => by cases e⟩
      cases hs with
      | slice hsi hs =>
        refine .here rfl (Or.inr (Or.inr (Or.inr (Or.inr (Or.inr (Or.inl ⟨rfl, xs, rfl⟩)))))) (Or.inl rfl) ?_ (by intro ms k x t e; cases e)
          (by intro a ms k x e; cases e) (by intro t e; cases e)
        intro i ys hi hy x hx
        cases hi
        cases hy
        exact (ih x hx).1 (.single hsi) (fun z hz => hocc z (.slice hz)) _ hs
      | slices ho =>
        have hcomp := (outline_composite ho).1 hd
        refine .here rfl (Or.inr (Or.inr (Or.inr (Or.inr (Or.inr (Or.inl ⟨rfl, xs, rfl⟩)))))) (Or.inl rfl) ?_ (by intro ms k x t e; cases e)
          (by intro a ms k x e; cases e) (by intro t e; cases e)
        intro i ys hi hy x hx
        cases hi
        cases hy
        exact outline_admits hcomp ho (henc x hx)
    · intro e text hb
      refine ⟨fun hd hocc s hs => ?_, fun fs e => by cases e⟩
      cases hd with
      | single h => cases h
      | slice _ h => exact absurd hb h
      | slices hc =>
        cases hc <;> exact hb.elim
    · intro l e xs _ henc ih
      refine ⟨fun hd hocc s hs => ?_, fun fs e => by cases e⟩
      cases hs with
      | array hsi hs =>
        refine .here rfl (Or.inr (Or.inr (Or.inr (Or.inr (Or.inr (Or.inl ⟨rfl, xs, rfl⟩)))))) (Or.inl rfl) ?_ (by intro ms k x t e; cases e)
          (by intro a ms k x e; cases e) (by intro t e; cases e)
        intro i ys hi hy x hx
        cases hi
        cases hy
        exact (ih x hx).1 (.single hsi) (fun z hz => hocc z (.array hz)) _ hs
      | arrays ho =>
        have hcomp := (outline_composite ho).2.1 l hd
        refine .here rfl (Or.inr (Or.inr (Or.inr (Or.inr (Or.inr (Or.inl ⟨rfl, xs, rfl⟩)))))) (Or.inl rfl) ?_ (by intro ms k x t e; cases e)
          (by intro a ms k x e; cases e) (by intro t e; cases e)
        intro i ys hi hy x hx
        cases hi
        cases hy
        exact outline_admits hcomp ho (henc x hx)
    · intro k e ms _ henc ih
      refine ⟨fun hd hocc s hs => ?_, fun fs e => by cases e⟩
      cases hs with
      | map hsi hs =>
        refine .here rfl (Or.inr (Or.inr (Or.inr (Or.inr (Or.inr (Or.inr ⟨rfl, ms, rfl⟩)))))) (Or.inl rfl) (by intro i xs h e; cases e)
          (by intro ms k x t _ _ e; cases e) ?_ (by intro t e; cases e)
        intro a ys k x ha hy hx _
        cases ha
        cases hy
        exact (ih _ hx).1 (.single hsi) (fun z hz => hocc z (.value hz)) _ hs
      | maps ho =>
        have hcomp := (outline_composite ho).2.2 k hd
        refine .here rfl (Or.inr (Or.inr (Or.inr (Or.inr (Or.inr (Or.inr ⟨rfl, ms, rfl⟩)))))) (Or.inl rfl) (by intro i xs h e; cases e)
          (by intro ms k x t _ _ e; cases e) ?_ (by intro t e; cases e)
        intro a ys k x ha hy hx _
        cases ha
        cases hy
        exact outline_admits hcomp ho (henc _ hx)
    · intro fs ms place opts field _ hwins _ _ _ ih
      refine ⟨fun hd => ?_, ?_⟩
      · cases hd with
        | single h => cases h
      · intro fs' e hemb hbase hfit s hs
        cases e
        -- the schema of a struct whose fields are among those of the struct admits the value
        have part : ∀ gs pre, (∀ path e, Offers Γ gs path e → Offers Γ fs (pre ++ path) e) →
            ∀ k x u, (k, x) ∈ ms → (∃ e ∈ gs, e.1.exported = true ∧ e.1.embedded = false ∧ (∃ opts, JsonMember e.1 k opts) ∧ TypeSchema target e.2 u) →
            Admits schemas u x := by
          intro gs pre hoff k x u hx ⟨e, he, hexp, hne, ⟨o, hm⟩, hts⟩
          obtain ⟨i, hi⟩ := List.mem_iff_getElem?.mp he
          have ho : Offers Γ fs (pre ++ [i]) e := hoff [i] e (.own hi hexp (fun gs h => by have := h.1; rw [hne] at this; cases this))
          have hw := hwins (k, x) hx
          have hty := hemb.agree _ _ _ _ _ _ _ ho hm hw
          obtain ⟨d1, d2, d3⟩ := hfit _ _ hw.offered
          refine (ih (k, x) hx (d3 _ _ hw.member)).1 d1 d2 u ?_
          rw [hty]
          exact hts
        have key : ∀ gs, EmbedsFinitely Γ gs → ∀ pre, (∀ path e, Offers Γ gs path e → Offers Γ fs (pre ++ path) e) →
            (∀ e ∈ gs, e.1.embedded = true → ∀ x, Base e.2 x → marshal x.1 x.2.1 = none ∧ ∃ gs', Γ.underlying x.1 x.2.1 x.2.2 = .struct gs') →
            (∀ e ∈ gs, e.1.embedded = true → NoJsonName e.1 ∧ ∃ z, Base e.2 z ∧ D z) →
            ∀ s, StructSchema target gs s → Admits schemas s (.obj ms) := by
          intro gs hfin
          induction hfin with
          | @mk gs _ ihf =>
            intro pre hoff hstr hb s hs
            obtain ⟨⟨props, parts, d, rfl⟩, hparts, _, hex⟩ := hs
            refine .here rfl (Or.inr (Or.inr (Or.inr (Or.inr (Or.inr (Or.inr ⟨rfl, ms, rfl⟩)))))) (Or.inl rfl) (by intro i xs h e; cases e)
              ?_ (by intro a ms k x e; cases e) ?_
            · intro ms' k x t hv hx ht
              cases hv
              exact part gs pre hoff k x t hx ((hex k t).mp (Or.inl ht))
            · intro u hu
              rcases hparts u hu with ⟨e, he, hexp, hem, hts⟩ | ⟨props', rfl⟩
              · obtain ⟨hno, z, hz, hDz⟩ := hb e he hem
                obtain ⟨hmz, gs', hgs'⟩ := hstr e he hem z hz
                have href : ∃ n, target z.1 z.2.1 = some n ∧ u = { ref := c!"#/components/schemas/" ++ n } := by
                  generalize e.2 = t at hz hts
                  cases hz with
                  | value p n a => cases hts with | named h => exact ⟨_, h, rfl⟩
                  | pointer p n a => cases hts with | pointer h => cases h with | named h => exact ⟨_, h, rfl⟩
                obtain ⟨n, hn, rfl⟩ := href
                obtain ⟨en, hen, hdesc⟩ := hD z hDz n hn
                refine .ref rfl hen ?_
                obtain ⟨i, hi⟩ := List.mem_iff_getElem?.mp he
                have hin : Inlines Γ e gs' := ⟨hem, hno, z, hz, hgs'⟩
                cases hdesc with
                | custom h1 _ => rw [h1] at hmz; cases hmz
                | declared h1 _ => rw [h1] at hmz; cases hmz
                | struct _ h1 h2 h3 h4 h5 =>
                  rw [h1] at hgs'
                  cases hgs'
                  refine ihf e he _ hin (pre ++ [i]) ?_ h3.structs h4 _ h2
                  intro path y hy
                  rw [List.append_assoc]
                  exact hoff _ _ (.inner hi hin hy)
                | other _ h1 => rw [hgs'] at h1; cases h1 with | single h => cases h
              · refine .here rfl (Or.inl rfl) (Or.inl rfl) (by intro i xs h; cases h) ?_ (by intro a ms k x e; cases e) (by intro t e; cases e)
                intro ms' k x t hv hx ht
                cases hv
                exact part gs pre hoff k x t hx ((hex k t).mp (Or.inr ⟨_, hu, ht⟩))
        exact key fs hemb.finite [] (fun _ _ h => h) hemb.structs hbase s hs
    · intro e h; cases h
    · intro e h; cases h
    · intro k e h; cases h
  exact main.1

end Astra.Props
