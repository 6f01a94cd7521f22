/-
C30, C31: schema names.
-/
import Verif.Lemmas.OpenApiNames
import Verif.Props.BindingTags

namespace Astra.Props
open Spec

/-- An iteration order of the runtime: some rearrangement of the entries. -/
def AnyOrder (order : List (Str × List Field) → List (Str × List Field)) : Prop := ∀ l, (order l).Perm l

/-- No package is shallower than the depth at which two packages of its name differ. -/
def DeepEnough (pkgs : List Str) : Prop :=
  ∀ p ∈ pkgs, ∀ q ∈ pkgs, ∀ r ∈ pkgs, lastSegment p = lastSegment r → lastSegment q = lastSegment r →
    ∀ k, DifferAt k p q → k < (segments r).length

/-- C31 (partial): schema naming returns, in every iteration order and with any earlier names in the table, when no package
path is shorter than the depth at which two other packages of the same name differ. Missing: all other component lists, for
which the code panics (`schema_naming_panics`). -/
theorem schema_naming_total_partial (components : List Field) (order : List (Str × List Field) → List (Str × List Field))
    (hord : AnyOrder order) (table : List (Str × Str)) (h : DeepEnough (components.map (·.package))) :
    ∃ names, makeNames order components table = .ok names := by
  apply nameGroups_ok
  intro x hx c hc
  have hx' := (hord _).mem_iff.mp hx
  obtain ⟨hcm, hg⟩ := (groupByPackage_spec components).1 x hx' c hc
  rcases sameUntil_cases (x.2.map (·.package)) with h0 | ⟨p, hp, q, hq, hd⟩
  · exact Or.inl h0
  · right
    rw [hg] at hp hq
    simp only [groupOf, List.mem_map, List.mem_filter, decide_eq_true_eq] at hp hq
    obtain ⟨cp, ⟨hcp, hlp⟩, rfl⟩ := hp
    obtain ⟨cq, ⟨hcq, hlq⟩, rfl⟩ := hq
    exact h _ (List.mem_map.mpr ⟨cp, hcp, rfl⟩) _ (List.mem_map.mpr ⟨cq, hcq, rfl⟩) _ (List.mem_map.mpr ⟨c, hcm, rfl⟩) hlp hlq
      _ hd

/-- C31: schema naming returns whenever no three different packages share a package name. -/
theorem schema_naming_total_two (components : List Field) (order : List (Str × List Field) → List (Str × List Field))
    (hord : AnyOrder order) (table : List (Str × Str))
    (h : ∀ g, ∃ p q, ∀ c ∈ components, lastSegment c.package = g → c.package = p ∨ c.package = q) :
    ∃ names, makeNames order components table = .ok names := by
  apply schema_naming_total_partial components order hord table
  intro p hp q hq r hr hpr hqr k hd
  obtain ⟨cp, hcp, rfl⟩ := List.mem_map.mp hp
  obtain ⟨cq, hcq, rfl⟩ := List.mem_map.mp hq
  obtain ⟨cr, hcr, rfl⟩ := List.mem_map.mp hr
  obtain ⟨_, a, b, ha, hb, hne⟩ := hd
  have la : k < (segments cp.package).length := by
    have := (List.getElem?_eq_some_iff.mp ha).1
    rwa [List.length_reverse] at this
  have lb : k < (segments cq.package).length := by
    have := (List.getElem?_eq_some_iff.mp hb).1
    rwa [List.length_reverse] at this
  have hpq : cp.package ≠ cq.package := by
    intro e
    rw [e, hb] at ha
    exact hne (by simpa using ha.symm)
  obtain ⟨x, y, hxy⟩ := h (lastSegment cr.package)
  have h1 := hxy cp hcp hpr
  have h2 := hxy cq hcq hqr
  have h3 := hxy cr hcr rfl
  have : cr.package = cp.package ∨ cr.package = cq.package := by
    rcases h1 with h1 | h1 <;> rcases h2 with h2 | h2 <;> rcases h3 with h3 | h3 <;>
      first
        | exact absurd (h1.trans h2.symm) hpq
        | exact Or.inl (h3.trans h1.symm)
        | exact Or.inr (h3.trans h2.symm)
  rcases this with e | e
  · rw [e]; exact la
  · rw [e]; exact lb

/-- Two packages named `api` and one named `model`. -/
def twoApis : List Field := [
  { name := c!"User", package := c!"github.com/a/api" }, { name := c!"User", package := c!"github.com/b/api" },
  { name := c!"User", package := c!"github.com/a/model" }]

example : DeepEnough (twoApis.map (·.package)) := by
  intro p hp q hq r hr hpr hqr k hd
  have hk : k < 3 := by
    obtain ⟨_, a, _, ha, _⟩ := hd
    have := (List.getElem?_eq_some_iff.mp ha).1
    rw [List.length_reverse] at this
    have hl : ∀ p ∈ twoApis.map (·.package), (segments p).length = 3 := by decide +kernel
    rwa [hl p hp] at this
  have hl : ∀ p ∈ twoApis.map (·.package), (segments p).length = 3 := by decide +kernel
  rw [hl r hr]
  exact hk

/-- Three packages named `x`, one of them at the root. -/
def shallowPackages : List Field := [
  { name := c!"A", package := c!"a/b/x" }, { name := c!"B", package := c!"c/b/x" }, { name := c!"C", package := c!"x" }]

/-- C31, violated: naming these components panics in every iteration order. -/
theorem schema_naming_panics (order : List (Str × List Field) → List (Str × List Field)) (hord : AnyOrder order)
    (table : List (Str × Str)) : (makeNames order shallowPackages table).isPanic = true := by
  have hg : groupByPackage shallowPackages = [(c!"x", shallowPackages)] := by decide +kernel
  have : order [(c!"x", shallowPackages)] = [(c!"x", shallowPackages)] := List.perm_singleton.mp (hord _)
  unfold makeNames
  rw [hg, this]
  have he : (extractBindingTags ([] : List (Str × Field))) = (bindingTags, false) := by decide
  simp only [nameGroups, shallowPackages, nameGroup, he, bindingTags, nameTags, safeName, split]
  rfl

/-! ### C30 -/

theorem pkgPart_lastSegment {s s' : Nat} {p q : Str} (h : pkgPart s p = pkgPart s' q) (hp : '.' ∉ lastSegment p)
    (hq : '.' ∉ lastSegment q) : lastSegment p = lastSegment q := by
  have h1 : ∀ s p, '.' ∉ lastSegment p → afterLast '.' (pkgPart s p) = lastSegment p := by
    intro s p hp
    rcases pkgPart_ends s p with e | ⟨y, e⟩
    · rw [e, afterLast_of_not_mem hp]
    · rw [e, afterLast_append _ hp]
  rw [← h1 s p hp, h, h1 s' q hq]

theorem pkgPart_ne_binding {s s' : Nat} {p q : Str} {b : BTag} (hp : PlainPackage p) :
    pkgPart s p ≠ pkgPart s' q ++ '.' :: b.toStr := by
  intro h
  obtain ⟨h1, h2, h3⟩ := hp
  have e : lastSegment p = b.toStr := by
    rcases pkgPart_ends s p with e | ⟨y, e⟩
    · rw [e] at h
      exact absurd (by rw [h]; simp) h1
    · rw [e] at h
      exact (append_sep_inj h h1 (toStr_no_dot b)).2
  rcases @toStr_kind b with hk | hk
  · exact h2 (e ▸ hk)
  · exact h3 (e.trans hk)

/-- Two written names are equal only for the same name and package. -/
theorem writes_name_inj {components : List Field} {c c' : Field} {b b' : BTag} {k k' n : Str} (hc : c ∈ components)
    (hc' : c' ∈ components) (h : Writes components c b k n) (h' : Writes components c' b' k' n)
    (hsep : Separable (components.map (·.package))) (hname : '.' ∉ c.name) (hname' : '.' ∉ c'.name)
    (hpkg : PlainPackage c.package) (hpkg' : PlainPackage c'.package) :
    c.name = c'.name ∧ c.package = c'.package := by
  obtain ⟨_, _, hs⟩ := h
  obtain ⟨_, _, hs'⟩ := h'
  have e := safeName_eq hs
  have e' := safeName_eq hs'
  rw [e] at e'
  obtain ⟨e1, e2⟩ := append_sep_inj e' hname hname'
  refine ⟨e2, ?_⟩
  have e3 : pkgPart (sameUntil ((groupOf components c.package).map (·.package))) c.package
      = pkgPart (sameUntil ((groupOf components c'.package).map (·.package))) c'.package := by
    split at e1
    · split at e1
      · exact (append_sep_inj e1 (toStr_no_dot _) (toStr_no_dot _)).1
      · exact absurd e1.symm (pkgPart_ne_binding hpkg')
    · split at e1
      · exact absurd e1 (pkgPart_ne_binding hpkg)
      · exact e1
  have hl := pkgPart_lastSegment e3 hpkg.1 hpkg'.1
  have hg : groupOf components c.package = groupOf components c'.package := by unfold groupOf; rw [hl]
  rw [← hg] at e3
  refine Decidable.byContradiction (fun hne => ?_)
  obtain ⟨d, hd⟩ := hsep (lastSegment c.package)
  have hmem : ∀ p ∈ (groupOf components c.package).map (·.package),
      p ∈ components.map (·.package) ∧ lastSegment p = lastSegment c.package := by
    intro p hp
    obtain ⟨f, hf, rfl⟩ := List.mem_map.mp hp
    simp only [groupOf, List.mem_filter, decide_eq_true_eq] at hf
    exact ⟨List.mem_map.mpr ⟨f, hf.1, rfl⟩, hf.2⟩
  have h1 : c.package ∈ (groupOf components c.package).map (·.package) :=
    List.mem_map.mpr ⟨c, by simp [groupOf, hc], rfl⟩
  have h2 : c'.package ∈ (groupOf components c.package).map (·.package) :=
    List.mem_map.mpr ⟨c', by simp [groupOf, hc', hl], rfl⟩
  have hsu : sameUntil ((groupOf components c.package).map (·.package)) = d := by
    apply sameUntil_of_separated
    · intro p hp q hq hpq
      exact hd p (hmem p hp).1 q (hmem q hq).1 (hmem p hp).2 (hmem q hq).2 hpq
    · exact ⟨_, h1, _, h2, hne⟩
  rw [hsu] at e3
  have hdiff := hd _ (hmem _ h1).1 _ (hmem _ h2).1 rfl hl.symm hne
  have hpos : 0 < d := by
    refine Nat.pos_of_ne_zero (fun h0 => ?_)
    subst h0
    obtain ⟨_, x, y, hx, hy, hxy⟩ := hdiff
    apply hxy
    have hh : ∀ p : Str, (segments p).reverse[0]? = some (lastSegment p) := by
      intro p
      rw [← List.head?_eq_getElem?, List.head?_reverse]
      unfold lastSegment segments
      rw [List.getLastD_eq_getLast?, List.getLast?_eq_some_getLast (split_ne_nil '/' p)]
      rfl
    rw [hh] at hx hy
    injection hx with hx
    injection hy with hy
    rw [← hx, ← hy, hl]
  exact pkgPart_inj hpos hdiff e3

/-- The schema names a component has: the names references to it can use. -/
theorem refName_writes {order : List (Str × List Field) → List (Str × List Field)} (hord : AnyOrder order)
    {components : List Field} {names : List (Str × Str)} (h : makeNames order components [] = .ok names)
    (hname : ∀ c ∈ components, '.' ∉ c.name) (hpkg : ∀ c ∈ components, PlainPackage c.package)
    {b : BTag} {name pkg n : Str} (hn : '.' ∉ name) (hp : '.' ∉ lastSegment pkg) (hr : refName names b name pkg = some n) :
    ∃ c ∈ components, c.name = name ∧ c.package = pkg ∧ ∃ b', (b' = b ∨ b' = .none) ∧
      ∃ k, Writes components c b' k n := by
  obtain ⟨h1, _⟩ := makeNames_spec hord h
  unfold refName at hr
  split at hr
  · rename_i n' hk
    injection hr with hr
    subst hr
    obtain ⟨c, hc, b', hw⟩ := h1 _ _ hk
    obtain ⟨e1, e2, e3⟩ := collisionSafeKey_inj hw.2.1 hn (hname c hc) hp (hpkg c hc).1
    exact ⟨c, hc, e2.symm, e3.symm, b', Or.inl e1.symm, _, hw⟩
  · obtain ⟨c, hc, b', hw⟩ := h1 _ _ hr
    obtain ⟨e1, e2, e3⟩ := collisionSafeKey_inj hw.2.1 hn (hname c hc) hp (hpkg c hc).1
    exact ⟨c, hc, e2.symm, e3.symm, b', Or.inr e1.symm, _, hw⟩

/-- The component has a field tagged with the binding kind, or has no tagged field at all and the kind is one of the six. -/
def KindOf (c : Field) (b : BTag) : Prop := UsesKind c.structFields b ∨ (¬ (∃ t, UsesKind c.structFields t) ∧ b ≠ .none)

theorem kindOf_iff (c : Field) (b : BTag) : b ∈ (extractBindingTags c.structFields).1 ↔ KindOf c b := by
  obtain ⟨h1, h2, _⟩ := extractBindingTags_exact c.structFields
  unfold KindOf
  by_cases h : ∃ t, UsesKind c.structFields t
  · rw [h1 h b]
    exact ⟨Or.inl, fun h' => h'.elim id (fun h'' => absurd h h''.1)⟩
  · rw [h2 h]
    constructor
    · intro hb
      refine Or.inr ⟨h, ?_⟩
      rintro rfl
      revert hb
      decide
    · rintro (h' | ⟨_, h'⟩)
      · exact absurd ⟨b, h'⟩ h
      · cases b <;> first | exact absurd rfl h' | decide

/-- C30 (partial): a schema name belongs to one component. In every iteration order, starting from an empty table: if a
reference to component `c` and a reference to component `c'`, of any binding kinds, use the same schema name, then the two
components have the same name and package; and a component has a name for a binding kind iff it uses the kind or has
kind-less fields. Hypotheses: all packages sharing a package name differ at one common depth; type
names contain no dot; package names contain no dot, are not empty and are not the name of a binding kind. Missing: all other
component lists, for which names can collide (`schema_names_collide`, `schema_name_like_kind`). -/
theorem schema_names_distinct_partial (components : List Field)
    (order : List (Str × List Field) → List (Str × List Field)) (hord : AnyOrder order)
    (hsep : Separable (components.map (·.package))) (hname : ∀ c ∈ components, '.' ∉ c.name)
    (hpkg : ∀ c ∈ components, PlainPackage c.package) :
    ∃ names, makeNames order components [] = .ok names ∧
      (∀ c ∈ components, ∀ c' ∈ components, ∀ b b' n,
        refName names b c.name c.package = some n → refName names b' c'.name c'.package = some n →
        c.name = c'.name ∧ c.package = c'.package) ∧
      (∀ c ∈ components, ∀ b, (∃ c' ∈ components, c'.name = c.name ∧ c'.package = c.package ∧ (KindOf c' b ∨ KindOf c' .none)) ↔
        (refName names b c.name c.package).isSome = true) := by
  have hdeep : DeepEnough (components.map (·.package)) := by
    intro p hp q hq r hr hpr hqr k hd
    obtain ⟨d, hsd⟩ := hsep (lastSegment r)
    have hpq : p ≠ q := by
      rintro rfl
      obtain ⟨_, a, b, ha, hb, hne⟩ := hd
      rw [ha] at hb
      exact hne (by simpa using hb)
    have hkd : k = d := hd.unique (hsd p hp q hq hpr hqr hpq)
    subst hkd
    by_cases e : r = p
    · subst e
      obtain ⟨_, a, b, ha, hb, hne⟩ := hd
      have := (List.getElem?_eq_some_iff.mp ha).1
      rwa [List.length_reverse] at this
    · obtain ⟨_, a, b, ha, hb, hne⟩ := hsd r hr p hp rfl hpr e
      have := (List.getElem?_eq_some_iff.mp ha).1
      rwa [List.length_reverse] at this
  obtain ⟨names, hm⟩ := schema_naming_total_partial components order hord [] hdeep
  refine ⟨names, hm, ?_, ?_⟩
  rotate_left
  · intro c hc b
    constructor
    · rintro ⟨c', hc', e1, e2, hb⟩
      rw [← e1, ← e2]
      unfold refName
      split
      · rfl
      · rename_i e
        rcases hb with hb | hb
        · have := (makeNames_spec hord hm).2 c' hc' b ((kindOf_iff c' b).mpr hb)
          rw [e] at this
          simp at this
        · exact (makeNames_spec hord hm).2 c' hc' .none ((kindOf_iff c' .none).mpr hb)
    · intro h
      obtain ⟨n, hn⟩ := Option.isSome_iff_exists.mp h
      obtain ⟨c', hc', e1, e2, b', hb', k, hw⟩ := refName_writes hord hm hname hpkg (hname c hc) (hpkg c hc).1 hn
      refine ⟨c', hc', e1, e2, ?_⟩
      have := (kindOf_iff c' b').mp hw.1
      rcases hb' with rfl | rfl
      · exact Or.inl this
      · exact Or.inr this
  intro c hc c' hc' b b' n h h'
  obtain ⟨d, hd, e1, e2, b1, _, k1, w1⟩ := refName_writes hord hm hname hpkg (hname c hc) (hpkg c hc).1 h
  obtain ⟨d', hd', e1', e2', b1', _, k1', w1'⟩ := refName_writes hord hm hname hpkg (hname c' hc') (hpkg c' hc').1 h'
  obtain ⟨r1, r2⟩ := writes_name_inj hd hd' w1 w1' hsep (hname d hd) (hname d' hd') (hpkg d hd) (hpkg d' hd')
  exact ⟨by rw [← e1, ← e1', r1], by rw [← e2, ← e2', r2]⟩

/-- Unique package names satisfy the separation hypothesis. -/
theorem separable_of_unique (pkgs : List Str)
    (h : ∀ p ∈ pkgs, ∀ q ∈ pkgs, lastSegment p = lastSegment q → p = q) : Separable pkgs :=
  fun _ => ⟨0, fun p hp q hq hpg hqg hne => absurd (h p hp q hq (hpg.trans hqg.symm)) hne⟩

/-- Non-vacuity: two packages share the name `api`, and the hypotheses of the theorem hold. -/
theorem twoApis_separable : Separable (twoApis.map (·.package)) := by
  intro g
  by_cases hg : g = c!"api"
  · refine ⟨1, ?_⟩
    subst hg
    decide +kernel
  · refine ⟨0, ?_⟩
    intro p hp q hq hpg hqg hne
    exfalso
    have hall : ∀ p ∈ twoApis.map (·.package), ∀ q ∈ twoApis.map (·.package), lastSegment p = lastSegment q →
        lastSegment p ≠ c!"api" → p = q := by decide +kernel
    exact hne (hall p hp q hq (hpg.trans hqg.symm) (by rw [hpg]; exact hg))

example : (∀ c ∈ twoApis, '.' ∉ c.name) ∧ (∀ c ∈ twoApis, PlainPackage c.package) := by decide +kernel

/-- The names given to the example. -/
example : (match makeNames id twoApis [] with
    | .ok names => twoApis.map (fun c => refName names .json c.name c.package)
    | _ => []) = [some c!"a.api.User", some c!"b.api.User", some c!"model.User"] := by decide +kernel

/-- Three packages named `x`; the depth of the first pair decides. -/
def threePackages : List Field := [
  { name := c!"T", package := c!"a/m/x" }, { name := c!"T", package := c!"a/n/x" }, { name := c!"T", package := c!"b/m/x" }]

/-- C30, violated: two different types of three packages with the same name get the same schema name. -/
theorem schema_names_collide :
    (match makeNames id threePackages [] with
      | .ok names => (refName names .json c!"T" c!"a/m/x", refName names .json c!"T" c!"b/m/x")
      | _ => (none, none)) = (some c!"m.x.T", some c!"m.x.T") := by decide +kernel

/-- A package path that is a suffix of another. -/
def suffixPackages : List Field := [{ name := c!"T", package := c!"api" }, { name := c!"T", package := c!"svc/api" }]

/-- C30, violated: a package and another one whose path ends in it are not told apart. -/
theorem suffix_packages_collide :
    (match makeNames id suffixPackages [] with
      | .ok names => (refName names .json c!"T" c!"api", refName names .json c!"T" c!"svc/api")
      | _ => (none, none)) = (some c!"api.T", some c!"api.T") := by decide +kernel

/-- A type with two different bindings in package `svc/v`, and packages `a/json` and `v/json`. -/
def kindPackages : List Field := [
  { name := c!"T", package := c!"svc/v", type := c!"struct",
    structFields := [(c!"A", { bindingTags := [(.json, { name := c!"a" }), (.form, { name := c!"b" })] })] },
  { name := c!"T", package := c!"v/json" }, { name := c!"T", package := c!"w/json" }]

/-- C30, violated: a package named like a binding kind can collide with the per-kind schema of another package. -/
theorem schema_name_like_kind :
    (match makeNames id kindPackages [] with
      | .ok names => (refName names .json c!"T" c!"svc/v", refName names .json c!"T" c!"v/json")
      | _ => (none, none)) = (some c!"v.json.T", some c!"v.json.T") := by decide +kernel

end Astra.Props
