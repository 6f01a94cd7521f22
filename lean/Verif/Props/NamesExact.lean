/-
C30, C31 exactly: when schema naming panics, and which name it gives.
-/
import Verif.Spec.Naming
import Verif.Props.OpenApiNames

namespace Astra.Props
open Spec

theorem sameUntilInner_exact (p : Str) (rest : List Str) (s : Nat) :
    (∃ (m : Nat) (q : Str) (d : Nat), rest[m]? = some q ∧ DifferAt d p q ∧ (∀ k, k < m → rest[k]? = some p) ∧ sameUntilInner p rest s = d) ∨
    ((∀ (m : Nat) (q : Str) (d : Nat), rest[m]? = some q → DifferAt d p q → (∀ k, k < m → rest[k]? = some p) → False) ∧ sameUntilInner p rest s = s) := by
  induction rest with
  | nil => right; exact ⟨fun m q d h => by simp at h, rfl⟩
  | cons x rest ih =>
    simp only [sameUntilInner]
    by_cases hx : p = x
    · subst hx
      rw [if_neg (by simp)]
      rcases ih with ⟨m, q, d, h1, h2, h3, h4⟩ | ⟨h1, h2⟩
      · left
        refine ⟨m + 1, q, d, by simpa using h1, h2, ?_, h4⟩
        intro k hk
        cases k with
        | zero => rfl
        | succ k => simpa using h3 k (by omega)
      · right
        refine ⟨?_, h2⟩
        intro m q d e1 e2 e3
        cases m with
        | zero =>
          simp only [List.getElem?_cons_zero, Option.some.injEq] at e1
          subst e1
          obtain ⟨_, a, b, ha, hb, hne⟩ := e2
          rw [ha] at hb
          exact hne (by simpa using hb)
        | succ m =>
          exact h1 m q d (by simpa using e1) e2 (fun k hk => by simpa using e3 (k + 1) (by omega))
    · rw [if_pos hx]
      cases hm : firstMismatch 0 (split '/' p).reverse (split '/' x).reverse with
      | some r =>
        left
        exact ⟨0, x, r, rfl, firstMismatch_differ hm, fun k hk => absurd hk (Nat.not_lt_zero k), rfl⟩
      | none =>
        right
        refine ⟨?_, rfl⟩
        intro m q d e1 e2 e3
        cases m with
        | zero =>
          simp only [List.getElem?_cons_zero, Option.some.injEq] at e1
          subst e1
          rw [e2.mismatch] at hm
          cases hm
        | succ m =>
          have := e3 0 (by omega)
          simp only [List.getElem?_cons_zero, Option.some.injEq] at this
          exact hx this.symm

theorem rest_getElem? (pkgs : List Str) (i m : Nat) :
    ((pkgs.take (pkgs.length - i)).drop (i + 1))[m]? = if i + (i + 1 + m) < pkgs.length then pkgs[i + 1 + m]? else none := by
  rw [List.getElem?_drop, List.getElem?_take]
  by_cases h : i + (i + 1 + m) < pkgs.length
  · rw [if_pos h, if_pos (by omega)]
  · rw [if_neg h, if_neg (by omega)]

theorem sameUntilStep_exact (pkgs : List Str) (s i : Nat) :
    (∃ d, Decides pkgs i d ∧ sameUntilStep pkgs s i = d) ∨ ((∀ d, ¬ Decides pkgs i d) ∧ sameUntilStep pkgs s i = s) := by
  unfold sameUntilStep
  cases hp : pkgs[i]? with
  | none =>
    right
    refine ⟨?_, rfl⟩
    rintro d ⟨j, p, q, _, _, h, _⟩
    rw [hp] at h
    cases h
  | some p =>
    simp only
    rcases sameUntilInner_exact p ((pkgs.take (pkgs.length - i)).drop (i + 1)) s with ⟨m, q, d, h1, h2, h3, h4⟩ | ⟨h1, h2⟩
    · left
      rw [rest_getElem?] at h1
      split at h1
      · rename_i hlt
        refine ⟨d, ⟨i + 1 + m, p, q, by omega, hlt, hp, h1, h2, ?_⟩, h4⟩
        intro k hk1 hk2
        have := h3 (k - (i + 1)) (by omega)
        rw [rest_getElem?, if_pos (by omega)] at this
        rwa [show i + 1 + (k - (i + 1)) = k by omega] at this
      · cases h1
    · right
      refine ⟨?_, h2⟩
      rintro d ⟨j, p', q, hj1, hj2, hp', hq, hd, hk⟩
      rw [hp] at hp'
      injection hp' with hp'
      subst hp'
      apply h1 (j - (i + 1)) q d
      · rw [rest_getElem?, if_pos (by omega), show i + 1 + (j - (i + 1)) = j by omega]
        exact hq
      · exact hd
      · intro k hk'
        rw [rest_getElem?, if_pos (by omega)]
        exact hk _ (by omega) (by omega)

theorem sameUntil_upto (pkgs : List Str) (n : Nat) :
    (∃ i, i < n ∧ Decides pkgs i ((List.range n).foldl (sameUntilStep pkgs) 0) ∧ ∀ i' d', i < i' → i' < n → ¬ Decides pkgs i' d') ∨
    ((List.range n).foldl (sameUntilStep pkgs) 0 = 0 ∧ ∀ i d', i < n → ¬ Decides pkgs i d') := by
  induction n with
  | zero => right; exact ⟨rfl, fun i _ h => absurd h (Nat.not_lt_zero i)⟩
  | succ n ih =>
    rw [List.range_succ, List.foldl_append]
    simp only [List.foldl_cons, List.foldl_nil]
    rcases sameUntilStep_exact pkgs ((List.range n).foldl (sameUntilStep pkgs) 0) n with ⟨d, h1, h2⟩ | ⟨h1, h2⟩
    · left
      rw [h2]
      exact ⟨n, Nat.lt_succ_self n, h1, fun i' d' a b => absurd b (by omega)⟩
    · rw [h2]
      rcases ih with ⟨i, h3, h4, h5⟩ | ⟨h3, h4⟩
      · left
        refine ⟨i, by omega, h4, fun i' d' a b => ?_⟩
        by_cases e : i' = n
        · subst e; exact h1 d'
        · exact h5 i' d' a (by omega)
      · right
        refine ⟨h3, fun i d' a => ?_⟩
        by_cases e : i = n
        · subst e; exact h1 d'
        · exact h4 i d' (by omega)

theorem decides_bound {pkgs : List Str} {i d : Nat} (h : Decides pkgs i d) : i < pkgs.length - 1 := by
  obtain ⟨j, p, q, h1, h2, _⟩ := h
  omega

theorem decides_unique {pkgs : List Str} {i d d' : Nat} (h : Decides pkgs i d) (h' : Decides pkgs i d') : d = d' := by
  obtain ⟨j, p, q, h1, h2, h3, h4, h5, h6⟩ := h
  obtain ⟨j', p', q', h1', h2', h3', h4', h5', h6'⟩ := h'
  rw [h3] at h3'
  injection h3' with e
  subst e
  have self : ∀ d, ¬ DifferAt d p p := by
    rintro d ⟨_, a, b, ha, hb, hne⟩
    rw [ha] at hb
    exact hne (by simpa using hb)
  rcases Nat.lt_trichotomy j j' with hlt | rfl | hlt
  · have := h6' j h1 hlt
    rw [h4] at this
    injection this with this
    subst this
    exact absurd h5 (self d)
  · rw [h4] at h4'
    injection h4' with e
    subst e
    exact h5.unique h5'
  · have := h6 j' h1' hlt
    rw [h4'] at this
    injection this with this
    subst this
    exact absurd h5' (self d')

/-- The depth of the code is the one of the specification. -/
theorem sameUntil_iff (pkgs : List Str) (d : Nat) : NamingDepth pkgs d ↔ sameUntil pkgs = d := by
  have key : NamingDepth pkgs (sameUntil pkgs) := by
    rcases sameUntil_upto pkgs (pkgs.length - 1) with ⟨i, _, h1, h2⟩ | ⟨h1, h2⟩
    · exact Or.inl ⟨i, h1, fun i' d' a b => h2 i' d' a (decides_bound b) b⟩
    · exact Or.inr ⟨h1, fun i d' b => h2 i d' (decides_bound b) b⟩
  refine ⟨fun h => ?_, fun h => h ▸ key⟩
  rcases h with ⟨i, h1, h2⟩ | ⟨h1, h2⟩
  · rcases key with ⟨i', h1', h2'⟩ | ⟨_, h2'⟩
    · rcases Nat.lt_trichotomy i i' with hlt | rfl | hlt
      · exact absurd h1' (h2 _ _ hlt)
      · exact decides_unique h1' h1
      · exact absurd h1 (h2' _ _ hlt)
    · exact absurd h1 (h2' _ _)
  · rcases key with ⟨i', h1', h2'⟩ | ⟨h1', _⟩
    · exact absurd h1' (h2 _ _)
    · rw [h1, h1']

/-! ### Names and panics -/

theorem safeName_total (s : Nat) (u : Bool) (b : BTag) (c : Field) :
    (∃ n, safeName s u b c = .ok n) ∧ (s = 0 ∨ s < (segments c.package).length) ∨
    (∃ m, safeName s u b c = .panic m) ∧ 0 < s ∧ (segments c.package).length ≤ s := by
  unfold safeName
  show _ ∧ (s = 0 ∨ s < (split '/' c.package).length) ∨ _ ∧ 0 < s ∧ (split '/' c.package).length ≤ s
  by_cases hs : s > 0
  · simp only [if_pos hs]
    by_cases hl : (split '/' c.package).length < s + 1
    · right
      rw [if_pos hl]
      exact ⟨⟨_, rfl⟩, hs, by omega⟩
    · left
      rw [if_neg hl]
      refine ⟨?_, Or.inr (by omega)⟩
      split <;> exact ⟨_, rfl⟩
  · left
    rw [if_neg hs]
    refine ⟨?_, Or.inl (by omega)⟩
    split <;> exact ⟨_, rfl⟩

theorem nameTags_total (s : Nat) (u : Bool) (c : Field) (bs : List BTag) (t : List (Str × Str)) :
    (∃ t', nameTags s u c bs t = .ok t') ∧ (bs = [] ∨ s = 0 ∨ s < (segments c.package).length) ∨
    (∃ m, nameTags s u c bs t = .panic m) ∧ bs ≠ [] ∧ 0 < s ∧ (segments c.package).length ≤ s := by
  induction bs generalizing t with
  | nil => left; exact ⟨⟨t, rfl⟩, Or.inl rfl⟩
  | cons b bs ih =>
    rcases safeName_total s u b c with ⟨⟨n, hn⟩, hs⟩ | ⟨⟨m, hm⟩, hs⟩
    · simp only [nameTags, hn]
      rcases ih (mset t (collisionSafeKey b c.name c.package) n) with ⟨h, _⟩ | ⟨h, _, h2⟩
      · left; exact ⟨h, Or.inr hs⟩
      · omega
    · right
      simp only [nameTags, hm]
      exact ⟨⟨m, rfl⟩, by simp, hs⟩

/-- Every component has a binding kind. -/
theorem kinds_nonempty (fields : List (Str × Field)) : (extractBindingTags fields).1 ≠ [] := by
  obtain ⟨h1, h2, _⟩ := extractBindingTags_exact fields
  by_cases h : ∃ t, UsesKind fields t
  · obtain ⟨t, ht⟩ := h
    exact List.ne_nil_of_mem ((h1 ⟨t, ht⟩ t).mpr ht)
  · rw [h2 h]; simp

theorem nameGroup_total (s : Nat) (cs : List Field) (t : List (Str × Str)) :
    (∃ t', nameGroup s cs t = .ok t') ∧ (∀ c ∈ cs, s = 0 ∨ s < (segments c.package).length) ∨
    (∃ m, nameGroup s cs t = .panic m) ∧ ∃ c ∈ cs, 0 < s ∧ (segments c.package).length ≤ s := by
  induction cs generalizing t with
  | nil => left; exact ⟨⟨t, rfl⟩, by simp⟩
  | cons c cs ih =>
    rcases nameTags_total s (extractBindingTags c.structFields).2 c (extractBindingTags c.structFields).1 t with ⟨⟨t1, h1⟩, hs⟩ | ⟨⟨m, hm⟩, _, hs⟩
    · simp only [nameGroup, h1]
      have hs := hs.resolve_left (kinds_nonempty _)
      rcases ih t1 with ⟨h, h2⟩ | ⟨h, c', hc', h2⟩
      · left
        refine ⟨h, fun c' hc' => ?_⟩
        rcases List.mem_cons.mp hc' with rfl | hc'
        · exact hs
        · exact h2 c' hc'
      · right; exact ⟨h, c', by simp [hc'], h2⟩
    · right
      simp only [nameGroup, hm]
      exact ⟨⟨m, rfl⟩, c, by simp, hs⟩

theorem nameGroups_total (gs : List (Str × List Field)) (t : List (Str × Str)) :
    (∃ t', nameGroups gs t = .ok t') ∧
      (∀ x ∈ gs, ∀ c ∈ x.2, sameUntil (x.2.map (·.package)) = 0 ∨ sameUntil (x.2.map (·.package)) < (segments c.package).length) ∨
    (∃ m, nameGroups gs t = .panic m) ∧
      ∃ x ∈ gs, ∃ c ∈ x.2, 0 < sameUntil (x.2.map (·.package)) ∧ (segments c.package).length ≤ sameUntil (x.2.map (·.package)) := by
  induction gs generalizing t with
  | nil => left; exact ⟨⟨t, rfl⟩, by simp⟩
  | cons x gs ih =>
    obtain ⟨g, cs⟩ := x
    rcases nameGroup_total (sameUntil (cs.map (·.package))) cs t with ⟨⟨t1, h1⟩, hs⟩ | ⟨⟨m, hm⟩, c, hc, hs⟩
    · simp only [nameGroups, h1]
      rcases ih t1 with ⟨h, h2⟩ | ⟨h, x', hx', h2⟩
      · left
        refine ⟨h, fun x' hx' => ?_⟩
        rcases List.mem_cons.mp hx' with rfl | hx'
        · exact hs
        · exact h2 x' hx'
      · right; exact ⟨h, x', by simp [hx'], h2⟩
    · right
      simp only [nameGroups, hm]
      exact ⟨⟨m, rfl⟩, (g, cs), by simp, c, hc, hs⟩

theorem groupOf_packages (components : List Field) (pkg : Str) : (groupOf components pkg).map (·.package) = sameName components pkg := by
  simp only [groupOf, sameName, List.filter_map]
  rfl

/-- C31, exactly: in every iteration order and with any earlier names in the table, schema naming panics if and only if some component has a package
path of no more segments than the depth of the packages of its name; otherwise it returns. -/
theorem schema_naming_panics_iff (components : List Field) (order : List (Str × List Field) → List (Str × List Field))
    (hord : AnyOrder order) (table : List (Str × Str)) :
    ((makeNames order components table).isPanic = true ↔
      ∃ c ∈ components, ∃ d, NamingDepth (sameName components c.package) d ∧ 0 < d ∧ (segments c.package).length ≤ d) ∧
    ((makeNames order components table).isPanic = false → ∃ names, makeNames order components table = .ok names) := by
  obtain ⟨g1, g2⟩ := groupByPackage_spec components
  have hgroup : ∀ x ∈ order (groupByPackage components), ∀ c ∈ x.2, c ∈ components ∧ x.2.map (·.package) = sameName components c.package := by
    intro x hx c hc
    obtain ⟨k1, k2⟩ := g1 x ((hord _).mem_iff.mp hx) c hc
    refine ⟨k1, ?_⟩
    rw [← groupOf_packages, ← k2]
  rcases nameGroups_total (order (groupByPackage components)) table with ⟨⟨t, h⟩, hs⟩ | ⟨⟨m, h⟩, x, hx, c, hc, hs⟩
  · have h' : makeNames order components table = .ok t := h
    rw [h']
    refine ⟨⟨(fun h => by cases h), ?_⟩, fun _ => ⟨t, rfl⟩⟩
    rintro ⟨c, hc, d, hd, hpos, hlen⟩
    obtain ⟨x, hx, hcx⟩ := g2 c hc
    have hx' := (hord _).mem_iff.mpr hx
    have := hs x hx' c hcx
    rw [(hgroup x hx' c hcx).2, (sameUntil_iff _ d).mp hd] at this
    omega
  · have h' : makeNames order components table = .panic m := h
    rw [h']
    refine ⟨⟨fun _ => ?_, fun _ => rfl⟩, fun h => by cases h⟩
    obtain ⟨k1, k2⟩ := hgroup x hx c hc
    rw [k2] at hs
    exact ⟨c, k1, _, (sameUntil_iff _ _).mpr rfl, hs⟩

/-- C31: schema naming returns if and only if the components can be given names, whatever names are in the table already and in whatever
order the runtime goes through the packages. -/
theorem schema_naming_ok_iff (components : List Field) (order : List (Str × List Field) → List (Str × List Field))
    (hord : AnyOrder order) (table : List (Str × Str)) : (∃ names, makeNames order components table = .ok names) ↔ Nameable components := by
  obtain ⟨h1, h2⟩ := schema_naming_panics_iff components order hord table
  constructor
  · rintro ⟨names, hn⟩ c hc d hd h0
    rw [hn] at h1
    cases Nat.lt_or_ge d (segments c.package).length with
    | inl h => exact h
    | inr h => exact absurd (h1.mpr ⟨c, hc, d, hd, h0, h⟩) (by simp [Res.isPanic])
  · intro hn
    apply h2
    cases hp : (makeNames order components table).isPanic with
    | false => rfl
    | true =>
      obtain ⟨c, hc, d, hd, h0, hl⟩ := h1.mp hp
      have := hn c hc d hd h0
      omega

/-- C30, exactly: the schema name of a component, for every binding kind that it has, if no other component has its name and package: the last segments of
its package path, one more than the depth of the packages of its name, the kind if it has fields that are bound differently, and its name. -/
theorem schema_names_exact (components : List Field) (order : List (Str × List Field) → List (Str × List Field)) (hord : AnyOrder order)
    (names : List (Str × Str)) (h : makeNames order components [] = .ok names)
    (hdot : ∀ c ∈ components, '.' ∉ c.name ∧ '.' ∉ lastSegment c.package) (c : Field) (hc : c ∈ components)
    (hone : ∀ c' ∈ components, c'.name = c.name → c'.package = c.package → c' = c) (hz : NoZeroTags c.structFields) (b : BTag) (hb : KindOf c b)
    (d : Nat) (hd : NamingDepth (sameName components c.package) d) :
    (HasTwoBindings c.structFields → refName names b c.name c.package = some (schemaName d (some b) c.name c.package)) ∧
    (¬ HasTwoBindings c.structFields → refName names b c.name c.package = some (schemaName d none c.name c.package)) := by
  obtain ⟨h1, h2⟩ := makeNames_spec hord h
  obtain ⟨n, hn⟩ := Option.isSome_iff_exists.mp (h2 c hc b ((kindOf_iff c b).mpr hb))
  have href : refName names b c.name c.package = some n := by simp only [refName, hn]
  obtain ⟨c', hc', b', hb', hk, hsafe⟩ := h1 _ _ hn
  obtain ⟨e1, e2, e3⟩ := collisionSafeKey_inj hk (hdot c hc).1 (hdot c' hc').1 (hdot c hc).2 (hdot c' hc').2
  have e := hone c' hc' e2.symm e3.symm
  subst e e1
  rw [groupOf_packages, (sameUntil_iff _ d).mp hd] at hsafe
  have hname := safeName_eq hsafe
  have hpart : pkgPart d c'.package = lastSegments (d + 1) c'.package := by
    unfold pkgPart lastSegments
    split
    · rfl
    · have : d = 0 := by omega
      subst this
      rcases List.eq_nil_or_concat (segments c'.package) with hl | ⟨l, x, hl⟩
      · exact absurd hl (split_ne_nil _ _)
      · simp only [lastSegment, hl]
        simp [join]
  have hu := (extractBindingTags_exact c'.structFields).2.2.2 hz
  rw [href]
  constructor
  · intro ht
    rw [hname, hpart, hu.mpr ht]
    simp [schemaName]
  · intro ht
    have hf : (extractBindingTags c'.structFields).2 = false := by
      cases hx : (extractBindingTags c'.structFields).2 with
      | false => rfl
      | true => exact absurd (hu.mp hx) ht
    rw [hname, hpart, hf]
    simp [schemaName]

/-- C30, exactly, for types whose fields are not bound differently: two components share a schema name if and only if they have the same name and the same last
segments of their packages, as many as the depths say. -/
theorem schema_names_shared_iff (components : List Field) (order : List (Str × List Field) → List (Str × List Field)) (hord : AnyOrder order)
    (names : List (Str × Str)) (h : makeNames order components [] = .ok names)
    (hdot : ∀ c ∈ components, '.' ∉ c.name ∧ '.' ∉ lastSegment c.package)
    (hone : ∀ c ∈ components, ∀ c' ∈ components, c'.name = c.name → c'.package = c.package → c' = c)
    (hz : ∀ c ∈ components, NoZeroTags c.structFields) (h2 : ∀ c ∈ components, ¬ HasTwoBindings c.structFields)
    (c c' : Field) (hc : c ∈ components) (hc' : c' ∈ components) (b b' : BTag) (hb : KindOf c b) (hb' : KindOf c' b')
    (d d' : Nat) (hd : NamingDepth (sameName components c.package) d) (hd' : NamingDepth (sameName components c'.package) d') :
    refName names b c.name c.package = refName names b' c'.name c'.package ↔
      c.name = c'.name ∧ lastSegments (d + 1) c.package = lastSegments (d' + 1) c'.package := by
  rw [(schema_names_exact components order hord names h hdot c hc (hone c hc) (hz c hc) b hb d hd).2 (h2 c hc),
    (schema_names_exact components order hord names h hdot c' hc' (hone c' hc') (hz c' hc') b' hb' d' hd').2 (h2 c' hc')]
  simp only [schemaName, List.append_nil, Option.some.injEq]
  constructor
  · intro e
    obtain ⟨e1, e2⟩ := append_sep_inj e (hdot c hc).1 (hdot c' hc').1
    exact ⟨e2, e1⟩
  · rintro ⟨e1, e2⟩
    rw [e1, e2]

/-- The depth of the packages named `x` in the two lists above: of the first two, not of all. -/
example : NamingDepth (sameName threePackages c!"b/m/x") 1 ∧ lastSegments 2 c!"a/m/x" = lastSegments 2 c!"b/m/x" ∧
    NamingDepth (sameName shallowPackages c!"x") 2 ∧ (segments c!"x").length ≤ 2 :=
  ⟨(sameUntil_iff _ _).mpr (by decide +kernel), by decide +kernel, (sameUntil_iff _ _).mpr (by decide +kernel), by decide⟩

/-- The hypotheses hold of the three packages with two types that share a name. -/
example : (∀ c ∈ threePackages, '.' ∉ c.name ∧ '.' ∉ lastSegment c.package) ∧
    (∀ c ∈ threePackages, ∀ c' ∈ threePackages, c'.name = c.name → c'.package = c.package → c' = c) ∧
    (∀ c ∈ threePackages, NoZeroTags c.structFields ∧ ¬ HasTwoBindings c.structFields ∧ KindOf c .json) := by
  refine ⟨by decide +kernel, ?_, ?_⟩
  · intro c hc c' hc' _ hp
    simp only [threePackages, List.mem_cons, List.not_mem_nil, or_false] at hc hc'
    rcases hc with rfl | rfl | rfl <;> rcases hc' with rfl | rfl | rfl <;> first | rfl | exact absurd hp (by decide)
  · intro c hc
    have hs : c.structFields = [] := by
      simp only [threePackages, List.mem_cons, List.not_mem_nil, or_false] at hc
      rcases hc with rfl | rfl | rfl <;> rfl
    rw [hs]
    refine ⟨(fun x hx => by cases hx), ?_, Or.inr ⟨?_, by decide⟩⟩
    · rintro ⟨x, hx, _⟩; cases hx
    · rw [hs]; rintro ⟨t, x, hx, _⟩; cases hx

end Astra.Props
