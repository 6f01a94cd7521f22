/-
C81: the OpenAPI document does not depend on the choices of the Go runtime.
-/
import Verif.Spec.Reproducible
import Verif.Props.Schema
import Verif.Props.BindingTags
import Verif.Props.EndToEnd
import Verif.Props.Clean

namespace Astra.Props
open Astra.Spec Astra.Run

/-! ### The name table as a sequence of writes -/

abbrev Table := List (Str × Str)

/-- One write. -/
def writeStep (acc : Res Table) (e : Str × Res Str) : Res Table :=
  match acc with
  | .ok t =>
    match e.2 with
    | .ok n => .ok (mset t e.1 n)
    | .err m => .err m
    | .panic m => .panic m
  | x => x

/-- The writes for one component. -/
def componentWrites (s : Nat) (c : Field) : List (Str × Res Str) :=
  (extractBindingTags c.structFields).1.map (fun b => (collisionSafeKey b c.name c.package, safeName s (extractBindingTags c.structFields).2 b c))

/-- The writes for one group. -/
def groupWrites (x : Str × List Field) : List (Str × Res Str) := x.2.flatMap (componentWrites (sameUntil (x.2.map (·.package))))

theorem write_stuck (l : List (Str × Res Str)) {x : Res Table} (h : ∀ t, x ≠ .ok t) : l.foldl writeStep x = x := by
  induction l with
  | nil => rfl
  | cons e l ih =>
    have : writeStep x e = x := by
      cases x with
      | ok t => exact absurd rfl (h t)
      | err m => rfl
      | panic m => rfl
    rw [List.foldl_cons, this, ih]

theorem nameTags_writes (s : Nat) (u : Bool) (c : Field) (bs : List BTag) (t : Table) :
    nameTags s u c bs t = (bs.map (fun b => (collisionSafeKey b c.name c.package, safeName s u b c))).foldl writeStep (.ok t) := by
  induction bs generalizing t with
  | nil => rfl
  | cons b bs ih =>
    rw [List.map_cons, List.foldl_cons, nameTags]
    cases h : safeName s u b c with
    | ok n => exact ih _
    | err m => exact (write_stuck _ (fun t ht => by cases ht)).symm
    | panic m => exact (write_stuck _ (fun t ht => by cases ht)).symm

theorem nameGroup_writes (s : Nat) (cs : List Field) (t : Table) : nameGroup s cs t = (cs.flatMap (componentWrites s)).foldl writeStep (.ok t) := by
  induction cs generalizing t with
  | nil => rfl
  | cons c cs ih =>
    rw [List.flatMap_cons, List.foldl_append, nameGroup, nameTags_writes]
    show (match (componentWrites s c).foldl writeStep (.ok t) with | .ok t' => nameGroup s cs t' | .err e => .err e | .panic m => .panic m) = _
    cases h : (componentWrites s c).foldl writeStep (.ok t) with
    | ok n => exact ih _
    | err m => exact (write_stuck _ (fun t ht => by cases ht)).symm
    | panic m => exact (write_stuck _ (fun t ht => by cases ht)).symm

theorem nameGroups_writes (gs : List (Str × List Field)) (t : Table) : nameGroups gs t = (gs.flatMap groupWrites).foldl writeStep (.ok t) := by
  induction gs generalizing t with
  | nil => rfl
  | cons x gs ih =>
    obtain ⟨g, cs⟩ := x
    rw [List.flatMap_cons, List.foldl_append, nameGroups, nameGroup_writes]
    show (match (groupWrites (g, cs)).foldl writeStep (.ok t) with | .ok t' => nameGroups gs t' | .err e => .err e | .panic m => .panic m) = _
    cases h : (groupWrites (g, cs)).foldl writeStep (.ok t) with
    | ok n => exact ih _
    | err m => exact (write_stuck _ (fun t ht => by cases ht)).symm
    | panic m => exact (write_stuck _ (fun t ht => by cases ht)).symm

set_option linter.unusedSimpArgs false in
/-- Writes under different keys can be exchanged, in any list. -/
theorem mset_swap {V : Type} (m : List (Str × V)) {k k' : Str} (v v' : V) (hne : k ≠ k') :
    mset (mset m k v) k' v' = mset (mset m k' v') k v := by
  have hkk := (strLt_total k k').imp_right (fun h => h.resolve_left hne)
  induction m with
  | nil =>
    rcases hkk with h | h <;> simp [mset, hne, Ne.symm hne, h, strLt_asymm h]
  | cons e m ih =>
    obtain ⟨a, x⟩ := e
    rcases strLt_total k a with h1 | h1 | h1 <;> rcases strLt_total k' a with h2 | h2 | h2
    · have e1 := strLt_ne h1
      have e2 := strLt_ne h2
      rcases hkk with h | h <;> simp [mset, hne, Ne.symm hne, h, strLt_asymm h, h1, h2, e1, e2, Ne.symm e1, Ne.symm e2]
    · subst h2
      simp [mset, hne, Ne.symm hne, h1, strLt_asymm h1]
    · have e1 := strLt_ne h1
      have e2 := strLt_ne h2
      have h := strLt_trans h1 h2
      simp [mset, hne, Ne.symm hne, h, strLt_asymm h, h1, strLt_asymm h1, strLt_asymm h2, e1, e2, Ne.symm e1, Ne.symm e2]
    · subst h1
      simp [mset, hne, Ne.symm hne, h2, strLt_asymm h2]
    · exact absurd (h1.trans h2.symm) hne
    · subst h1
      simp [mset, hne, Ne.symm hne, h2, strLt_asymm h2]
    · have e1 := strLt_ne h1
      have e2 := strLt_ne h2
      have h := strLt_trans h2 h1
      simp [mset, hne, Ne.symm hne, h, strLt_asymm h, h2, strLt_asymm h1, strLt_asymm h2, e1, e2, Ne.symm e1, Ne.symm e2]
    · subst h2
      simp [mset, hne, Ne.symm hne, h1, strLt_asymm h1]
    · have e1 := strLt_ne h1
      have e2 := strLt_ne h2
      simp [mset, strLt_asymm h1, strLt_asymm h2, e1, e2, ih]

/-- The writes never contradict each other: one name per key, and only one way to fail. -/
def Coherent (l : List (Str × Res Str)) : Prop :=
  (∀ e ∈ l, ∀ e' ∈ l, e.1 = e'.1 → e.2 = e'.2) ∧ ∀ e ∈ l, (∃ n, e.2 = .ok n) ∨ e.2 = .panic c!"slice bounds out of range"

theorem writes_perm {l l' : List (Str × Res Str)} (h : l.Perm l') (hc : Coherent l) (x : Res Table) : l.foldl writeStep x = l'.foldl writeStep x := by
  refine h.foldl_eq' (fun e he e' he' z => ?_) x
  cases z with
  | err m => rfl
  | panic m => rfl
  | ok t =>
    obtain ⟨k, r⟩ := e
    obtain ⟨k', r'⟩ := e'
    have h1 := hc.1 _ he _ he'
    have h2 := hc.2 _ he
    have h3 := hc.2 _ he'
    simp only at h1 h2 h3
    rcases h2 with ⟨n, rfl⟩ | rfl <;> rcases h3 with ⟨n', rfl⟩ | rfl
    · by_cases hk : k = k'
      · subst hk
        have := h1 rfl
        cases this
        rfl
      · simp only [writeStep, mset_swap t n n' hk]
    · rfl
    · rfl
    · rfl

/-! ### Components whose tables do not depend on any order -/

/-- Components with different keys, names and package names without dots, tidy for every binding kind, and without empty tags. -/
structure Settled (cs : List Field) : Prop where
  distinct : (cs.map (fun c => (c.name, c.package))).Nodup
  names : ∀ c ∈ cs, '.' ∉ c.name ∧ '.' ∉ lastSegment c.package
  tidy : ∀ c ∈ cs, ∀ b, Tidy b c
  tags : ∀ c ∈ cs, NoZeroTags c.structFields

theorem safeName_result (s : Nat) (u : Bool) (b : BTag) (c : Field) :
    (∃ n, safeName s u b c = .ok n) ∨ safeName s u b c = .panic c!"slice bounds out of range" := by
  unfold safeName
  split
  · simp only
    split
    · exact .inr rfl
    · split <;> exact .inl ⟨_, rfl⟩
  · split <;> exact .inl ⟨_, rfl⟩

theorem eq_of_key {cs : List Field} (h : (cs.map (fun c => (c.name, c.package))).Nodup) {c c' : Field} (hc : c ∈ cs) (hc' : c' ∈ cs)
    (h1 : c.name = c'.name) (h2 : c.package = c'.package) : c = c' := by
  induction cs with
  | nil => cases hc
  | cons x cs ih =>
    rw [List.map_cons, List.nodup_cons] at h
    rcases List.mem_cons.mp hc with e | hc <;> rcases List.mem_cons.mp hc' with e' | hc'
    · exact e.trans e'.symm
    · exact absurd (List.mem_map.mpr ⟨c', hc', by rw [← h1, ← h2, e]⟩) h.1
    · exact absurd (List.mem_map.mpr ⟨c, hc, by rw [h1, h2, e']⟩) h.1
    · exact ih h.2 hc hc'

theorem coherent_groups {cs : List Field} (h : Settled cs) : Coherent ((groupByPackage cs).flatMap groupWrites) := by
  obtain ⟨g1, _⟩ := groupByPackage_spec cs
  have elem : ∀ e ∈ (groupByPackage cs).flatMap groupWrites, ∃ c ∈ cs, ∃ b, e = (collisionSafeKey b c.name c.package,
      safeName (sameUntil ((groupOf cs c.package).map (·.package))) (extractBindingTags c.structFields).2 b c) := by
    intro e he
    obtain ⟨x, hx, he⟩ := List.mem_flatMap.mp he
    obtain ⟨c, hc, he⟩ := List.mem_flatMap.mp he
    obtain ⟨b, _, rfl⟩ := List.mem_map.mp he
    obtain ⟨k1, k2⟩ := g1 x hx c hc
    exact ⟨c, k1, b, by rw [k2]⟩
  constructor
  · intro e he e' he' hk
    obtain ⟨c, hc, b, rfl⟩ := elem e he
    obtain ⟨c', hc', b', rfl⟩ := elem e' he'
    obtain ⟨e1, e2, e3⟩ := collisionSafeKey_inj hk (h.names c hc).1 (h.names c' hc').1 (h.names c hc).2 (h.names c' hc').2
    have := eq_of_key h.distinct hc hc' e2 e3
    subst this e1
    rfl
  · intro e he
    obtain ⟨c, hc, b, rfl⟩ := elem e he
    exact safeName_result _ _ _ _

theorem sameFields_refl (l : List (Str × Field)) : SameFields l l :=
  ⟨fun x hx => ⟨x, hx, rfl, .refl _⟩, fun x hx => ⟨x, hx, rfl, .refl _⟩⟩

theorem SameFields.trans {a b c : List (Str × Field)} (h : SameFields a b) (h' : SameFields b c) : SameFields a c := by
  constructor
  · intro x hx
    obtain ⟨y, hy, e1, p1⟩ := h.1 x hx
    obtain ⟨z, hz, e2, p2⟩ := h'.1 y hy
    exact ⟨z, hz, e1.trans e2, p1.trans p2⟩
  · intro z hz
    obtain ⟨y, hy, e2, p2⟩ := h'.2 z hz
    obtain ⟨x, hx, e1, p1⟩ := h.2 y hy
    exact ⟨x, hx, e1.trans e2, p1.trans p2⟩

theorem sameField_tags {f f' : Field} (h : SameField f f') : f.bindingTags.Perm f'.bindingTags := by
  induction h with
  | refl f => exact .refl _
  | trans _ _ h1 h2 => exact h1.trans h2
  | tags f hp => exact hp
  | validations f hp => exact .refl _
  | fields f hp => exact .refl _
  | inner f hf hs ih => exact .refl _

theorem sameField_fields {f f' : Field} (h : SameField f f') : SameFields f.structFields f'.structFields := by
  induction h with
  | refl f => exact sameFields_refl _
  | trans _ _ h1 h2 => exact h1.trans h2
  | tags f hp => exact sameFields_refl _
  | validations f hp => exact sameFields_refl _
  | fields f hp => exact ⟨fun x hx => ⟨x, hp.mem_iff.mp hx, rfl, .refl _⟩, fun x hx => ⟨x, hp.mem_iff.mpr hx, rfl, .refl _⟩⟩
  | inner f hf hs ih =>
    have ht := sameField_tags hs
    rw [hf]
    constructor
    · intro x hx
      rcases List.mem_append.mp hx with hx | hx
      · exact ⟨x, by simp [hx], rfl, .refl _⟩
      · rcases List.mem_cons.mp hx with rfl | hx
        · exact ⟨_, List.mem_append.mpr (.inr (List.mem_cons_self ..)), rfl, ht⟩
        · exact ⟨x, by simp [hx], rfl, .refl _⟩
    · intro x hx
      rcases List.mem_append.mp hx with hx | hx
      · exact ⟨x, by simp [hx], rfl, .refl _⟩
      · rcases List.mem_cons.mp hx with rfl | hx
        · exact ⟨_, List.mem_append.mpr (.inr (List.mem_cons_self ..)), rfl, ht⟩
        · exact ⟨x, by simp [hx], rfl, .refl _⟩

theorem sameField_key {f f' : Field} (h : SameField f f') : f'.package = f.package ∧ f'.name = f.name ∧ f'.doc = f.doc := by
  induction h with
  | refl f => exact ⟨rfl, rfl, rfl⟩
  | trans _ _ h1 h2 => exact ⟨h2.1.trans h1.1, h2.2.1.trans h1.2.1, h2.2.2.trans h1.2.2⟩
  | _ => exact ⟨rfl, rfl, rfl⟩

theorem each_packages {cs cs' : List Field} (h : Each SameField cs cs') : cs'.map (·.package) = cs.map (·.package) := by
  induction h with
  | nil => rfl
  | cons h1 _ ih => rw [List.map_cons, List.map_cons, (sameField_key h1).1, ih]

theorem componentWrites_perm {c c' : Field} (h : SameField c c') (hz : NoZeroTags c.structFields) (s : Nat) :
    (componentWrites s c).Perm (componentWrites s c') := by
  obtain ⟨h1, h2⟩ := extractBindingTags_order_independent _ _ (sameField_fields h) hz
  unfold componentWrites
  rw [← h2, (sameField_key h).1, (sameField_key h).2.1]
  have e : ∀ b, safeName s (extractBindingTags c.structFields).2 b c' = safeName s (extractBindingTags c.structFields).2 b c := by
    intro b
    unfold safeName
    rw [(sameField_key h).1, (sameField_key h).2.1]
  simp only [e]
  exact h1.map _

theorem perm_flatMap_each {α β : Type} {R : α → α → Prop} {l l' : List α} (h : Each R l l') (f g : α → List β)
    (hf : ∀ a ∈ l, ∀ b, R a b → (f a).Perm (g b)) : (l.flatMap f).Perm (l'.flatMap g) := by
  induction h with
  | nil => exact .refl _
  | cons h1 _ ih =>
    rw [List.flatMap_cons, List.flatMap_cons]
    exact (hf _ (by simp) _ h1).append (ih (fun a ha => hf a (by simp [ha])))

/-- Groups of the same components. -/
def SameGroups : List (Str × List Field) → List (Str × List Field) → Prop := Each (fun x y => y.1 = x.1 ∧ Each SameField x.2 y.2)

theorem sameGroups_step {m m' : List (Str × List Field)} (h : SameGroups m m') {c c' : Field} (hc : SameField c c') :
    SameGroups (groupStep m c) (groupStep m' c') := by
  unfold groupStep
  rw [(sameField_key hc).1]
  generalize getPackageName c.package = k
  have key : ∀ (m m' : List (Str × List Field)), SameGroups m m' → ∀ v v', Each SameField v v' → SameGroups (aset m k v) (aset m' k v') := by
    intro m m' h
    induction h with
    | nil => exact fun v v' hv => .cons ⟨rfl, hv⟩ .nil
    | cons h1 h2 ih =>
      intro v v' hv
      rename_i a b as bs
      obtain ⟨ka, va⟩ := a
      obtain ⟨kb, vb⟩ := b
      obtain ⟨rfl, h1⟩ := h1
      simp only [aset]
      split
      · exact .cons ⟨rfl, hv⟩ h2
      · exact .cons ⟨rfl, h1⟩ (ih v v' hv)
  have get : ∀ (m m' : List (Str × List Field)), SameGroups m m' → Each SameField ((aget m k).getD []) ((aget m' k).getD []) := by
    intro m m' h
    induction h with
    | nil => exact .nil
    | cons h1 h2 ih =>
      rename_i a b as bs
      obtain ⟨ka, va⟩ := a
      obtain ⟨kb, vb⟩ := b
      obtain ⟨rfl, h1⟩ := h1
      simp only [aget]
      split
      · exact h1
      · exact ih
  exact key m m' h _ _ (each_append (get m m' h) (.cons hc .nil))

theorem sameGroups {cs cs' : List Field} (h : Each SameField cs cs') : SameGroups (groupByPackage cs) (groupByPackage cs') := by
  have : ∀ m m', SameGroups m m' → SameGroups (cs.foldl groupStep m) (cs'.foldl groupStep m') := by
    induction h with
    | nil => exact fun m m' h => h
    | cons h1 _ ih => exact fun m m' h => ih _ _ (sameGroups_step h h1)
  exact this [] [] .nil

/-- The name table does not depend on the order of the groups or on the order of the maps in the components. -/
theorem makeNames_order {order order' : List (Str × List Field) → List (Str × List Field)} (ho : ∀ l, (order l).Perm l) (ho' : ∀ l, (order' l).Perm l)
    {cs cs' : List Field} (h : Each SameField cs cs') (hs : Settled cs) (t : Table) : makeNames order cs t = makeNames order' cs' t := by
  unfold makeNames
  rw [nameGroups_writes, nameGroups_writes]
  have p1 : ((groupByPackage cs).flatMap groupWrites).Perm ((order (groupByPackage cs)).flatMap groupWrites) := ((ho _).flatMap_right _).symm
  have p2 : ((groupByPackage cs).flatMap groupWrites).Perm ((groupByPackage cs').flatMap groupWrites) := by
    refine perm_flatMap_each (sameGroups h) _ _ ?_
    rintro x hx y ⟨_, hxy⟩
    unfold groupWrites
    rw [each_packages hxy]
    refine perm_flatMap_each hxy _ _ (fun c hc c' hcc => componentWrites_perm hcc (hs.tags c ?_) _)
    exact ((groupByPackage_spec cs).1 x hx c hc).1
  have p3 : ((groupByPackage cs').flatMap groupWrites).Perm ((order' (groupByPackage cs')).flatMap groupWrites) := ((ho' _).flatMap_right _).symm
  rw [← writes_perm p1 (coherent_groups hs), writes_perm (p2.trans p3) (coherent_groups hs)]

/-! ### Operations -/

theorem eq_of_name {l : List OParam} (h : (l.map (·.name)).Nodup) {a b : OParam} (ha : a ∈ l) (hb : b ∈ l) (e : a.name = b.name) : a = b := by
  induction l with
  | nil => cases ha
  | cons x l ih =>
    rw [List.map_cons, List.nodup_cons] at h
    rcases List.mem_cons.mp ha with e1 | ha <;> rcases List.mem_cons.mp hb with e2 | hb
    · exact e1.trans e2.symm
    · exact absurd (List.mem_map.mpr ⟨b, hb, by rw [← e, e1]⟩) h.1
    · exact absurd (List.mem_map.mpr ⟨a, ha, by rw [e, e2]⟩) h.1
    · exact ih h.2 ha hb

/-- Sorting by name has one result when the names differ. -/
theorem sorted_unique {l l' : List OParam} (hp : l.Perm l') (h : l.Pairwise (fun a b => strLt b.name a.name = false))
    (h' : l'.Pairwise (fun a b => strLt b.name a.name = false)) (hn : (l.map (·.name)).Nodup) : l = l' := by
  refine List.Perm.eq_of_pairwise (le := fun a b => strLt b.name a.name = false) (fun a b ha hb h1 h2 => ?_) h h' hp
  refine eq_of_name hn ha (hp.mem_iff.mpr hb) ?_
  rcases strLt_total a.name b.name with h | h | h
  · rw [h2] at h; cases h
  · exact h
  · rw [h1] at h; cases h

section
variable {cs cs' : List Field} (h : Each SameField cs cs') (hs : Settled cs)

include h in
theorem findComponent_same (pkg name : Str) : (findComponent cs pkg name = none ∧ findComponent cs' pkg name = none) ∨
    ∃ c c', c ∈ cs ∧ findComponent cs pkg name = some c ∧ findComponent cs' pkg name = some c' ∧ SameField c c' := by
  unfold findComponent
  induction h with
  | nil => exact .inl ⟨rfl, rfl⟩
  | cons h1 _ ih =>
    rename_i a b as bs _
    rw [List.find?_cons, List.find?_cons, (sameField_key h1).1, (sameField_key h1).2.1]
    split
    · exact .inr ⟨a, b, by simp, rfl, rfl, h1⟩
    · rcases ih with h | ⟨c, c', h1, h2, h3, h4⟩
      · exact .inl h
      · exact .inr ⟨c, c', by simp [h1], h2, h3, h4⟩

include h hs in
theorem queryParametersOf_order (E : SchemaEnv) {iter iter' : List (Str × Schema) → List (Str × Schema)} (hi : ∀ l, (iter l).Perm l)
    (hi' : ∀ l, (iter' l).Perm l) (p : Param) : (queryParametersOf E cs iter p).Perm (queryParametersOf E cs' iter' p) := by
  unfold queryParametersOf
  split
  · exact .refl _
  · split
    · rcases findComponent_same h p.field.package p.field.type with ⟨e1, e2⟩ | ⟨c, c', hc, e1, e2, hcc⟩
      · rw [e1, e2]
      · rw [e1, e2]
        simp only
        rw [schema_order_independent_partial E .form c c' hcc (hs.tidy c hc .form)]
        split
        · exact .refl _
        · exact ((hi _).trans (hi' _).symm).map _
    · exact .refl _

include h hs in
theorem queryParameters_order (E : SchemaEnv) {iter iter' : Nat → List (Str × Schema) → List (Str × Schema)} (hi : ∀ n l, (iter n l).Perm l)
    (hi' : ∀ n l, (iter' n l).Perm l) (ps : List Param) : ∀ n, (queryParameters E cs iter n ps).Perm (queryParameters E cs' iter' n ps) := by
  induction ps with
  | nil => exact fun _ => .refl _
  | cons p ps ih => exact fun n => (queryParametersOf_order h hs E (hi n) (hi' n) p).append (ih (n + 1))

include h hs in
/-- The operation of a route does not depend on the choices of the runtime, if its parameters have different names. -/
theorem operation_order (E : SchemaEnv) {ch ch' : RouteChoice} (hch : ValidChoice ch) (hch' : ValidChoice ch') (r : Route)
    (hn : ((operationOf E cs ch r).parameters.map (·.name)).Nodup) : operationOf E cs ch r = operationOf E cs' ch' r := by
  have hp := (queryParameters_order h hs E hch.2 hch'.2 r.queryParams 0).append_left (pathParameters E r.pathParams ++ headerParameters E r.requestHeaders)
  obtain ⟨a1, a2⟩ := hch.1 (pathParameters E r.pathParams ++ headerParameters E r.requestHeaders ++ queryParameters E cs ch.iter 0 r.queryParams)
  obtain ⟨b1, b2⟩ := hch'.1 (pathParameters E r.pathParams ++ headerParameters E r.requestHeaders ++ queryParameters E cs' ch'.iter 0 r.queryParams)
  unfold operationOf at hn ⊢
  rw [sorted_unique (a1.trans (hp.trans b1.symm)) a2 b2 hn]

include h hs in
theorem componentSchemas_order (E : SchemaEnv) : componentSchemas E cs = componentSchemas E cs' := by
  have one : ∀ c c', SameField c c' → (∀ b, Tidy b c) → ∀ bs m, addComponentSchemas E c bs m = addComponentSchemas E c' bs m := by
    intro c c' hcc ht bs
    induction bs with
    | nil => exact fun _ => rfl
    | cons b bs ih =>
      intro m
      rw [addComponentSchemas, addComponentSchemas, schema_order_independent_partial E b c c' hcc (ht b), (sameField_key hcc).1, (sameField_key hcc).2.1,
        (sameField_key hcc).2.2]
      split
      · exact ih _
      · simp only
        split <;> exact ih _
  have all : ∀ (cs cs' : List Field), Each SameField cs cs' → (∀ c ∈ cs, ∀ b, Tidy b c) → ∀ m : List (Str × Schema),
      cs.foldl (fun m c => addComponentSchemas E c bindingTags m) m = cs'.foldl (fun m c => addComponentSchemas E c bindingTags m) m := by
    intro cs cs' h
    induction h with
    | nil => exact fun _ _ => rfl
    | cons h1 _ ih =>
      intro ht m
      rw [List.foldl_cons, List.foldl_cons, one _ _ h1 (ht _ (by simp))]
      exact ih (fun c hc => ht c (by simp [hc])) _
  exact all cs cs' h hs.tidy []

end

/-! ### The document -/

theorem addRoutes_sorted (E : SchemaEnv) (cs : List Field) (ch : Nat → RouteChoice) (rs : List Route) : ∀ n (paths : List (Str × PathItem)),
    MSorted paths → MSorted (addRoutes E cs ch n rs paths) := by
  induction rs with
  | nil => exact fun _ _ h => h
  | cons r rs ih => exact fun n paths h => ih _ _ (MSorted_mset h _ _)

theorem PathItem.ext_op {p p' : PathItem} (h : ∀ m ∈ documentedMethods, p.op m = p'.op m) : p = p' := by
  obtain ⟨a1, a2, a3, a4, a5, a6, a7⟩ := p
  obtain ⟨b1, b2, b3, b4, b5, b6, b7⟩ := p'
  have e1 := h c!"GET" (by decide)
  have e2 := h c!"POST" (by decide)
  have e3 := h c!"PUT" (by decide)
  have e4 := h c!"PATCH" (by decide)
  have e5 := h c!"DELETE" (by decide)
  have e6 := h c!"HEAD" (by decide)
  have e7 := h c!"OPTIONS" (by decide)
  simp only [PathItem.op] at e1 e2 e3 e4 e5 e6 e7
  simp at e1 e2 e3 e4 e5 e6 e7
  subst e1 e2 e3 e4 e5 e6 e7
  rfl

theorem ofItem_of_op {p : PathItem} {m : Str} {o : Operation} (hm : m ∈ documentedMethods) (h : p.op m = some o) : OfItem p o := by
  simp only [documentedMethods, List.mem_cons, List.not_mem_nil, or_false] at hm
  unfold OfItem
  rcases hm with rfl | rfl | rfl | rfl | rfl | rfl | rfl <;> simp [PathItem.op] at h <;> simp [h]

theorem paths_order {cs cs' : List Field} (h : Each SameField cs cs') (hs : Settled cs) (E : SchemaEnv) {ch ch' : Nat → RouteChoice}
    (hch : ∀ n, ValidChoice (ch n)) (hch' : ∀ n, ValidChoice (ch' n)) (rs : List Route)
    (hu : ∀ path i op, (path, i) ∈ addRoutes E cs ch 0 rs [] → OfItem i op → (op.parameters.map (·.name)).Nodup) :
    addRoutes E cs ch 0 rs [] = addRoutes E cs' ch' 0 rs [] := by
  apply MSorted_ext (addRoutes_sorted _ _ _ _ _ _ MSorted_nil) (addRoutes_sorted _ _ _ _ _ _ MSorted_nil)
  intro path
  have hops : ∀ m ∈ documentedMethods, opAt (addRoutes E cs ch 0 rs []) path m = opAt (addRoutes E cs' ch' 0 rs []) path m := by
    intro m hm
    have e := opAt_addRoutes E cs ch 0 rs [] path m hm
    have e' := opAt_addRoutes E cs' ch' 0 rs [] path m hm
    rw [e, e']
    congr 1
    cases hf : (rs.zipIdx 0).reverse.find? (fun x => decide (openapiPath x.1.path = path ∧ x.1.method = m)) with
    | none => rfl
    | some x =>
      rw [hf] at e
      simp only [Option.map_some, Option.some_or] at e ⊢
      congr 1
      refine operation_order h hs E (hch _) (hch' _) _ ?_
      unfold opAt at e
      cases hg : mget (addRoutes E cs ch 0 rs []) path with
      | none => rw [hg] at e; cases e
      | some i =>
        rw [hg] at e
        exact hu path i _ (mget_some_mem hg) (ofItem_of_op hm e)
  have hk : (mget (addRoutes E cs ch 0 rs []) path).isSome = true ↔ (mget (addRoutes E cs' ch' 0 rs []) path).isSome = true := by
    rw [keys_addRoutes, keys_addRoutes]
  unfold opAt at hops
  cases h1 : mget (addRoutes E cs ch 0 rs []) path with
  | none =>
    cases h2 : mget (addRoutes E cs' ch' 0 rs []) path with
    | none => rfl
    | some i => rw [h1, h2] at hk; simp at hk
  | some i =>
    cases h2 : mget (addRoutes E cs' ch' 0 rs []) path with
    | none => rw [h1, h2] at hk; simp at hk
    | some i' =>
      rw [h1, h2] at hops
      exact congrArg some (PathItem.ext_op hops)

/-- C81 (partial): the document is the same whatever the Go runtime chooses: the order in which it ranges over the groups of packages, over
query properties and over the maps in the components, and how its unstable sort arranges the parameters. Missing: components that are not
settled, and operations with two parameters of one name, for which the choices matter. -/
theorem same_document_partial (ch ch' : Choices) (table : List (Str × Str)) (s s' : OpenApiInput) (h : SameDocInput s s') (hs : Settled s.components)
    (ho : ∀ l, (ch.groups l).Perm l) (ho' : ∀ l, (ch'.groups l).Perm l) (hch : ∀ n, ValidChoice (ch.route n)) (hch' : ∀ n, ValidChoice (ch'.route n))
    (d : Document) (hd : generateDoc ch table s = .ok d) (hu : UniqueParameters d) : generateDoc ch' table s' = .ok d := by
  unfold generateDoc at hd ⊢
  rw [h.config, h.routes, h.types, ← makeNames_order ho ho' h.components hs]
  cases hc : s.config with
  | none => rw [hc] at hd; cases hd
  | some cfg =>
    rw [hc] at hd
    cases hm : makeNames ch.groups s.components table with
    | err e => rw [hm] at hd; cases hd
    | panic e => rw [hm] at hd; cases hd
    | ok names =>
      rw [hm] at hd
      simp only [Res.ok.injEq] at hd ⊢
      subst hd
      rw [← paths_order h.components hs _ hch hch' s.routes hu, ← componentSchemas_order h.components hs]

/-- C81 (partial): the failures do not depend on the choices either. -/
theorem same_failure_partial (ch ch' : Choices) (table : List (Str × Str)) (s s' : OpenApiInput) (h : SameDocInput s s') (hs : Settled s.components)
    (ho : ∀ l, (ch.groups l).Perm l) (ho' : ∀ l, (ch'.groups l).Perm l) (hd : ∀ d, generateDoc ch table s ≠ .ok d) :
    generateDoc ch' table s' = generateDoc ch table s := by
  unfold generateDoc at hd ⊢
  rw [h.config, h.routes, h.types, ← makeNames_order ho ho' h.components hs]
  cases hc : s.config with
  | none => rfl
  | some cfg =>
    rw [hc] at hd
    cases hm : makeNames ch.groups s.components table with
    | err e => rfl
    | panic e => rfl
    | ok names => rw [hm] at hd; exact absurd rfl (hd _)

/-! ### A whole run -/

theorem each_same_refl (cs : List Field) : Each SameField cs cs := by
  induction cs with
  | nil => exact .nil
  | cons c cs ih => exact .cons (.refl c) ih

/-- Whatever names the components have, the operation of the route has no two parameters of one name. -/
def ClearParameters (types : List (Str × TypeFormat)) (cs : List Field) (r : Route) : Prop :=
  ∀ names ch, ValidChoice ch → ((operationOf { types := types, names := names } cs ch r).parameters.map (·.name)).Nodup

theorem op_of_ofItem {p : PathItem} {o : Operation} (h : OfItem p o) : ∃ m ∈ documentedMethods, p.op m = some o := by
  rcases h with h | h | h | h | h | h | h
  · exact ⟨c!"GET", by decide, h⟩
  · exact ⟨c!"POST", by decide, h⟩
  · exact ⟨c!"PUT", by decide, h⟩
  · exact ⟨c!"PATCH", by decide, h⟩
  · exact ⟨c!"DELETE", by decide, h⟩
  · exact ⟨c!"HEAD", by decide, h⟩
  · exact ⟨c!"OPTIONS", by decide, h⟩

/-- Every operation of the document is that of a route. -/
theorem operation_has_route {ch : Choices} {table : List (Str × Str)} {s : OpenApiInput} {d : Document} (h : generateDoc ch table s = .ok d)
    {path : Str} {i : PathItem} {op : Operation} (hi : (path, i) ∈ d.paths) (ho : OfItem i op) :
    ∃ names n, ∃ r ∈ s.routes, op = operationOf { types := s.types, names := names } s.components (ch.route n) r := by
  unfold generateDoc at h
  cases hc : s.config with
  | none => rw [hc] at h; cases h
  | some cfg =>
    rw [hc] at h
    cases hm : makeNames ch.groups s.components table with
    | err e => rw [hm] at h; cases h
    | panic e => rw [hm] at h; cases h
    | ok names =>
      rw [hm] at h
      simp only [Res.ok.injEq] at h
      subst h
      obtain ⟨m, hm, hop⟩ := op_of_ofItem ho
      have e := opAt_addRoutes { types := s.types, names := names } s.components ch.route 0 s.routes [] path m hm
      unfold opAt at e
      rw [MSorted.mget_of_mem (addRoutes_sorted _ _ _ _ _ _ MSorted_nil) hi] at e
      simp only [Option.bind_some, hop] at e
      cases hf : (s.routes.zipIdx 0).reverse.find? (fun x => decide (openapiPath x.1.path = path ∧ x.1.method = m)) with
      | none => rw [hf] at e; simp [mget] at e
      | some x =>
        rw [hf] at e
        simp only [Option.map_some, Option.some_or, Option.some.injEq] at e
        have hx := List.mem_of_find?_eq_some hf
        rw [List.mem_reverse] at hx
        exact ⟨names, x.2, x.1, (List.mem_zipIdx hx).2.2 ▸ List.getElem_mem _, e⟩

theorem document_choices {ch ch' : Choices} (ho : ∀ l, (ch.groups l).Perm l) (ho' : ∀ l, (ch'.groups l).Perm l)
    (hch : ∀ n, ValidChoice (ch.route n)) (hch' : ∀ n, ValidChoice (ch'.route n)) {s : OpenApiInput} (hs : Settled s.components)
    (hr : ∀ r ∈ s.routes, ClearParameters s.types s.components r) (table : List (Str × Str)) : generateDoc ch table s = generateDoc ch' table s := by
  have hsame : SameDocInput s s := ⟨rfl, rfl, rfl, each_same_refl _⟩
  cases hd : generateDoc ch table s with
  | ok d =>
    refine (same_document_partial ch ch' table s s hsame hs ho ho' hch hch' d hd ?_).symm
    intro path i op hi hop
    obtain ⟨names, n, r, hm, rfl⟩ := operation_has_route hd hi hop
    exact hr r hm names _ (hch n)
  | err e => rw [← hd, same_failure_partial ch ch' table s s hsame hs ho ho' (by intro d; rw [hd]; simp)]
  | panic e => rw [← hd, same_failure_partial ch ch' table s s hsame hs ho ho' (by intro d; rw [hd]; simp)]

theorem bind_congr {α β : Type} {m m' : Prg α} {f g : α → Prg β} {φ : Faults} {w : World Proc} (hm : m φ w = m' φ w)
    (h : ∀ w1 a, m φ w = (w1, .ok a) → f a φ w1 = g a φ w1) : (m >>= f) φ w = (m' >>= g) φ w := by
  show Run.bind m f φ w = Run.bind m' g φ w
  unfold Run.bind
  rw [← hm]
  cases hx : m φ w with
  | mk w1 x =>
    cases x with
    | ok a => exact h w1 a hx
    | _ => rfl

/-- What generation depends on. -/
def DocData (rs : List Route) (cs : List Field) (maps : TypeMaps) (p : Proc) : Prop := p.svc.routes = rs ∧ p.svc.components = cs ∧ p.svc.maps = maps

section
variable (L : Lib) (ch' : Choices) (ho : ∀ l, (L.choices.groups l).Perm l) (ho' : ∀ l, (ch'.groups l).Perm l)
  (hch : ∀ n, ValidChoice (L.choices.route n)) (hch' : ∀ n, ValidChoice (ch'.route n)) {rs : List Route} {cs : List Field} {maps : TypeMaps}
  (hs : Settled cs) (hr : ∀ r ∈ rs, ClearParameters maps.merged cs r)

include ho ho' hch hch' hs hr in
theorem openApiGenerate_choices (loc : Nat) (φ : Faults) (w : World Proc) (h : DocData rs cs maps w.st) :
    openApiGenerate L loc φ w = openApiGenerate { L with choices := ch' } loc φ w := by
  unfold openApiGenerate
  refine bind_congr rfl ?_
  intro w1 p hp
  cases hp
  obtain ⟨rfl, rfl, rfl⟩ := h
  simp only
  rw [document_choices ho ho' hch hch' (s := { config := w.st.svc.config, routes := w.st.svc.routes, components := w.st.svc.components, types := w.st.svc.maps.merged }) hs hr,
    show makeNames L.choices.groups w.st.svc.components = makeNames ch'.groups w.st.svc.components from
      funext (makeNames_order ho ho' (each_same_refl _) hs)]
  rfl

include ho ho' hch hch' hs hr in
theorem runAll_choices (ev : Nat → Event) (as : List Action) (has : ∀ a ∈ as, (∃ l, a = .json l) ∨ (∃ d, a = .azure d) ∨ ∃ l, a = .openapi l) :
    ∀ (i : Nat) (φ : Faults) (w : World Proc), DocData rs cs maps w.st → runAll L ev i as φ w = runAll { L with choices := ch' } ev i as φ w := by
  have hkept : ∀ loc, Kept loc (DocData rs cs maps) := fun _ => ⟨fun _ _ h => h, fun _ _ _ _ h => h⟩
  have hdoc : KeptDoc (DocData rs cs maps) := fun _ _ _ h => h
  induction as with
  | nil => intro _ _ _ _; rfl
  | cons a as ih =>
    intro i φ w h
    refine bind_congr rfl ?_
    intro w1 _ h1
    rw [logEvent_ok] at h1
    cases h1
    have h : DocData rs cs maps ({ w with st := { w.st with log := w.st.log ++ [ev i] } } : World Proc).st := h
    revert h
    generalize ({ w with st := { w.st with log := w.st.log ++ [ev i] } } : World Proc) = w
    intro h
    refine bind_congr ?_ ?_
    · rcases has a (by simp) with ⟨l, rfl⟩ | ⟨d, rfl⟩ | ⟨l, rfl⟩
      · rfl
      · rfl
      · exact openApiGenerate_choices L ch' ho ho' hch hch' hs hr l φ w h
    · intro w1 _ h1
      refine ih (fun b hb => has b (by simp [hb])) (i + 1) φ w1 ?_
      have k : (Inv w.cwd (DocData rs cs maps) anyFS) (a.run L φ w).1 := by
        rcases has a (by simp) with ⟨l, rfl⟩ | ⟨d, rfl⟩ | ⟨l, rfl⟩
        · exact (kept_json (hkept (l + 1)) (by omega) φ w ⟨rfl, h, trivial⟩).1
        · exact (keepsIO_azureGenerate closed_anyFS d φ w ⟨rfl, h, trivial⟩).1
        · exact (kept_openapi (hkept (l + 1)) hdoc (by omega) L φ w ⟨rfl, h, trivial⟩).1
      rw [h1] at k
      exact k.2.1

end

theorem runAll_actions (L L' : Lib) (ev : Nat → Event) (as : List Action) (h : ∀ a ∈ as, a.run L = a.run L') :
    ∀ i, runAll L ev i as = runAll L' ev i as := by
  induction as with
  | nil => exact fun _ => rfl
  | cons a as ih =>
    intro i
    unfold runAll
    rw [h a (by simp), ih (fun b hb => h b (by simp [hb]))]

theorem stepCreate_choices (L : Lib) (ch' : Choices) (φ : Faults) (w : World Proc) {routers : List (List RouteInfo)}
    (hin : Each GinInput w.st.svc.inputs routers) : stepCreate L φ w = stepCreate { L with choices := ch' } φ w := by
  unfold stepCreate
  rw [Run.bind_ok (logEvent_ok _ φ w), Run.bind_ok (getSvc_ok φ _), Run.bind_ok (logEvent_ok _ φ w), Run.bind_ok (getSvc_ok φ _)]
  rw [runAll_actions L { L with choices := ch' } .create (w.st.svc.inputs.map (·.createRoutes)) (fun a ha => ?_)]
  · rfl
  · obtain ⟨i, hi, rfl⟩ := List.mem_map.mp ha
    obtain ⟨infos, h1, _⟩ := each_mem hin i hi
    rw [h1]
    rfl

theorem stepParse_choices (L : Lib) (ch' : Choices) (φ : Faults) (w : World Proc) {routers : List (List RouteInfo)}
    (hin : Each GinInput w.st.svc.inputs routers) : stepParse L φ w = stepParse { L with choices := ch' } φ w := by
  have hloop : ∀ n i, ginParseLoop L n i = ginParseLoop { L with choices := ch' } n i := by
    intro n
    induction n with
    | zero => exact fun _ => rfl
    | succ n ih => intro i; unfold ginParseLoop; rw [ih]
  have hgin : ginParseRoutesM L = ginParseRoutesM { L with choices := ch' } := by
    unfold ginParseRoutesM
    simp only [hloop]
  unfold stepParse
  rw [Run.bind_ok (logEvent_ok _ φ w), Run.bind_ok (getSvc_ok φ _), Run.bind_ok (logEvent_ok _ φ w), Run.bind_ok (getSvc_ok φ _)]
  rw [runAll_actions L { L with choices := ch' } .parse (w.st.svc.inputs.map (·.parseRoutes)) (fun a ha => ?_)]
  · rfl
  · obtain ⟨i, hi, rfl⟩ := List.mem_map.mp ha
    obtain ⟨infos, _, h1⟩ := each_mem hin i hi
    rw [h1]
    exact hgin

/-- C81 (partial), for a whole run: a service with gin routers and built-in outputs. Whatever the Go runtime chooses when it ranges over maps
and sorts, and whatever operations of the operating system fail, the run ends the same way and leaves the same files, if the components it
finds are settled and no operation has two parameters of one name. Missing: as for `same_document_partial`. -/
theorem same_run_partial (L : Lib) (hkey : KeepsKeys L) (ch' : Choices) (ho : ∀ l, (L.choices.groups l).Perm l) (ho' : ∀ l, (ch'.groups l).Perm l)
    (hch : ∀ n, ValidChoice (L.choices.route n)) (hch' : ∀ n, ValidChoice (ch'.route n)) (getwd : Str) (φ : Faults) (w : World Proc)
    (routers : List (List RouteInfo)) (hin : Each GinInput w.st.svc.inputs routers) (hroutes : w.st.svc.routes = [])
    (hnd : DistinctRoutes (allowed w.st.svc.denyList routers.flatten)) (hout : ∀ o ∈ w.st.svc.outputs, BuiltIn o)
    (hres : ∀ m rs cs, RunResult L w.st.svc (workDirAfter getwd w.st.svc) routers m rs cs →
      Settled cs ∧ ∀ r ∈ rs, ClearParameters w.st.svc.maps.merged cs r) :
    Astra.parseAll L getwd φ w = Astra.parseAll { L with choices := ch' } getwd φ w := by
  unfold Astra.parseAll setupParse
  simp only [bind_assoc']
  refine bind_congr rfl (fun w0 _ h0 => ?_)
  have := checkIO_world φ w
  rw [h0] at this
  rw [show w0 = w from this]
  refine bind_congr rfl (fun w2 _ h2 => ?_)
  obtain ⟨a1, a2, a3⟩ := setup_inv h2
  refine bind_congr (stepCreate_choices L ch' φ w2 (routers := routers) (by rw [a1]; exact hin)) (fun w3 _ h3 => ?_)
  obtain ⟨found, b0, b1, b2, b3⟩ := stepCreate_inv (routers := routers) (by rw [a1]; exact hin) h3
  rw [a1] at b0 b1
  have hr3 : w3.st.svc.routes = found := by
    rw [b1]
    show w.st.svc.routes ++ found = found
    rw [hroutes]; rfl
  unfold completeParse
  refine bind_congr rfl (fun w0 _ h0 => ?_)
  have := checkIO_world φ w3
  rw [h0] at this
  rw [show w0 = w3 from this]
  refine bind_congr (stepParse_choices L ch' φ w3 (routers := routers) (by rw [b1]; exact hin)) (fun w4 _ h4 => ?_)
  obtain ⟨m1, cs1, rs1, c0, c1, c2, c3⟩ := stepParse_inv hkey (routers := routers) (by rw [b1]; exact hin)
    (by rw [hr3, found_keys b0]; exact hnd) h4
  refine bind_congr rfl (fun w1 _ h1 => ?_)
  obtain ⟨m, d0, d1, d2, d3⟩ := stepClean_inv h1
  rw [hr3] at c0
  have hrr : RunResult L w.st.svc (workDirAfter getwd w.st.svc) routers m (rs1.map (cleanRoute m)) (cs1.map (cleanField m)) := by
    refine ⟨found, m1, cs1, rs1, b0, ?_, ?_, rfl, rfl⟩
    · rw [b1] at c0; exact c0
    · rw [c1] at d0; exact d0
  obtain ⟨hs, hr⟩ := hres _ _ _ hrr
  have e1 : w1.st.svc = { afterSetup getwd w.st.svc with tempMain := m, components := cs1.map (cleanField m), routes := rs1.map (cleanRoute m) } := by
    rw [d1, c1, b1]
  refine bind_congr ?_ (fun _ _ _ => rfl)
  unfold stepGenerate
  rw [Run.bind_ok (logEvent_ok _ φ w1), Run.bind_ok (getSvc_ok φ _), Run.bind_ok (logEvent_ok _ φ w1), Run.bind_ok (getSvc_ok φ _)]
  refine bind_congr ?_ (fun _ _ _ => rfl)
  refine runAll_choices L ch' ho ho' hch hch' hs (maps := w.st.svc.maps) hr .output _ ?_ 0 φ _ ⟨?_, ?_, ?_⟩
  · intro a ha
    obtain ⟨o, hb, rfl⟩ := List.mem_map.mp ha
    rw [show w1.st.svc.outputs = w.st.svc.outputs by rw [e1]; rfl] at hb
    rcases hout o hb with (h | h) | h
    · exact .inl h
    · exact .inr (.inl h)
    · exact .inr (.inr h)
  · exact congrArg Service.routes e1
  · exact congrArg Service.components e1
  · exact (congrArg Service.maps e1).trans rfl

/-! ### Cleaning keeps components settled -/

theorem clean_parts (m : Str) (f : Field) : (cleanField m f).name = f.name ∧ (cleanField m f).bindingTags = f.bindingTags ∧
    (cleanField m f).isEmbedded = f.isEmbedded ∧ (cleanField m f).package = (if f.package = m then c!"main" else f.package) ∧
    ((cleanField m f).structFields = [] ∨ (cleanField m f).structFields = f.structFields.map (fun e => (e.1, cleanField m e.2))) := by
  rw [cleanField_eq]
  unfold renameMain handleSubstituteTypes
  split
  · exact ⟨rfl, rfl, rfl, rfl, .inl rfl⟩
  · exact ⟨rfl, rfl, rfl, rfl, .inr rfl⟩

theorem tidy_clean {b : BTag} {f : Field} (m : Str) (h : Tidy b f) : Tidy b (cleanField m f) := by
  induction h with
  | mk h1 h2 _ ih =>
    rename_i f _
    obtain ⟨_, e2, _, _, e5⟩ := clean_parts m f
    refine ⟨by rw [e2]; exact h1, ?_, ?_⟩
    · rcases e5 with e | e <;> rw [e]
      · exact .nil
      · rw [List.pairwise_map]
        refine h2.imp ?_
        intro x y ⟨h3, h4⟩
        obtain ⟨_, a2, a3, _, _⟩ := clean_parts m x.2
        obtain ⟨_, b2, b3, _, _⟩ := clean_parts m y.2
        unfold Independent ShownAs
        simp only [a2, a3, b2, b3]
        exact ⟨h3, h4⟩
    · rcases e5 with e | e <;> rw [e]
      · simp
      · intro x hx
        obtain ⟨y, hy, rfl⟩ := List.mem_map.mp hx
        exact ih y hy

/-- If the components are settled before the main package is renamed, they are so afterwards, provided none is in a package `main` yet. -/
theorem settled_clean {cs : List Field} (m : Str) (h : Settled cs) (hm : ∀ c ∈ cs, c.package ≠ c!"main") : Settled (cs.map (cleanField m)) := by
  refine ⟨?_, ?_, ?_, ?_⟩
  · have hd := h.distinct
    rw [List.map_map]
    unfold List.Nodup at hd ⊢
    rw [List.pairwise_map] at hd ⊢
    refine List.Pairwise.imp_of_mem ?_ hd
    intro a b ha hb hne
    obtain ⟨a1, _, _, a4, _⟩ := clean_parts m a
    obtain ⟨b1, _, _, b4, _⟩ := clean_parts m b
    simp only [Function.comp, a1, b1, a4, b4]
    intro he
    rw [Prod.mk.injEq] at he
    apply hne
    refine Prod.ext he.1 ?_
    have h2 := he.2
    split at h2 <;> split at h2
    · rename_i x y; exact x.trans y.symm
    · exact absurd h2.symm (hm b hb)
    · exact absurd h2 (hm a ha)
    · exact h2
  · intro c hc
    obtain ⟨a, ha, rfl⟩ := List.mem_map.mp hc
    obtain ⟨a1, _, _, a4, _⟩ := clean_parts m a
    rw [a1, a4]
    refine ⟨(h.names a ha).1, ?_⟩
    split
    · decide
    · exact (h.names a ha).2
  · intro c hc b
    obtain ⟨a, ha, rfl⟩ := List.mem_map.mp hc
    exact tidy_clean m (h.tidy a ha b)
  · intro c hc
    obtain ⟨a, ha, rfl⟩ := List.mem_map.mp hc
    obtain ⟨_, _, _, _, e | e⟩ := clean_parts m a
    · rw [e]; intro x hx; cases hx
    · rw [e]
      intro x hx
      obtain ⟨y, hy, rfl⟩ := List.mem_map.mp hx
      simp only [(clean_parts m y.2).2.1]
      exact h.tags a ha y hy

/-! ### Non-vacuity -/

/-- Two types of one name in two packages; the first is a query. -/
def orderFilter (package : Str) : Field :=
  { package := package, name := c!"Filter", type := c!"struct", structFields :=
      [(c!"Limit", { package := c!"x", type := c!"int", bindingTags := [(.form, { name := c!"limit" })] }),
       (c!"Page", { package := c!"x", type := c!"int", bindingTags := [(.form, { name := c!"page" })] })] }

def orderComponents : List Field := [orderFilter c!"example.com/m/a", orderFilter c!"example.com/m/b"]

/-- An analysis that gives every route a path parameter and a query of the first type. -/
def orderLib : Lib :=
  { exampleLib with
    choices := someChoices
    parse := fun _ _ r => (orderComponents, .ok { r with
      operationId := c!"get"
      pathParams := [{ name := c!"id", field := { package := c!"x", type := c!"string" }, isRequired := true }]
      requestHeaders := []
      queryParams := [{ name := c!"q", field := { package := c!"example.com/m/a", type := c!"Filter" }, isBound := true }] }) }

/-- Choices of another kind: the groups and the properties in reverse order. -/
def otherChoices : Choices :=
  { groups := List.reverse, route := fun _ => { sort := fun l => l.reverse.foldr insertParam [], iter := fun _ l => l.reverse } }

theorem otherChoices_valid : (∀ l, (otherChoices.groups l).Perm l) ∧ ∀ n, ValidChoice (otherChoices.route n) :=
  ⟨fun l => List.reverse_perm l, fun _ => ⟨fun l => ⟨(someChoice_valid.1 l.reverse).1.trans (List.reverse_perm l), (someChoice_valid.1 l.reverse).2⟩,
    fun _ l => List.reverse_perm l⟩⟩

def orderWorld : World Proc :=
  { routerWorld with
    st := { svc := newService [.workDir c!"/w", .ginInput (some routerInfos), .jsonOutput c!"routes", .openApiOutput c!"api",
      .deny (.exact c!"/secret"), .config (some { title := c!"t", host := c!"localhost", port := 8000, basePath := c!"/" })] } }

theorem orderFilter_tidy (b : BTag) (package : Str) : Tidy b (orderFilter package) := by
  refine ⟨by simp [orderFilter], ?_, ?_⟩
  · simp only [orderFilter, List.pairwise_cons, List.mem_singleton, forall_eq, List.not_mem_nil, false_implies, implies_true,
      List.Pairwise.nil, and_true]
    refine ⟨by simp, ?_⟩
    rintro n ⟨t, rfl, h1, h2, h3⟩ ⟨t', h4, h5, h6, h7⟩
    simp only [List.mem_singleton, Prod.mk.injEq, reduceCtorEq, false_and, or_false] at h3 h7
    rw [h3.2, h7.2] at h4
    revert h4
    decide
  · intro x hx
    simp only [orderFilter, List.mem_cons, List.not_mem_nil, or_false] at hx
    rcases hx with rfl | rfl
    · exact ⟨by simp, List.Pairwise.nil, by simp⟩
    · exact ⟨by simp, List.Pairwise.nil, by simp⟩

theorem orderComponents_settled : Settled orderComponents := by
  refine ⟨by decide, by decide, ?_, ?_⟩
  · intro c hc b
    simp only [orderComponents, List.mem_cons, List.not_mem_nil, or_false] at hc
    rcases hc with rfl | rfl <;> exact orderFilter_tidy b _
  · intro c hc x hx e he
    simp only [orderComponents, List.mem_cons, List.not_mem_nil, or_false] at hc
    rcases hc with rfl | rfl <;> simp only [orderFilter, List.mem_cons, List.not_mem_nil, or_false] at hx <;> rcases hx with rfl | rfl <;>
      simp only [List.mem_singleton] at he <;> subst he <;> decide

/-- The names of the parameters of a route with a path parameter `id` and a query of a filter type are distinct. -/
theorem order_clear (types : List (Str × TypeFormat)) (cs : List Field)
    (hcs : ∀ c ∈ cs, ∀ (names : List (Str × Str)) s, componentToSchema { types := types, names := names } .form c = some s →
      (s.properties.map (·.1)).Nodup ∧ c!"id" ∉ s.properties.map (·.1))
    (r : Route) (p q : Param) (hp : r.pathParams = [p]) (hh : r.requestHeaders = []) (hq : r.queryParams = [q]) (hname : p.name = c!"id") (hb : q.isBound = true) :
    ClearParameters types cs r := by
  intro names ch hch
  have hperm := (hch.1 (pathParameters { types := types, names := names } r.pathParams ++ headerParameters { types := types, names := names } r.requestHeaders ++
    queryParameters { types := types, names := names } cs ch.iter 0 r.queryParams)).1.map (·.name)
  show ((ch.sort _).map (·.name)).Nodup
  rw [hperm.nodup_iff, hp, hh, hq]
  have h1 : (pathParameters { types := types, names := names } [p]).map (·.name) = [] ∨ (pathParameters { types := types, names := names } [p]).map (·.name) = [c!"id"] := by
    unfold pathParameters
    cases hm : mapParamToSchema { types := types, names := names } .uri p with
    | none => exact .inl (by simp [hm])
    | some s => exact .inr (by simp [hm, hname])
  have h2 : ((queryParameters { types := types, names := names } cs ch.iter 0 [q]).map (·.name)).Nodup ∧
      c!"id" ∉ (queryParameters { types := types, names := names } cs ch.iter 0 [q]).map (·.name) := by
    simp only [queryParameters, List.append_nil]
    unfold queryParametersOf
    split
    · simp
    · rw [if_pos hb]
      split
      · simp
      · rename_i c hc
        split
        · simp
        · rename_i s hs
          have e := hcs c (List.mem_of_find?_eq_some hc) names s hs
          have hp := ((hch.2 0 s.properties).map (·.1))
          rw [List.map_map]
          have e2 : (fun x : OParam => x.name) ∘ (fun x : Str × Schema => queryParameter x.1 q.isRequired x.2) = (·.1) := rfl
          rw [e2, hp.nodup_iff, hp.mem_iff]
          exact e
  rw [List.map_append, List.map_append]
  rcases h1 with h1 | h1 <;> rw [h1]
  · simpa [headerParameters] using h2.1
  · simp only [headerParameters, List.filterMap_nil, List.map_nil, List.append_nil, List.singleton_append, List.nodup_cons]
    exact ⟨h2.2, h2.1⟩

theorem mapTypeFormat_properties (E : SchemaEnv) (name package : Str) : (mapTypeFormat E name package).properties = [] := by
  unfold mapTypeFormat formatSchema
  split
  · split <;> rfl
  · rfl

theorem order_properties (types : List (Str × TypeFormat)) (names : List (Str × Str)) (m package : Str)
    (hpkg : package = c!"example.com/m/a" ∨ package = c!"example.com/m/b") (s : Schema)
    (h : componentToSchema { types := types, names := names } .form (cleanField m (orderFilter package)) = some s) :
    (s.properties.map (·.1)).Nodup ∧ c!"id" ∉ s.properties.map (·.1) := by
  have e : cleanField m (orderFilter package) = { package := if package = m then c!"main" else package, name := c!"Filter", type := c!"struct", mapKeyPackage := if [] = m then c!"main" else [], structFields :=
      [(c!"Limit", { package := if c!"x" = m then c!"main" else c!"x", mapKeyPackage := if [] = m then c!"main" else [], type := c!"int", bindingTags := [(.form, { name := c!"limit" })] }),
       (c!"Page", { package := if c!"x" = m then c!"main" else c!"x", mapKeyPackage := if [] = m then c!"main" else [], type := c!"int", bindingTags := [(.form, { name := c!"page" })] })] } := by
    rcases hpkg with rfl | rfl <;> rfl
  rw [e] at h
  generalize (if c!"x" = m then c!"main" else c!"x") = pk at h
  generalize (if [] = m then c!"main" else []) = mk at h
  generalize (if package = m then c!"main" else package) = pk' at h
  rw [componentToSchema] at h
  split at h
  · cases h
    rw [mapTypeFormat_properties]
    simp
  · rw [if_pos rfl] at h
    have hint : ∃ t, componentToSchema { types := types, names := names } .form { package := pk, mapKeyPackage := mk, type := c!"int", bindingTags := [(.form, { name := c!"limit" })] } = some t := by
      rw [componentToSchema]
      split
      · exact ⟨_, rfl⟩
      · exact ⟨_, rfl⟩
    have hint' : ∃ t, componentToSchema { types := types, names := names } .form { package := pk, mapKeyPackage := mk, type := c!"int", bindingTags := [(.form, { name := c!"page" })] } = some t := by
      rw [componentToSchema]
      split
      · exact ⟨_, rfl⟩
      · exact ⟨_, rfl⟩
    obtain ⟨t1, h1⟩ := hint
    obtain ⟨t2, h2⟩ := hint'
    have hb : ∀ f : Field, f.bindingTags = [(.form, { name := c!"limit" })] → fieldBinding f .form = some { name := c!"limit" } := by
      intro f hf; unfold fieldBinding; rw [hf]; rfl
    have hb' : ∀ f : Field, f.bindingTags = [(.form, { name := c!"page" })] → fieldBinding f .form = some { name := c!"page" } := by
      intro f hf; unfold fieldBinding; rw [hf]; rfl
    rw [structLoop, hb _ rfl, structLoop, hb' _ rfl] at h
    simp only [Bool.false_eq_true, if_false, h1, h2, structLoop] at h
    cases h
    show ([c!"limit", c!"page"] : List Str).Nodup ∧ c!"id" ∉ ([c!"limit", c!"page"] : List Str)
    decide

/-- The run of the example meets the hypotheses of `same_run_partial` about its result. -/
theorem order_result (wd : Str) (m : Str) (rs : List Route) (cs : List Field) (h : RunResult orderLib orderWorld.st.svc wd [routerInfos] m rs cs) :
    Settled cs ∧ ∀ r ∈ rs, ClearParameters orderWorld.st.svc.maps.merged cs r := by
  obtain ⟨found, m1, cs1, rs1, _, h2, _, rfl, rfl⟩ := runResult_one.mp h
  have key : ∀ (m m1 : Str) (c0 cs1 : List Field) (found rs1 : List Route), AnalysedInOrder orderLib wd orderWorld.st.svc.customFuncs m c0 found m1 cs1 rs1 →
      (c0 = [] ∨ c0 = orderComponents) → (cs1 = [] ∨ cs1 = orderComponents) ∧ ∀ r ∈ rs1, ∃ p q, r.pathParams = [p] ∧ r.requestHeaders = [] ∧ r.queryParams = [q] ∧
        p.name = c!"id" ∧ q.isBound = true := by
    intro m m1 c0 cs1 found rs1 h
    induction h with
    | done m cs => exact fun h => ⟨h, fun r hr => by cases hr⟩
    | step _ hp _ ih =>
      intro _
      cases hp
      obtain ⟨i1, i2⟩ := ih (.inr rfl)
      refine ⟨i1, fun r hr => ?_⟩
      rcases List.mem_cons.mp hr with rfl | hr
      · exact ⟨_, _, rfl, rfl, rfl, rfl, rfl⟩
      · exact i2 r hr
  obtain ⟨k1, k2⟩ := key _ _ _ _ _ _ h2 (.inl rfl)
  have hpk : ∀ c ∈ cs1, ∃ package, (package = c!"example.com/m/a" ∨ package = c!"example.com/m/b") ∧ c = orderFilter package := by
    intro c hc
    rcases k1 with rfl | rfl
    · cases hc
    · simp only [orderComponents, List.mem_cons, List.not_mem_nil, or_false] at hc
      rcases hc with rfl | rfl
      · exact ⟨_, .inl rfl, rfl⟩
      · exact ⟨_, .inr rfl, rfl⟩
  refine ⟨settled_clean m ?_ ?_, ?_⟩
  · rcases k1 with rfl | rfl
    · exact ⟨.nil, by simp, by simp, by simp⟩
    · exact orderComponents_settled
  · intro c hc
    obtain ⟨_, rfl | rfl, rfl⟩ := hpk c hc <;> decide
  · intro r hr
    obtain ⟨r', hr', rfl⟩ := List.mem_map.mp hr
    obtain ⟨p, q, h1, h2, h3, h4, h5⟩ := k2 r' hr'
    refine order_clear _ _ ?_ _ { p with field := cleanField m p.field } { q with field := cleanField m q.field } (by simp [cleanRoute, h1]) h2
      (by simp [cleanRoute, h3]) h4 h5
    intro c hc names s hs
    obtain ⟨c', hc', rfl⟩ := List.mem_map.mp hc
    obtain ⟨pkg, hpkg, rfl⟩ := hpk c' hc'
    exact order_properties _ _ _ _ hpkg _ hs

/-- The run of the example is the same with both choices, and it writes a document with the sorted parameters. -/
example : (Astra.parseAll { orderLib with choices := otherChoices } c!"/w" noFaults orderWorld) = Astra.parseAll orderLib c!"/w" noFaults orderWorld :=
  (same_run_partial orderLib (fun ctx cs r cs' r' h => by cases h; exact ⟨rfl, rfl⟩) otherChoices (fun l => .refl _) otherChoices_valid.1
    (fun _ => someChoice_valid) otherChoices_valid.2 c!"/w" noFaults orderWorld [routerInfos] (ginInput_one rfl) rfl
    (by show (List.map _ (allowed _ _)).Nodup; decide +kernel) (by
      intro o ho
      have : o ∈ [_, _] := ho
      rw [List.mem_cons, List.mem_singleton] at this
      rcases this with rfl | rfl
      · exact .inl (.inl ⟨_, rfl⟩)
      · exact .inr ⟨_, rfl⟩) (order_result _)).symm

example : (Astra.parseAll orderLib c!"/w" noFaults orderWorld).2 = .ok () ∧
    ((Astra.parseAll orderLib c!"/w" noFaults orderWorld).1.fs.look [c!"w", c!"api.json"]).isSome = true := by
  constructor <;> decide +kernel

/-- The two choices name the groups in different orders; the documents are the same, also with the fields listed in reverse. -/
example : otherChoices.groups (groupByPackage orderComponents) ≠ someChoices.groups (groupByPackage orderComponents) ∧
    (generateDoc someChoices [] { config := some {}, routes := [], components := orderComponents, types := [] } =
      generateDoc otherChoices [] { config := some {}, routes := [], components := orderComponents.map (fun f => { f with structFields := f.structFields.reverse }), types := [] }) := by
  refine ⟨by decide +kernel, by decide +kernel⟩

/-- A service with a path parameter and a query parameter of one name. -/
def twiceId : OpenApiInput :=
  { config := some {}, components := [], types := [], routes := [{ path := c!"/a/:id", method := c!"GET", pathParams := [{ name := c!"id", field := { type := c!"string" }, isRequired := true }], queryParams := [{ name := c!"id", field := { type := c!"string" } }] }] }

/-- C81, violated: with two parameters of one name, the document depends on how the unstable sort arranges them. -/
theorem equal_names_documents_differ : generateDoc someChoices [] twiceId ≠ generateDoc otherChoices [] twiceId ∧
    (∀ n, ValidChoice (someChoices.route n)) ∧ ∀ n, ValidChoice (otherChoices.route n) :=
  ⟨by decide +kernel, fun _ => someChoice_valid, otherChoices_valid.2⟩

end Astra.Props
