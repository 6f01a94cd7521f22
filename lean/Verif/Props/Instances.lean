/-
C104: types of one package and one name (instances of a generic type, types declared in different functions) share one component.
-/
import Verif.Spec.Instances
import Verif.Props.SentWitness

namespace Astra.Props
open Astra.Spec

/-! ### What the components are made of -/

theorem component_identity {Γ : TypeEnv} {D : TName → Prop} (hD : NamedTypes Γ D) {x : TName} (hx : D x) {c : Field} (h : ComponentOf Γ x c) :
    c.name = x.2.1 ∧ c.package = x.1 := by
  obtain ⟨k, st, st', r, h1, rfl⟩ := h
  have hn := hD.names x hx
  have ho := hD.own x hx
  have i : r.name = x.2.1 ∧ r.package = some x.1 := by
    cases k with
    | zero => exact ⟨own_name Γ _ _ _ hn.2 _ ho _ _ _ h1, element_package Γ _ _ _ (own_element ho) _ _ _ _ h1⟩
    | succ k => exact ⟨own_name Γ _ _ _ hn.2 _ ho _ _ _ h1, element_package Γ _ _ _ (own_element ho) _ _ _ _ h1⟩
  refine ⟨by rw [parse_name]; exact i.1, ?_⟩
  rw [parse_package _ (by show r.name ≠ []; rw [i.1]; exact hn.2)]
  show r.package.getD [] = _
  rw [i.2]
  rfl

/-- Every component comes from a type of `D`, and no two have the same name and package. -/
def MadeOnce (Γ : TypeEnv) (D : TName → Prop) (st : List Field) : Prop :=
  (∀ c ∈ st, ∃ x, D x ∧ ComponentOf Γ x c) ∧ (st.map compKey).Nodup

theorem madeOnce_nil (Γ : TypeEnv) (D : TName → Prop) : MadeOnce Γ D [] := ⟨(by intro c hc; cases hc), .nil⟩

theorem typeResult_madeOnce {Γ : TypeEnv} {D : TName → Prop} (hD : NamedTypes Γ D) (k : Nat) : ∀ t, (∀ x, Occurs t x → D x) →
    ∀ st pkg name st' r, typeResult Γ true k st pkg name t = some (st', r) → MadeOnce Γ D st → MadeOnce Γ D st' := by
  induction k with
  | zero =>
    intro t _ st pkg name st' r h
    exact typeStep_grows Γ true _ (fun a b => MadeOnce Γ D a → MadeOnce Γ D b) (fun _ h => h) (fun _ _ _ h1 h2 h => h2 (h1 h)) t
      (fun p tn a _ st st' r h => by cases h) st pkg name st' r h
  | succ k ih =>
    intro t ht st pkg name st' r h
    refine typeStep_grows Γ true _ (fun a b => MadeOnce Γ D a → MadeOnce Γ D b) (fun _ h => h) (fun _ _ _ h1 h2 h => h2 (h1 h)) t ?_ st pkg name st' r h
    intro p tn a ho st st' r hr
    have hx := ht _ ho
    have h1 := ih _ (hD.closed _ hx) st (some p) tn st' r hr
    refine ⟨h1, ?_⟩
    rintro r2 rfl hst
    have hst' := h1 hst
    unfold pushComponent
    split
    · refine ⟨?_, (addComponent_prefix_nodup _ _).2 hst'.2⟩
      intro c hc
      rcases addComponent_mem _ _ c hc with hc | rfl
      · exact hst'.1 c hc
      · exact ⟨_, hx, k, st, st', r2, hr, rfl⟩
    · exact hst'

theorem each_madeOnce {Γ : TypeEnv} {D : TName → Prop} (hD : NamedTypes Γ D) {start final : List Field} {ts : List (Option Str × GoType)}
    (h : TranslatesEach Γ start ts final) (hts : ∀ t ∈ ts, ∀ x, Occurs t.2 x → D x) (hs : MadeOnce Γ D start) : MadeOnce Γ D final := by
  induction h with
  | done => exact hs
  | next h1 _ ih =>
    obtain ⟨k, hk⟩ := h1
    exact ih (fun t ht => hts t (by simp [ht])) (typeResult_madeOnce hD k _ (hts _ List.mem_cons_self) _ _ _ _ _ hk hs)

theorem each_prefix {Γ : TypeEnv} {start final : List Field} {ts : List (Option Str × GoType)} (h : TranslatesEach Γ start ts final) :
    start <+: final := by
  induction h with
  | done => exact List.prefix_refl _
  | next h1 _ ih =>
    obtain ⟨k, hk⟩ := h1
    exact (typeResult_prefix Γ true k _ _ _ _ _ _ hk).trans ih

theorem reaches_in {Γ : TypeEnv} {D : TName → Prop} (hD : NamedTypes Γ D) {t : GoType} (ht : ∀ x, Occurs t x → D x) {x : TName} (h : Reaches Γ t x) :
    D x := by
  have go : ∀ {y z}, UsesPlus Γ y z → D y → D z := by
    intro y z h
    induction h with
    | one h => exact fun hy => hD.closed _ hy _ h
    | more h _ ih => exact fun hy => ih (hD.closed _ hy _ h)
  cases h with
  | direct h => exact ht _ h
  | through h1 h2 => exact go h2 (ht _ h1)

theorem each_has {Γ : TypeEnv} {D : TName → Prop} (hD : NamedTypes Γ D) {start final : List Field} {ts : List (Option Str × GoType)}
    (h : TranslatesEach Γ start ts final) (hts : ∀ t ∈ ts, ∀ x, Occurs t.2 x → D x) : ∀ t ∈ ts, ∀ x, Reaches Γ t.2 x → HasComponent final x := by
  induction h with
  | done => intro t ht; cases ht
  | @next start cs final pkg t r rest h1 h2 ih =>
    intro u hu x hx
    rcases List.mem_cons.mp hu with rfl | hu
    · have hDx := reaches_in hD (hts (pkg, t) (by simp)) hx
      have hn := hD.names x hDx
      obtain ⟨c, hc, e⟩ := components_closed_partial Γ start pkg t cs r h1 x hx hn.1 hn.2 (hD.own x hDx)
      exact ⟨c, (each_prefix h2).subset hc, e⟩
    · exact ih (fun t ht => hts t (by simp [ht])) u hu x hx

theorem key_unique {st : List Field} (h : (st.map compKey).Nodup) {c c' : Field} (hc : c ∈ st) (hc' : c' ∈ st) (e : compKey c = compKey c') : c = c' := by
  induction st with
  | nil => cases hc
  | cons a st ih =>
    rw [List.map_cons, List.nodup_cons] at h
    rcases List.mem_cons.mp hc with e1 | hc <;> rcases List.mem_cons.mp hc' with e2 | hc'
    · rw [e1, e2]
    · exact absurd (by rw [← e1, e]; exact List.mem_map_of_mem hc') h.1
    · exact absurd (by rw [← e2, ← e]; exact List.mem_map_of_mem hc) h.1
    · exact ih h.2 hc hc'

/-! ### The property, and where it fails -/

/-- C104, what the code does: after any sequence of translations, starting from nothing, a type that was met has exactly one component under its package
and name, and that component describes the definition of a type of this package and name; not always that of the type itself, see below. -/
theorem one_component_per_name (Γ : TypeEnv) (D : TName → Prop) (hD : NamedTypes Γ D) (ts : List (Option Str × GoType))
    (hts : ∀ t ∈ ts, ∀ x, Occurs t.2 x → D x) (cs : List Field) (h : TranslatesEach Γ [] ts cs) (x : TName) (hx : ∃ t ∈ ts, Reaches Γ t.2 x) :
    ∃ c ∈ cs, (∃ y, D y ∧ SameName x y ∧ ComponentOf Γ y c) ∧ ∀ c' ∈ cs, c'.name = x.2.1 → c'.package = x.1 → c' = c := by
  have hm := each_madeOnce hD h hts (madeOnce_nil Γ D)
  obtain ⟨t, ht, hr⟩ := hx
  obtain ⟨c, hc, e1, e2⟩ := each_has hD h hts t ht x hr
  obtain ⟨y, hy, hcy⟩ := hm.1 c hc
  obtain ⟨i1, i2⟩ := component_identity hD hy hcy
  refine ⟨c, hc, ⟨y, hy, ⟨e2.symm.trans i2, e1.symm.trans i1⟩, hcy⟩, ?_⟩
  intro c' hc' k1 k2
  exact key_unique hm.2 hc' hc (by unfold compKey; rw [e1, e2, k1, k2])

/-- C104, partial: if no two types have the same package and name, every type that was met is described by the component of its name. Missing: types of one
name, of which only one is described (next theorems). -/
theorem types_described_separately_partial (Γ : TypeEnv) (D : TName → Prop) (hD : NamedTypes Γ D) (hone : ∀ x y, D x → D y → SameName x y → x = y)
    (ts : List (Option Str × GoType)) (hts : ∀ t ∈ ts, ∀ x, Occurs t.2 x → D x) (cs : List Field) (h : TranslatesEach Γ [] ts cs) (x : TName)
    (hx : ∃ t ∈ ts, Reaches Γ t.2 x) :
    ∃ c ∈ cs, ComponentOf Γ x c ∧ ∀ c' ∈ cs, c'.name = x.2.1 → c'.package = x.1 → c' = c := by
  obtain ⟨c, hc, ⟨y, hy, hxy, hcy⟩, hu⟩ := one_component_per_name Γ D hD ts hts cs h x hx
  obtain ⟨t, ht, hr⟩ := hx
  have := hone x y (reaches_in hD (hts t ht) hr) hy hxy
  subst this
  exact ⟨c, hc, hcy, hu⟩

/-- C104, exact: two types of one package and name are both described only if one component describes both. -/
theorem types_of_one_name_described_iff (Γ : TypeEnv) (D : TName → Prop) (hD : NamedTypes Γ D) (ts : List (Option Str × GoType))
    (hts : ∀ t ∈ ts, ∀ x, Occurs t.2 x → D x) (cs : List Field) (h : TranslatesEach Γ [] ts cs) (x y : TName)
    (hx : ∃ t ∈ ts, Reaches Γ t.2 x) (hy : ∃ t ∈ ts, Reaches Γ t.2 y) (hxy : SameName x y) :
    (DescribedIn Γ cs x ∧ DescribedIn Γ cs y) ↔ ∃ c ∈ cs, ComponentOf Γ x c ∧ ComponentOf Γ y c := by
  have hDx : D x := by obtain ⟨t, ht, hr⟩ := hx; exact reaches_in hD (hts t ht) hr
  have hDy : D y := by obtain ⟨t, ht, hr⟩ := hy; exact reaches_in hD (hts t ht) hr
  constructor
  · rintro ⟨⟨c, hc, h1⟩, ⟨c', hc', h2⟩⟩
    obtain ⟨i1, i2⟩ := component_identity hD hDx h1
    obtain ⟨j1, j2⟩ := component_identity hD hDy h2
    have hm := each_madeOnce hD h hts (madeOnce_nil Γ D)
    have e := key_unique hm.2 hc hc' (by unfold compKey; rw [i1, i2, j1, j2, hxy.1, hxy.2])
    subst e
    exact ⟨c, hc, h1, h2⟩
  · rintro ⟨c, hc, h1, h2⟩
    exact ⟨⟨c, hc, h1⟩, ⟨c, hc, h2⟩⟩

/-- C104: which of the types of one name is described: the one whose component was made first. Whatever is met later, the component of a name stays what it
is. -/
theorem first_of_a_name_stays (Γ : TypeEnv) (D : TName → Prop) (hD : NamedTypes Γ D) (ts us : List (Option Str × GoType))
    (hts : ∀ t ∈ ts ++ us, ∀ x, Occurs t.2 x → D x) (cs cs' : List Field) (h : TranslatesEach Γ [] ts cs) (h' : TranslatesEach Γ cs us cs')
    (c : Field) (hc : c ∈ cs) (c' : Field) (hc' : c' ∈ cs') (hn : c'.name = c.name) (hp : c'.package = c.package) : c' = c := by
  have hm := each_madeOnce hD h (fun t ht => hts t (by simp [ht])) (madeOnce_nil Γ D)
  have hm' := each_madeOnce hD h' (fun t ht => hts t (by simp [ht])) hm
  exact key_unique hm'.2 hc' ((each_prefix h').subset hc) (by unfold compKey; rw [hn, hp])

/-- C104: what is recorded where a type is used (a body, a response, a field) has its name and package only, so that all types of one name are referred to in
the same way. -/
theorem types_of_one_name_referred_alike (Γ : TypeEnv) (st1 st2 cs1 cs2 : List Field) (pkg1 pkg2 : Option Str) (p n a b : Str) (r1 r2 : Result)
    (h1 : Translates Γ st1 pkg1 (.named (some p) n a) (cs1, .ok r1)) (h2 : Translates Γ st2 pkg2 (.named (some p) n b) (cs2, .ok r2)) :
    r1 = r2 ∧ r1.type = n ∧ r1.package = some p := by
  have go : ∀ {st cs : List Field} {pkg : Option Str} {a : Str} {r : Result}, Translates Γ st pkg (.named (some p) n a) (cs, .ok r) →
      r = { type := n, package := some p } := by
    rintro st cs pkg a r ⟨k, hk⟩
    have key : ∀ rec, typeStep Γ true rec st pkg [] (.named (some p) n a) = some (cs, .ok r) → r = { type := n, package := some p } := by
      intro rec h
      simp only [typeStep] at h
      split at h
      · cases h
      · simp only [if_true] at h
        split at h
        · cases h
        · cases h
        · cases h
        · unfold finishResult at h
          split at h
          · simp only [ne_eq, not_true, if_false] at h
            cases h; rfl
          · cases h
    cases k with
    | zero => exact key _ hk
    | succ k => exact key _ hk
  rw [go h1, go h2]
  exact ⟨rfl, rfl, rfl⟩

/-! ### A generic type with two instances -/

theorem single_rows (Γ : TypeEnv) (e : StructField × GoType) (name : Str) (h1 : e.1.embedded = false) (h2 : e.1.exported = true)
    (h3 : e.1.tag = jsonOnly name) (h4 : ∀ c ∈ name, TagChar c) (h5 : name ≠ []) (h6 : name ≠ c!"-") (h7 : split ',' name = [name])
    (h8 : ∀ c ∈ name, c ≠ '"' ∧ c ≠ '\\' ∧ c ≠ '\n') : Rows Γ [e] [([0], e, name, [])] := by
  have hp : ∀ x ∈ [e], x.1.embedded = false := by intro x hx; rw [List.mem_singleton.mp hx]; exact h1
  have hni : ∀ gs, ¬ Inlines Γ e gs := by
    rintro gs ⟨h', _⟩
    rw [h1] at h'
    cases h'
  refine ⟨?_, ?_, ?_, ?_⟩
  · intro path x h
    obtain ⟨i, rfl, hi⟩ := offers_plain hp h
    match i, hi with
    | 0, hi => cases hi; exact ⟨_, List.mem_cons_self, rfl, rfl⟩
  · intro r hr
    rw [List.mem_singleton.mp hr]
    exact .own rfl h2 hni
  · intro r hr
    rw [List.mem_singleton.mp hr]
    refine ⟨jsonOnly_member name name [] h3 h8 h6 h7 h5 h4, fun k o hm => ?_⟩
    have ht := jsonOnly_text name h8
    rw [← h3] at ht
    exact member_of_value ht rfl h7 h5 hm
  · intro r hr r' hr' _
    rw [List.mem_singleton.mp hr, List.mem_singleton.mp hr']

def pageItems (elem : Str) : StructField × GoType :=
  ({ name := c!"Items", tag := jsonOnly c!"items" }, .slice (.named (some shopPkg) elem []))

def userID : StructField × GoType := ({ name := c!"ID", tag := jsonOnly c!"id" }, .basic .string c!"string")

def orderID : StructField × GoType := ({ name := c!"ID", tag := jsonOnly c!"id" }, .basic .int c!"int")

/-- `type Page[T any] struct { Items []T }`, `type User struct { ID string }` and `type Order struct { ID int }`, tagged for JSON. -/
def pageEnv : TypeEnv where
  loadable := fun p => p = shopPkg
  underlying := fun _ n a => if n = c!"Page" then .struct [pageItems a] else if n = c!"User" then .struct [userID]
    else if n = c!"Order" then .struct [orderID] else .interface
  files := fun _ => []
  nodeAt := fun _ _ => .other
  parseFloat := fun _ => none

def pageOf (arg : Str) : GoType := .named (some shopPkg) c!"Page" arg

def pageTypes (x : TName) : Prop := x ∈ [(shopPkg, c!"Page", c!"User"), (shopPkg, c!"Page", c!"Order"), (shopPkg, c!"User", []), (shopPkg, c!"Order", [])]

theorem pageTypes_named : NamedTypes pageEnv pageTypes := by
  have hone : ∀ (e : StructField × GoType) (y : TName), Occurs (.struct [e]) y → Occurs e.2 y := by
    intro e y h
    cases h with
    | field hm _ ho => cases List.mem_singleton.mp hm; exact ho
  refine ⟨?_, ?_, ?_⟩
  · intro x hx y hu
    simp only [pageTypes, List.mem_cons, List.not_mem_nil, or_false] at hx
    rcases hx with rfl | rfl | rfl | rfl
    · have := hone (pageItems c!"User") y hu
      cases this with | slice h => cases h; simp [pageTypes]
    · have := hone (pageItems c!"Order") y hu
      cases this with | slice h => cases h; simp [pageTypes]
    · have := hone userID y hu; cases this
    · have := hone orderID y hu; cases this
  · unfold pageTypes; decide
  · intro x hx
    simp only [pageTypes, List.mem_cons, List.not_mem_nil, or_false] at hx
    rcases hx with rfl | rfl | rfl | rfl <;> trivial

/-- The two instances are translated one after the other, so that the theorems above speak about them. -/
example : ∃ cs, TranslatesEach pageEnv [] [(some shopPkg, pageOf c!"User"), (some shopPkg, pageOf c!"Order")] cs ∧
    cs.map (fun c => c.name :: c.structFields.flatMap (fun f => [f.1, f.2.type, f.2.sliceType])) =
      [[c!"User", c!"ID", c!"string", []], [c!"Page", c!"Items", c!"slice", c!"User"], [c!"Order", c!"ID", c!"int", []]] := by
  have h : (typeResult pageEnv true 3 [] (some shopPkg) [] (pageOf c!"User")).bind (fun x => match x with
      | (cs, .ok _) => (typeResult pageEnv true 3 cs (some shopPkg) [] (pageOf c!"Order")).bind (fun y => match y with
        | (cs', .ok _) => some (cs'.map (fun c => c.name :: c.structFields.flatMap (fun f => [f.1, f.2.type, f.2.sliceType])))
        | _ => none)
      | _ => none) = some [[c!"User", c!"ID", c!"string", []], [c!"Page", c!"Items", c!"slice", c!"User"], [c!"Order", c!"ID", c!"int", []]] := by
    decide +kernel
  cases h1 : typeResult pageEnv true 3 [] (some shopPkg) [] (pageOf c!"User") with
  | none => rw [h1] at h; cases h
  | some x =>
    obtain ⟨cs, r⟩ := x
    rw [h1] at h
    cases r with
    | err _ => cases h
    | panic _ => cases h
    | ok r =>
      simp only [Option.bind_some] at h
      cases h2 : typeResult pageEnv true 3 cs (some shopPkg) [] (pageOf c!"Order") with
      | none => rw [h2] at h; cases h
      | some y =>
        obtain ⟨cs', r'⟩ := y
        rw [h2] at h
        cases r' with
        | err _ => cases h
        | panic _ => cases h
        | ok r' => exact ⟨cs', .next ⟨3, h1⟩ (.next ⟨3, h2⟩ (.done _)), Option.some.inj h⟩

/-- What the analysis records for two handlers, `c.JSON(200, v)` with `v` of type `t` at /a and of type `u` at /b, and the document made of it. -/
def respondBoth (Γ : TypeEnv) (t u : GoType) : Option Document :=
  match typeResult Γ true 4 [] (some shopPkg) [] t with
  | some (cs, .ok r) =>
    match typeResult Γ true 4 cs (some shopPkg) [] u with
    | some (cs', .ok r') =>
      match generateDoc someChoices [] { config := some { title := c!"t", host := c!"localhost", port := 8000, basePath := c!"/" }
                                         routes := [{ method := c!"GET", path := c!"/a", returnTypes := [{ statusCode := 200, contentType := c!"application/json", field := parseResultToField r }] },
                                           { method := c!"GET", path := c!"/b", returnTypes := [{ statusCode := 200, contentType := c!"application/json", field := parseResultToField r' }] }]
                                         components := cs' } with
      | .ok d => some d
      | _ => none
    | _ => none
  | _ => none

def schemaAt (d : Document) (path : Str) : Option Schema :=
  ((Document.operation d path c!"GET").bind (fun op => mget op.responses c!"200")).bind (fun r => mget r.content c!"application/json")

/-- C104, violated: handlers that send `Page[User]` and `Page[Order]` are documented with the same schema, which rejects what the second one sends. -/
theorem second_instance_rejected :
    ∃ d s v, respondBoth pageEnv (pageOf c!"User") (pageOf c!"Order") = some d ∧ schemaAt d c!"/a" = some s ∧ schemaAt d c!"/b" = some s ∧
      Encodes pageEnv (fun _ _ => none) false (pageOf c!"Order") v ∧ ¬ Admits d.schemas s v := by
  have h : (match respondBoth pageEnv (pageOf c!"User") (pageOf c!"Order") with
      | some d => (match schemaAt d c!"/a", schemaAt d c!"/b" with
        | some s, some s' => decide (s = s') && refutes d.schemas 6 s (.obj [(c!"items", .arr [.obj [(c!"id", .num (itoa 5))]])])
        | _, _ => false)
      | none => false) = true := by decide +kernel
  cases hr : respondBoth pageEnv (pageOf c!"User") (pageOf c!"Order") with
  | none => rw [hr] at h; cases h
  | some d =>
    rw [hr] at h
    simp only at h
    cases ha : schemaAt d c!"/a" with
    | none => rw [ha] at h; cases h
    | some s =>
      cases hb : schemaAt d c!"/b" with
      | none => rw [ha, hb] at h; cases h
      | some s' =>
        rw [ha, hb] at h
        simp only [Bool.and_eq_true, decide_eq_true_eq] at h
        obtain ⟨rfl, h⟩ := h
        refine ⟨d, s, _, rfl, ha, hb, ?_, refutes_sound 6 h⟩
        have r1 := single_rows pageEnv (pageItems c!"Order") c!"items" rfl rfl rfl (by unfold TagChar; decide) (by decide) (by decide) (by decide) (by decide)
        have r2 := single_rows pageEnv orderID c!"id" rfl rfl rfl (by unfold TagChar; decide) (by decide) (by decide) (by decide) (by decide)
        refine .named rfl (rows_encodes r1 _ (fun _ => ([0], pageItems c!"Order", c!"items", [])) (by decide) ?_ ?_ ?_)
        · intro m hm; rw [List.mem_singleton.mp hm]; exact ⟨by simp, rfl, by simp⟩
        · intro r hr; rw [List.mem_singleton.mp hr]; simp
        · intro m hm
          rw [List.mem_singleton.mp hm]
          show Encodes pageEnv _ false (.slice (.named (some shopPkg) c!"Order" [])) (.arr _)
          refine .slice ?_ ?_
          · intro hb; simp [ByteLike, pageEnv] at hb
          intro v hv
          rw [List.mem_singleton.mp hv]
          refine .named rfl (rows_encodes r2 _ (fun _ => ([0], orderID, c!"id", [])) (by decide) ?_ ?_ ?_)
          · intro m hm; rw [List.mem_singleton.mp hm]; exact ⟨by simp, rfl, by simp⟩
          · intro r hr; rw [List.mem_singleton.mp hr]; simp
          · intro m hm; rw [List.mem_singleton.mp hm]; exact .integer 5 (by decide)

/-! ### Whole runs -/

theorem typed_madeOnce {E : ParseCtx → RouteEnv} {Γ : TypeEnv} {D : TName → Prop} (h : TypedProgram E Γ D) (hD : NamedTypes Γ D) (ctx : ParseCtx) :
    ProgKeeps (E ctx).prog (MadeOnce Γ D) := by
  refine ⟨h.plain ctx, ?_⟩
  intro file id name hf a ha t ht k st pkg st' r hr hI
  rw [h.types ctx] at hr
  exact typeResult_madeOnce hD k t (fun x hx => h.args ctx file id name a t x hf ha ht hx) _ _ _ _ _ hr hI

/-- C104, whole runs: the components that the OpenAPI document of a successful run is made of. For every package and name there is one choice of type
arguments (or of the declaring function) such that all components describe chosen types; what the handlers use besides is not described. -/
theorem run_describes_one_type_per_name (L : Lib) (E : ParseCtx → RouteEnv) (hE : ByModel L E) (U : FPath → Prop) (hL : Tame L U) (getwd : Str) (φ : Faults)
    (w w' : World Proc) (d : FPath)
    (hd : DirAt w.cwd w.st.svc.workDir d) (hg : resolve w.cwd getwd = some w.cwd) (hnames : ProperNames w.fs) (hc : ∀ x ∈ w.cwd, '/' ∉ x)
    (routers : List (List RouteInfo)) (hin : Each GinInput w.st.svc.inputs routers) (hroutes : w.st.svc.routes = [])
    (hnd : DistinctRoutes (allowed w.st.svc.denyList routers.flatten))
    (before after : List Output) (o : Output) (hout : w.st.svc.outputs = before ++ o :: after) (hown : OwnCells w.st.svc.outputs)
    (hbefore : ∀ b ∈ before, Plain b) (loc : Nat) (ho : o.generate = .openapi loc) (q : FPath) (hq : OutputPlace d w.st.svc o.generate q)
    (hplace : OwnPlace w.cwd d w.st.svc after q) (hU : ¬ U q) (hcomp : w.st.svc.components = [])
    (Γ : TypeEnv) (D : TName → Prop) (hD : NamedTypes Γ D) (hT : TypedProgram E Γ D)
    (h : Astra.parseAll L getwd φ w = (w', .ok ())) :
    ∃ m rs cs doc text, RunResult L w.st.svc (workDirAfter getwd w.st.svc) routers m rs cs ∧
      generateDoc L.choices w.st.names { config := w.st.svc.config, routes := rs, components := cs, types := w.st.svc.maps.merged } = .ok doc ∧
      L.render (isYaml (withExtension [c!".json", c!".yaml", c!".yml"] (w.st.svc.cells.getD loc []))) doc = .ok text ∧
      w'.fs.look q = some (.file text) ∧
      ∃ chosen : Str → Str → Str, ∀ c ∈ cs, ∃ p n c0, D (p, n, chosen p n) ∧ ComponentOf Γ (p, n, chosen p n) c0 ∧ c = cleanField m c0 := by
  obtain ⟨m, rs, cs, doc, text, hres, h1, h2, h3⟩ := openapi_file_of_run L hE.keeps U hL getwd φ w w' d hd hg hnames hc routers hin hroutes hnd
    before after o hout hown hbefore loc ho q hq hplace hU h
  refine ⟨m, rs, cs, doc, text, hres, h1, h2, h3, ?_⟩
  obtain ⟨found, m1, cs1, rs1, b1, b2, _, b4, b5⟩ := hres
  rw [hcomp] at b2
  have hm : MadeOnce Γ D cs1 := passes_keep hE (fun ctx => typed_madeOnce hT hD ctx) b2 (madeOnce_nil Γ D)
  have hch : ∀ p n : Str, ∃ a : Str, ∀ c ∈ cs1, c.name = n → c.package = p → D (p, n, a) ∧ ComponentOf Γ (p, n, a) c := by
    intro p n
    rcases Classical.em (∃ c ∈ cs1, c.name = n ∧ c.package = p) with ⟨c, hc, e1, e2⟩ | hno
    · obtain ⟨⟨p', n', a⟩, hx, hcx⟩ := hm.1 c hc
      obtain ⟨i1, i2⟩ := component_identity hD hx hcx
      rw [e1] at i1
      rw [e2] at i2
      subst i1 i2
      refine ⟨a, fun c' hc' k1 k2 => ?_⟩
      have := key_unique hm.2 hc' hc (by unfold compKey; rw [e1, e2, k1, k2])
      subst this
      exact ⟨hx, hcx⟩
    · exact ⟨[], fun c hc e1 e2 => absurd ⟨c, hc, e1, e2⟩ hno⟩
  refine ⟨fun p n => Classical.choose (hch p n), ?_⟩
  intro c hc
  subst b5
  obtain ⟨c0, hc0, rfl⟩ := List.mem_map.mp hc
  obtain ⟨k1, k2⟩ := Classical.choose_spec (hch c0.package c0.name) c0 hc0 rfl rfl
  exact ⟨c0.package, c0.name, c0, k1, k2, rfl⟩

/-- Two handlers: `c.JSON(200, users)` with `users` of type `Page[User]`, and `c.JSON(200, orders)` with `orders` of type `Page[Order]`. -/
def pageProg : Prog :=
  { types := pageEnv, filePkg := fun _ => shopPkg
    funcs := fun f => { params := fun _ => ctxParams, body := [.call f []] }
    view := fun _ id => { func := .ok (true, c!"JSON"), args := [{ value := .ok c!"200" }, { type := .ok (pageOf (if id = 0 then c!"User" else c!"Order")) }] } }

def pageRoutes : RouteEnv where
  prog := pageProg
  loadable p := p = shopPkg
  fileOf _ f := if f = c!"shop.go" then some 0 else none
  decls _ := [⟨c!"Users", 10, 0, []⟩, ⟨c!"Orders", 20, 1, []⟩]
  lowerCamel s := s

/-- The printed document: the schemas with their properties and the schemas these refer to, then the paths with the schemas of the responses. -/
def pageLib : Lib :=
  { routerLib with
    parse := fun _ cs r => match parseRoute pageRoutes 4 cs r with | some x => x | none => (cs, .err [])
    yamlText := fun j => .ok
      (((entriesAt (.obj (entriesAt j c!"components")) c!"schemas").flatMap (fun x => x.1 ++ c!": " ++
        (entriesAt x.2 c!"properties").flatMap (fun y => y.1 ++ c!" " ++ textAt y.2 c!"type" ++ textAt (.obj (entriesAt y.2 c!"items")) c!"$ref" ++ c!"\n"))) ++
      (entriesAt j c!"paths").flatMap (fun x => x.1 ++ c!" " ++
        (entriesAt (.obj (entriesAt x.2 c!"get")) c!"responses").flatMap (fun y => (entriesAt y.2 c!"content").flatMap (fun z =>
          textAt (.obj (entriesAt z.2 c!"schema")) c!"$ref")) ++ c!"\n")) }

theorem pageLib_byModel : ByModel pageLib (fun _ => pageRoutes) := by
  refine ⟨fun _ f hf => (by cases hf), fun ctx cs r cs' r' h => ⟨4, ?_⟩⟩
  have h : (match parseRoute pageRoutes 4 cs r with | some x => x | none => (cs, .err [])) = (cs', .ok r') := h
  cases hp : parseRoute pageRoutes 4 cs r with
  | none => rw [hp] at h; cases h
  | some x => rw [hp] at h; rw [show x = _ from h]

def pageInfos : List RouteInfo :=
  [⟨c!"GET", c!"/users", c!"example.com/shop.Users", c!"shop.go", 10⟩, ⟨c!"GET", c!"/orders", c!"example.com/shop.Orders", c!"shop.go", 20⟩]

def pageWorld : World Proc :=
  { fs := itemWorld.fs, cwd := [c!"w"]
    st := { svc := newService [.workDir c!"/w", .ginInput (some pageInfos), .openApiOutput c!"api.yaml",
      .config (some { title := c!"t", host := c!"localhost", port := 8000, basePath := c!"/" })] } }

/-- C104, violated by a whole run: its file has one schema for both instances, with the items of the first, and the responses of both handlers refer to
it. -/
theorem run_merges_instances :
    (Astra.parseAll pageLib c!"/w" noFaults pageWorld).2 = .ok () ∧
    (Astra.parseAll pageLib c!"/w" noFaults pageWorld).1.fs.look [c!"w", c!"api.yaml"] = some (.file
      (c!"shop.Order: id integer\nshop.Page: items array#/components/schemas/shop.User\nshop.User: id string\n" ++
       c!"/orders #/components/schemas/shop.Page\n/users #/components/schemas/shop.Page\n")) := by
  constructor <;> decide +kernel

theorem page_typed : TypedProgram (fun _ => pageRoutes) pageEnv pageTypes := by
  refine ⟨fun _ => rfl, fun _ => rfl, ?_⟩
  intro _ file id name a t x hf ha hat hx
  simp only [pageRoutes, pageProg, List.mem_cons, List.not_mem_nil, or_false] at ha
  rcases ha with rfl | rfl
  · cases hat
  · cases hat
    cases hx
    by_cases h : id = 0
    · simp [h, pageTypes]
    · simp [h, pageTypes]

theorem page_allowed : allowed pageWorld.st.svc.denyList [pageInfos].flatten = pageInfos := by
  show [pageInfos].flatten.filter _ = _
  rfl

/-- The run meets the hypotheses of the theorem about whole runs. -/
example : ∃ cs, (∃ m rs, RunResult pageLib pageWorld.st.svc (workDirAfter c!"/w" pageWorld.st.svc) [pageInfos] m rs cs) ∧
    ∃ chosen : Str → Str → Str, ∀ c ∈ cs, ∃ p n, pageTypes (p, n, chosen p n) := by
  obtain ⟨m, rs, cs, _, _, h1, _, _, _, chosen, h2⟩ := run_describes_one_type_per_name pageLib (fun _ => pageRoutes) pageLib_byModel (fun _ => False)
    (fun _ _ _ => ⟨fun _ _ => rfl, id, rfl, rfl, rfl, rfl, rfl, rfl, rfl, rfl⟩) c!"/w" noFaults pageWorld _ [c!"w"]
    (Or.inr (by decide)) (by decide) item_names (by decide) [pageInfos] (ginInput_one rfl) rfl (by rw [page_allowed]; unfold DistinctRoutes; decide)
    [] [] _ rfl (options_shape _).2 (by simp) 0 rfl [c!"w", c!"api.yaml"] (show [c!"w", c!"api.yaml"] = _ by decide)
    ⟨by decide, (by rintro ⟨h, _⟩; cases h), by simp⟩ id
    rfl pageEnv pageTypes pageTypes_named page_typed (by rw [← run_merges_instances.1])
  exact ⟨cs, ⟨m, rs, h1⟩, chosen, fun c hc => by obtain ⟨p, n, _, h, _⟩ := h2 c hc; exact ⟨p, n, h⟩⟩

end Astra.Props
