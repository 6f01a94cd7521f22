/-
C113: the function of a route is called for the requests of the route whose parameters are letters, and for no other request of the route.
-/
import Verif.Spec.AzureRequests
import Verif.Props.PathParams
import Verif.Props.AzureExact

namespace Astra.Props
open Astra.Spec

/-! ### The segments of the Azure route -/

theorem split_azure {path : Str} : split '/' (mapPath azureVar path) = (split '/' path).map (mapSeg azureVar) := by
  unfold mapPath
  rw [split_join (by simpa using split_ne_nil '/' path)]
  intro x hx
  obtain ⟨seg, hseg, rfl⟩ := List.mem_map.mp hx
  have hns := split_no_sep seg hseg
  unfold mapSeg
  cases hw : segWild seg with
  | none => exact hns
  | some x =>
    obtain ⟨b, m, n⟩ := x
    rw [(segWild_iff.mp hw).1] at hns
    simp only [List.mem_append, List.mem_cons, not_or] at hns ⊢
    refine ⟨hns.1, ?_⟩
    show '/' ∉ azureVar m n
    unfold azureVar
    split <;> simp [hns.2.2]

theorem azureVar_param (n : Str) : azureVar ':' n = '{' :: n ++ c!":alpha}" := rfl
theorem azureVar_catchAll (n : Str) : azureVar '*' n = '{' :: n ++ c!":alpha?}" := rfl

/-- The segment of a route with a parameter determines the text, the name and the constraint. -/
theorem placeholder_unique {b b' n n' x x' : Str} (hb : '{' ∉ b) (hb' : '{' ∉ b') (hn : ':' ∉ n) (hn' : ':' ∉ n')
    (h : b ++ '{' :: n ++ ':' :: x = b' ++ '{' :: n' ++ ':' :: x') : b = b' ∧ n = n' ∧ x = x' := by
  simp only [List.append_assoc, List.cons_append] at h
  obtain ⟨rfl, h1⟩ := split_first hb hb' h
  obtain ⟨rfl, h2⟩ := split_first hn hn' h1
  exact ⟨rfl, rfl, h2⟩

theorem sameText_append {a b x y : Str} (h : SameText a b) (e : a ++ x = b ++ y) : a = b ∧ x = y := by
  have hl : a.length = b.length := by simpa using congrArg List.length h
  exact List.append_inj e hl

/-- A parameter takes what follows the text before it, if this is letters. -/
theorem takes_param {before name v : Str} {route request : List Str} {vs : List (Str × Str)} (hb : '{' ∉ before) (hn : ':' ∉ name)
    (h : AzureTakes ((before ++ azureVar ':' name) :: route) ((before ++ v) :: request) vs) :
    ∃ vs', vs = (name, v) :: vs' ∧ Letters v ∧ AzureTakes route request vs' := by
  rw [azureVar_param] at h
  generalize hs : before ++ ('{' :: name ++ c!":alpha}") = seg at h
  generalize hg : before ++ v = given at h
  cases h with
  | text h1 => subst hs; simp at h1
  | param h1 h2 h3 h4 h5 =>
    obtain ⟨rfl, rfl, _⟩ := placeholder_unique hb h1 hn h2 (x := c!"alpha}") (x' := c!"alpha}") (by simpa using hs)
    obtain ⟨_, rfl⟩ := sameText_append h3 hg
    exact ⟨_, rfl, h4, h5⟩
  | optional h1 =>
    have := (placeholder_unique hb (b' := []) (by simp) hn h1 (x := c!"alpha}") (x' := c!"alpha?}") (by simpa using hs)).2.2
    exact absurd this (by decide)
  | absentSlash h1 =>
    have := (placeholder_unique hb (b' := []) (by simp) hn h1 (x := c!"alpha}") (x' := c!"alpha?}") (by simpa using hs)).2.2
    exact absurd this (by decide)

theorem takes_text {seg : Str} {route request : List Str} {given : Str} {vs : List (Str × Str)} (hb : '{' ∉ seg)
    (h : AzureTakes (seg :: route) (given :: request) vs) : SameText seg given ∧ AzureTakes route request vs := by
  cases h with
  | text _ h2 h3 => exact ⟨h2, h3⟩
  | param => simp at hb
  | optional => simp at hb
  | absentSlash => simp at hb

/-- The optional parameter at the end takes at most one segment. -/
theorem takes_optional {name : Str} {request : List Str} {vs : List (Str × Str)} (hn : ':' ∉ name)
    (h : AzureTakes [azureVar '*' name] request vs) : request = [] ∨ request = [[]] ∨ ∃ v, request = [v] ∧ Letters v ∧ vs = [(name, v)] := by
  rw [azureVar_catchAll] at h
  generalize hs : '{' :: name ++ c!":alpha?}" = seg at h
  cases h with
  | text h1 => subst hs; simp at h1
  | param h1 h2 =>
    have := (placeholder_unique h1 (b' := []) (by simp) h2 hn (x := c!"alpha}") (x' := c!"alpha?}") (by simpa using hs.symm)).2.2
    exact absurd this (by decide)
  | @optional n v h1 h2 =>
    have := (placeholder_unique (b := []) (b' := []) (by simp) (by simp) h1 hn (x := c!"alpha?}") (x' := c!"alpha?}") (by simpa using hs.symm)).2.1
    subst this
    exact Or.inr (Or.inr ⟨v, rfl, h2, rfl⟩)
  | absent => exact Or.inl rfl
  | absentSlash => exact Or.inr (Or.inl rfl)

/-! ### The requests of the route -/

/-- What is known of a segment of a path that gin accepts and that has no braces. -/
def TidySegment (seg : Str) : Prop := '{' ∉ seg ∧ ∀ before marker name, WildcardOf seg before marker name → ':' ∉ name

theorem tidy_segments {path : Str} (hg : GinPath path) (hb : '{' ∉ path) : ∀ seg ∈ split '/' path, TidySegment seg := by
  intro seg hseg
  refine ⟨fun h => hb (mem_split hseg h), fun b m n hw => ?_⟩
  rcases hg seg hseg with ⟨h1, h2⟩ | ⟨b', m', n', hw', hn, _⟩
  · rcases hw.2.2.1 with rfl | rfl
    · exact absurd (hw.1 ▸ by simp : ':' ∈ seg) h1
    · exact absurd (hw.1 ▸ by simp : '*' ∈ seg) h2
  · rw [(wildcard_unique hw hw').2.2]
    exact hn

theorem WildcardOf.noBrace {seg b n : Str} {m : Char} (h : WildcardOf seg b m n) (hs : '{' ∉ seg) : '{' ∉ b := by
  rw [h.1] at hs
  simp only [List.mem_append, not_or] at hs
  exact hs.1

theorem letters_noSlash {v : Str} (h : Letters v) : '/' ∉ v := by
  intro hc
  rcases h.2 _ hc with h | h <;> exact absurd h (by decide)

theorem azureValue_iff {v : Str} (h : '/' ∉ v) : AzureValue v ↔ Letters v := by
  constructor
  · rintro (h1 | rfl | ⟨x, rfl, _⟩)
    · exact h1
    · simp at h
    · simp at h
  · exact Or.inl

theorem catchAll_value {request : List Str} (hne : request ≠ []) (hseg : Segments request) :
    AzureValue ('/' :: join ['/'] request) ↔ request = [[]] ∨ ∃ v, request = [v] ∧ Letters v := by
  cases request with
  | nil => exact absurd rfl hne
  | cons v rest =>
    cases rest with
    | nil =>
      show AzureValue ('/' :: v) ↔ _
      constructor
      · rintro (h | h | ⟨x, h, hx⟩)
        · exact absurd (letters_noSlash h) (by simp)
        · left; simpa using h
        · right; exact ⟨v, rfl, by rw [(List.cons.inj h).2]; exact hx⟩
      · rintro (h | ⟨x, h, hx⟩)
        · right; left; simpa using h
        · right; right; exact ⟨v, rfl, by simpa [(List.cons.inj h).1] using hx⟩
    | cons u rest =>
      have hj : '/' ∈ join ['/'] (v :: u :: rest) := by
        rw [join_cons (r := u :: rest) (by simp)]; simp
      constructor
      · rintro (h | h | ⟨x, h, hx⟩)
        · exact absurd (letters_noSlash h) (by simp)
        · rw [(List.cons.inj h).2] at hj; simp at hj
        · rw [(List.cons.inj h).2] at hj; exact absurd hj (letters_noSlash hx)
      · rintro (h | ⟨x, h, _⟩) <;> simp at h

theorem takes_segs {pattern request : List Str} {params : List (Str × Str)} (hm : GinMatch pattern request params) :
    (∀ seg ∈ pattern, TidySegment seg) → Segments request →
      ((∃ vs, AzureTakes (pattern.map (mapSeg azureVar)) request vs) ↔ ∀ e ∈ params, AzureValue e.2) := by
  induction hm with
  | done => intro _ _; simp only [List.map_nil, List.not_mem_nil, false_implies, implies_true, iff_true]; exact ⟨[], .done⟩
  | @text seg pattern request params hw _ ih =>
    intro ht hr
    rw [← ih (fun s hs => ht s (List.mem_cons_of_mem _ hs)) (fun s hs => hr s (List.mem_cons_of_mem _ hs)), List.map_cons, mapSeg_text hw]
    constructor
    · rintro ⟨vs, h⟩
      exact ⟨vs, (takes_text (ht seg List.mem_cons_self).1 h).2⟩
    · rintro ⟨vs, h⟩
      exact ⟨vs, .text (ht seg List.mem_cons_self).1 rfl h⟩
  | @param seg before name v pattern request params hw hne _ ih =>
    intro ht hr
    have hns : '/' ∉ v := by
      have := hr _ List.mem_cons_self
      simp only [List.mem_append, not_or] at this
      exact this.2
    have hb := WildcardOf.noBrace hw (ht seg List.mem_cons_self).1
    have hn := (ht seg List.mem_cons_self).2 _ _ _ hw
    rw [List.forall_mem_cons, azureValue_iff hns, ← ih (fun s hs => ht s (List.mem_cons_of_mem _ hs)) (fun s hs => hr s (List.mem_cons_of_mem _ hs)),
      List.map_cons, mapSeg_wild hw]
    constructor
    · rintro ⟨vs, h⟩
      obtain ⟨vs', rfl, h1, h2⟩ := takes_param hb hn h
      exact ⟨h1, vs', h2⟩
    · rintro ⟨h1, vs, h2⟩
      refine ⟨(name, v) :: vs, ?_⟩
      rw [azureVar_param]
      have := AzureTakes.param hb hn (show SameText before before from rfl) h1 h2
      simpa using this
  | @catchAll seg name request hw hne =>
    intro ht hr
    have hn := (ht seg List.mem_cons_self).2 _ _ _ hw
    rw [List.map_cons, mapSeg_wild hw, List.nil_append, List.map_nil]
    simp only [List.mem_singleton, forall_eq]
    rw [catchAll_value hne hr]
    constructor
    · rintro ⟨vs, h⟩
      rcases takes_optional hn h with h | h | ⟨v, h, hv, _⟩
      · exact absurd h hne
      · exact Or.inl h
      · exact Or.inr ⟨v, h, hv⟩
    · rintro (rfl | ⟨v, rfl, hv⟩)
      · exact ⟨_, .absentSlash hn⟩
      · exact ⟨_, .optional hn hv⟩

/-- Without a catch-all, the function gets the parameters that the handler gets. -/
theorem takes_values {pattern request : List Str} {params vs : List (Str × Str)} (hm : GinMatch pattern request params) :
    (∀ seg ∈ pattern, TidySegment seg) → (∀ seg ∈ pattern, ∀ before name, ¬ WildcardOf seg before '*' name) →
      AzureTakes (pattern.map (mapSeg azureVar)) request vs → vs = params := by
  induction hm generalizing vs with
  | done => intro _ _ h; cases h; rfl
  | @text seg pattern request params hw _ ih =>
    intro ht hs h
    rw [List.map_cons, mapSeg_text hw] at h
    exact ih (fun s hs => ht s (List.mem_cons_of_mem _ hs)) (fun s hm => hs s (List.mem_cons_of_mem _ hm)) (takes_text (ht seg List.mem_cons_self).1 h).2
  | @param seg before name v pattern request params hw hne _ ih =>
    intro ht hs h
    rw [List.map_cons, mapSeg_wild hw] at h
    obtain ⟨vs', rfl, _, h2⟩ := takes_param (WildcardOf.noBrace hw (ht seg List.mem_cons_self).1) ((ht seg List.mem_cons_self).2 _ _ _ hw) h
    rw [ih (fun s hs => ht s (List.mem_cons_of_mem _ hs)) (fun s hm => hs s (List.mem_cons_of_mem _ hm)) h2]
  | catchAll hw _ => intro _ hs; exact absurd hw (hs _ List.mem_cons_self _ _)

/-- Where the pattern has a parameter or a catch-all, it takes a request with a digit for it. -/
theorem digit_request {pattern request : List Str} {params : List (Str × Str)} (hm : GinMatch pattern request params) (hr : Segments request) :
    ∃ request' params', GinMatch pattern request' params' ∧ Segments request' ∧ (params = [] ∨ ∃ e ∈ params', ¬ AzureValue e.2) := by
  induction hm with
  | done => exact ⟨[], [], .done, (by intro s hs; cases hs), Or.inl rfl⟩
  | @text seg pattern request params hw _ ih =>
    obtain ⟨r', p', h1, h2, h3⟩ := ih (fun s hs => hr s (List.mem_cons_of_mem _ hs))
    exact ⟨seg :: r', p', .text hw h1, List.forall_mem_cons.mpr ⟨hr _ List.mem_cons_self, h2⟩, h3⟩
  | @param seg before name v pattern request params hw hne hm ih =>
    refine ⟨(before ++ ['1']) :: request, (name, ['1']) :: params, .param hw (by simp) hm, ?_, Or.inr ⟨_, List.mem_cons_self, ?_⟩⟩
    · refine List.forall_mem_cons.mpr ⟨?_, fun s hs => hr s (List.mem_cons_of_mem _ hs)⟩
      have := hr _ List.mem_cons_self
      simp only [List.mem_append, not_or] at this ⊢
      exact ⟨this.1, by decide⟩
    · rw [azureValue_iff (by simp)]
      rintro ⟨_, h⟩
      rcases h '1' (by simp) with h | h <;> exact absurd h (by decide)
  | @catchAll seg name request hw hne =>
    refine ⟨[['1']], _, .catchAll hw (by simp), (by intro s hs; rw [List.mem_singleton.mp hs]; decide), Or.inr ⟨_, List.mem_cons_self, ?_⟩⟩
    rintro (h | h | ⟨x, h, hx⟩)
    · exact absurd (letters_noSlash h) (by simp)
    · exact absurd (show ['/', '1'] = ['/'] from h) (by decide)
    · have : x = ['1'] := by simpa [join] using (List.cons.inj h).2.symm
      subst this
      rcases hx.2 '1' (by simp) with h | h <;> exact absurd h (by decide)

theorem match_params {pattern request : List Str} {params : List (Str × Str)} (hm : GinMatch pattern request params) :
    params.map (·.1) = (pattern.filterMap (fun seg => (segWild seg).map (fun x => x.2))).map (·.2) := by
  induction hm with
  | done => rfl
  | @text seg pattern request params hw _ ih =>
    have hn : segWild seg = none := by
      cases hs : segWild seg with
      | none => rfl
      | some x => exact absurd (segWild_iff.mp hs) (hw x.1 x.2.1 x.2.2)
    rw [ih, List.filterMap_cons, hn]
    rfl
  | @param seg before name v pattern request params hw hne hm ih =>
    rw [List.filterMap_cons, segWild_iff.mpr hw, List.map_cons, ih]
    rfl
  | @catchAll seg name request hw hne =>
    rw [List.filterMap_cons, segWild_iff.mpr hw]
    rfl

/-- Conversely: without a catch-all, a request for which the function is called is one that the gin route takes with the same parameters, but for the
case of the text of the path and a slash at the end. -/
theorem takes_only {pattern : List Str} : ∀ {request : List Str} {vs : List (Str × Str)}, (∀ seg ∈ pattern, TidySegment seg) →
    (∀ seg ∈ pattern, ∀ before name, ¬ WildcardOf seg before '*' name) → AzureTakes (pattern.map (mapSeg azureVar)) request vs →
      ∃ given spelled rest, request = given ++ rest ∧ (rest = [] ∨ rest = [[]]) ∧ Each SameText spelled given ∧ GinMatch pattern spelled vs := by
  induction pattern with
  | nil =>
    intro request vs _ _ h
    cases h with
    | done => exact ⟨[], [], [], rfl, Or.inl rfl, .nil, .done⟩
    | slash => exact ⟨[], [], [[]], rfl, Or.inr rfl, .nil, .done⟩
  | cons seg pattern ih =>
    intro request vs ht hs h
    have hseg := ht seg List.mem_cons_self
    by_cases hw : ∃ before marker name, WildcardOf seg before marker name
    · obtain ⟨b, m, n, hw⟩ := hw
      rcases hw.2.2.1 with rfl | rfl
      · rw [List.map_cons, mapSeg_wild hw, azureVar_param] at h
        have hb := WildcardOf.noBrace hw hseg.1
        have hn := hseg.2 _ _ _ hw
        generalize hx : b ++ ('{' :: n ++ c!":alpha}") = x at h
        generalize hr : pattern.map (mapSeg azureVar) = route at h
        cases h with
        | text h1 => subst hx; simp at h1
        | param h1 h2 h3 h4 h5 =>
          obtain ⟨rfl, rfl, _⟩ := placeholder_unique hb h1 hn h2 (x := c!"alpha}") (x' := c!"alpha}") (by simpa using hx)
          subst hr
          obtain ⟨given, spelled, rest, rfl, k1, k2, k3⟩ := ih (fun s hs => ht s (List.mem_cons_of_mem _ hs)) (fun s hm => hs s (List.mem_cons_of_mem _ hm)) h5
          refine ⟨_ :: given, (b ++ _) :: spelled, rest, rfl, k1, .cons ?_ k2, .param hw h4.1 k3⟩
          unfold SameText at h3 ⊢
          rw [List.map_append, List.map_append, h3]
        | optional h1 =>
          have := (placeholder_unique hb (b' := []) (by simp) hn h1 (x := c!"alpha}") (x' := c!"alpha?}") (by simpa using hx)).2.2
          exact absurd this (by decide)
        | absent h1 =>
          have := (placeholder_unique hb (b' := []) (by simp) hn h1 (x := c!"alpha}") (x' := c!"alpha?}") (by simpa using hx)).2.2
          exact absurd this (by decide)
        | absentSlash h1 =>
          have := (placeholder_unique hb (b' := []) (by simp) hn h1 (x := c!"alpha}") (x' := c!"alpha?}") (by simpa using hx)).2.2
          exact absurd this (by decide)
      · exact absurd hw (hs seg List.mem_cons_self b n)
    · have hw' : ∀ before marker name, ¬ WildcardOf seg before marker name := fun b m n hh => hw ⟨b, m, n, hh⟩
      rw [List.map_cons, mapSeg_text hw'] at h
      cases request with
      | nil =>
        generalize hx : seg = x at h
        generalize hr : pattern.map (mapSeg azureVar) = route at h
        cases h
        subst hx
        exact absurd hseg.1 (by simp)
      | cons x request =>
        obtain ⟨h1, h2⟩ := takes_text hseg.1 h
        obtain ⟨given, spelled, rest, rfl, k1, k2, k3⟩ := ih (fun s hs => ht s (List.mem_cons_of_mem _ hs)) (fun s hm => hs s (List.mem_cons_of_mem _ hm)) h2
        exact ⟨x :: given, seg :: spelled, rest, rfl, k1, .cons h1 k2, .text hw' k3⟩

/-! ### The claims -/

/-- C113, exact for a request: of the requests that the gin route takes, the function is called for exactly those with letters only for each parameter
(for a catch-all: at most one segment, of letters only). -/
theorem azure_request_exact {path : Str} (hg : GinPath path) (hb : '{' ∉ path) {request : List Str} {params : List (Str × Str)}
    (hm : GinMatch (split '/' path) request params) (hr : Segments request) :
    (∃ vs, AzureTakes (split '/' (mapPath azureVar path)) request vs) ↔ ∀ e ∈ params, AzureValue e.2 := by
  rw [split_azure]
  exact takes_segs hm (tidy_segments hg hb) hr

/-- C113: without a catch-all, a function that is called gets the parameters that the handler would get. -/
theorem azure_request_values {path : Str} (hg : GinPath path) (hb : '{' ∉ path) (hs : ∀ w ∈ wildcards path, w.1 = ':') {request : List Str}
    {params vs : List (Str × Str)} (hm : GinMatch (split '/' path) request params) (h : AzureTakes (split '/' (mapPath azureVar path)) request vs) :
    vs = params := by
  rw [split_azure] at h
  exact takes_values hm (tidy_segments hg hb) (star_wildcard.mp hs) h

/-- C113: without a catch-all, the function is called for no request that the gin route would not take, but for the case of the text of the path and a
slash at the end. -/
theorem azure_request_only {path : Str} (hg : GinPath path) (hb : '{' ∉ path) (hs : ∀ w ∈ wildcards path, w.1 = ':') {request : List Str}
    {vs : List (Str × Str)} (h : AzureTakes (split '/' (mapPath azureVar path)) request vs) :
    ∃ given spelled rest, request = given ++ rest ∧ (rest = [] ∨ rest = [[]]) ∧ Each SameText spelled given ∧ GinMatch (split '/' path) spelled vs := by
  rw [split_azure] at h
  exact takes_only (tidy_segments hg hb) (star_wildcard.mp hs) h

/-- C113, exact for a route: the function is called for every request that the gin route takes if and only if the path of the route has neither
parameters nor a catch-all. -/
theorem azure_route_exact {path : Str} (hg : GinPath path) (hb : '{' ∉ path)
    (hsome : ∃ request params, GinMatch (split '/' path) request params ∧ Segments request) :
    (∀ request params, GinMatch (split '/' path) request params → Segments request →
      ∃ vs, AzureTakes (split '/' (mapPath azureVar path)) request vs) ↔ wildcards path = [] := by
  constructor
  · intro h
    obtain ⟨request, params, hm, hr⟩ := hsome
    obtain ⟨r', p', h1, h2, h3⟩ := digit_request hm hr
    rcases h3 with rfl | ⟨e, he, hne⟩
    · have := match_params hm
      exact List.map_eq_nil_iff.mp this.symm
    · exact absurd ((azure_request_exact hg hb h1 h2).mp (h _ _ h1 h2) e he) hne
  · intro hw request params hm hr
    refine (azure_request_exact hg hb hm hr).mpr fun e he => ?_
    have hp : params.map (·.1) = (wildcards path).map (·.2) := match_params hm
    rw [hw] at hp
    rw [List.map_eq_nil_iff.mp hp] at he
    cases he

end Astra.Props
