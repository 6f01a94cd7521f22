/-
C02–C05: path parameters and path templates.
-/
import Verif.Lemmas.Paths

namespace Astra.Props

open Spec

/-- C02: `ExtractParamsFromPath` returns exactly the wildcards of the path's segments, in order: string parameters named
by the text after the marker, required iff the marker is ':'. -/
theorem extractParams_exact (path : Str) :
    extractParams path = (wildcards path).map (fun w =>
      ({ name := w.2, field := { type := c!"string" }, isRequired := decide (w.1 = ':') } : Param)) := by
  unfold extractParams
  rw [findAllWild_eq, List.map_map]
  congr 1
  funext w
  simp

/-- C02, relational form: a segment has wildcard `(marker, name)` iff it reads `before ++ marker :: name` with a
non-empty name and no earlier marker; the specification function is this relation. -/
theorem segWild_spec (seg before : Str) (marker : Char) (name : Str) :
    segWild seg = some (before, marker, name) ↔ WildcardOf seg before marker name := segWild_iff

/-- C02: parameter names are non-empty and never contain a slash. -/
theorem extractParams_names (path : Str) (p : Param) (h : p ∈ extractParams path) :
    p.name ≠ [] ∧ '/' ∉ p.name := by
  rw [extractParams_exact] at h
  obtain ⟨w, hw, rfl⟩ := List.mem_map.mp h
  obtain ⟨seg, hseg, hw⟩ := List.mem_filterMap.mp hw
  cases hs : segWild seg with
  | none => rw [hs] at hw; simp at hw
  | some x =>
    obtain ⟨b, m, n⟩ := x
    rw [hs] at hw; simp at hw; subst hw
    obtain ⟨h1, h2, _⟩ := segWild_sound hs
    refine ⟨h2, fun hn => split_no_sep seg hseg ?_⟩
    rw [h1]; simp; exact Or.inr (Or.inr hn)

example : extractParams c!"/pets/:id/x:y/*rest" =
    [{ name := c!"id", field := { type := c!"string" }, isRequired := true },
     { name := c!"y", field := { type := c!"string" }, isRequired := true },
     { name := c!"rest", field := { type := c!"string" }, isRequired := false }] := by decide

/-- C03: `MapPathParams` rewrites the wildcard of each segment and nothing else. -/
theorem mapPathParams_segmentwise (path : Str) (f : Str → Str) :
    mapPathParams path f = mapPath (fun marker name => f (marker :: name)) path := mapPathParams_eq path f

/-- C03: the identity replacement changes nothing. -/
theorem mapPathParams_id (path : Str) : mapPathParams path (fun w => w) = path := by
  rw [mapPathParams_eq]
  unfold mapPath
  have h : ∀ s, mapSeg (fun m n => m :: n) s = s := by
    intro s
    unfold mapSeg
    cases hs : segWild s with
    | none => rfl
    | some x => exact (segWild_sound hs).1.symm
  rw [show (split '/' path).map (mapSeg fun m n => m :: n) = split '/' path from by
    conv => rhs; rw [← List.map_id (split '/' path)]
    exact List.map_congr_left (fun s _ => h s)]
  exact join_split '/' path

/-- C03: the replacement function is consulted for exactly the extracted parameters: two functions that agree on the
texts `marker ++ name` of the extracted parameters give the same result. -/
theorem mapPathParams_only_params (path : Str) (f g : Str → Str)
    (h : ∀ p ∈ extractParams path, f ((if p.isRequired then ':' else '*') :: p.name)
      = g ((if p.isRequired then ':' else '*') :: p.name)) :
    mapPathParams path f = mapPathParams path g := by
  rw [mapPathParams_eq, mapPathParams_eq]
  unfold mapPath
  congr 1
  apply List.map_congr_left
  intro s hs
  unfold mapSeg
  cases hw : segWild s with
  | none => rfl
  | some x =>
    obtain ⟨b, m, n⟩ := x
    have hm : (m, n) ∈ wildcards path := List.mem_filterMap.mpr ⟨s, hs, by rw [hw]; rfl⟩
    have := h _ (by rw [extractParams_exact]; exact List.mem_map.mpr ⟨_, hm, rfl⟩)
    obtain ⟨_, _, hmk, _⟩ := segWild_sound hw
    rcases hmk with e | e <;> subst e <;> simpa using this

example : mapPathParams c!"/a/:b/c*d" (fun w => c!"<" ++ w ++ c!">") = c!"/a/<:b>/c<*d>" := by decide

/-! ### C04: template variables and declared parameters -/

theorem placeholders_some (cur s rest : Str) (h : '}' ∉ s) :
    placeholdersAux (some cur) (s ++ '}' :: rest) = (cur.reverse ++ s) :: placeholdersAux none rest := by
  induction s generalizing cur with
  | nil => simp [placeholdersAux]
  | cons c s ih =>
    simp only [List.mem_cons, not_or] at h
    simp only [List.cons_append, placeholdersAux]
    rw [if_neg (fun e => h.1 e.symm), ih _ h.2]; simp

theorem placeholders_skip (s rest : Str) (h : '{' ∉ s) :
    placeholdersAux none (s ++ rest) = placeholdersAux none rest := by
  induction s with
  | nil => rfl
  | cons c s ih =>
    simp only [List.mem_cons, not_or] at h
    simp only [List.cons_append, placeholdersAux]
    rw [if_neg (fun e => h.1 e.symm), ih h.2]

/-- The variable a wildcard gets in the OpenAPI template. -/
def templateVar (w : Char × Str) : Str := if w.1 = ':' then w.2 else w.2 ++ ['*']

theorem openapiRepl_eq (m : Char) (n : Str) : openapiRepl (m :: n) = '{' :: templateVar (m, n) ++ ['}'] := by
  unfold openapiRepl templateVar
  by_cases h : m = ':' <;> simp [h]

/-- C04 (what the code does): in a path without braces the template variables are the names of the extracted
parameters, with a '*' appended to the optional ones. -/
theorem placeholders_openapiPath (path : Str) (hb : '{' ∉ path ∧ '}' ∉ path) :
    placeholders (openapiPath path) = (extractParams path).map (fun p => if p.isRequired then p.name else p.name ++ ['*']) := by
  have hsub : ∀ seg ∈ split '/' path, '{' ∉ seg ∧ '}' ∉ seg := by
    have key : ∀ (l : List Str) (ch : Char), ch ∉ join ['/'] l → ∀ seg ∈ l, ch ∉ seg := by
      intro l ch
      induction l with
      | nil => intro _ s hs; simp at hs
      | cons x l ih =>
        cases l with
        | nil => intro h s hs; simp at hs; subst hs; exact h
        | cons y r =>
          intro h s hs
          rw [join_cons (by simp)] at h
          simp only [List.mem_append, not_or] at h
          simp only [List.mem_cons] at hs
          rcases hs with e | hs
          · subst e; exact h.1.1
          · exact ih h.2 s (by simpa using hs)
    intro seg hseg
    exact ⟨key _ '{' (by rw [join_split]; exact hb.1) seg hseg, key _ '}' (by rw [join_split]; exact hb.2) seg hseg⟩
  rw [extractParams_exact, List.map_map]
  unfold openapiPath
  rw [mapPathParams_eq]
  unfold mapPath wildcards placeholders
  generalize split '/' path = l at hsub
  have segCase : ∀ s, ('{' ∉ s ∧ '}' ∉ s) → ∀ rest,
      placeholdersAux none (mapSeg (fun m n => openapiRepl (m :: n)) s ++ rest)
        = ([s].filterMap (fun seg => (segWild seg).map (fun x => x.2))).map templateVar ++ placeholdersAux none rest := by
    intro s hs rest
    unfold mapSeg
    cases hw : segWild s with
    | none => simp [placeholders_skip s rest hs.1, hw]
    | some x =>
      obtain ⟨b, m, n⟩ := x
      obtain ⟨h1, _⟩ := segWild_sound hw
      simp only [h1, List.mem_append, List.mem_cons, not_or] at hs
      have hv : '}' ∉ templateVar (m, n) := by
        unfold templateVar
        split
        · exact hs.2.2.2
        · simp only [List.mem_append, not_or]; exact ⟨hs.2.2.2, by simp⟩
      simp only [openapiRepl_eq, List.append_assoc, List.cons_append, List.nil_append]
      rw [placeholders_skip b _ hs.1.1, placeholdersAux, if_pos rfl, placeholders_some [] _ _ hv]
      simp [hw]
  have hfun : ((fun p : Param => if p.isRequired = true then p.name else p.name ++ ['*']) ∘ fun w : Char × Str =>
      ({ name := w.2, field := { type := c!"string" }, isRequired := decide (w.1 = ':') } : Param)) = templateVar := by
    funext w
    simp [templateVar]
  rw [hfun]
  induction l with
  | nil => rfl
  | cons s l ih =>
    cases l with
    | nil =>
      have := segCase s (hsub s (by simp)) []
      simpa [join, placeholdersAux] using this
    | cons t r =>
      have ih := ih (fun x hx => hsub x (by simp [hx]))
      rw [List.map_cons, join_cons (by simp), List.append_assoc, segCase s (hsub s (by simp))]
      rw [show (['/'] ++ join ['/'] (List.map (mapSeg fun m n => openapiRepl (m :: n)) (t :: r)))
        = '/' :: join ['/'] (List.map (mapSeg fun m n => openapiRepl (m :: n)) (t :: r)) from rfl]
      rw [placeholdersAux, if_neg (by decide), ih]
      cases hw : segWild s <;> simp [List.filterMap_cons, hw]

/-- C04, partial: for paths without braces and without optional ('*') parameters the template variables are exactly the
declared path parameter names. Missing: paths with '*' parameters, for which it is false (next theorem). -/
theorem template_vars_match_partial (path : Str) (hb : '{' ∉ path ∧ '}' ∉ path)
    (hstar : ∀ p ∈ extractParams path, p.isRequired = true) :
    placeholders (openapiPath path) = (extractParams path).map (·.name) := by
  rw [placeholders_openapiPath path hb]
  exact List.map_congr_left (fun p hp => by simp [hstar p hp])

example : placeholders (openapiPath c!"/a/:id/x/:name") = [c!"id", c!"name"] ∧
    (∀ p ∈ extractParams c!"/a/:id/x/:name", p.isRequired = true) := by decide

/-- C04 is false in general: '*' parameters are declared under a name that is not the template variable. -/
theorem template_vars_mismatch : ∃ path : Str, GinPath path ∧
    placeholders (openapiPath path) ≠ (extractParams path).map (·.name) := by
  refine ⟨c!"/files/*rest", ?_, by decide⟩
  intro seg hseg
  have h : seg = [] ∨ seg = c!"files" ∨ seg = c!"*rest" := by
    have e : split '/' c!"/files/*rest" = [[], c!"files", c!"*rest"] := by decide
    rw [e] at hseg; simpa using hseg
  rcases h with e | e | e <;> subst e
  · left; decide
  · left; decide
  · right; exact ⟨[], '*', c!"rest", ⟨rfl, by decide, by decide, by decide, by decide⟩, by decide, by decide⟩

/-! ### C05: distinct paths keep distinct templates -/

theorem join_map_inj {f : Str → Str} {l l' : List Str} (hf : ∀ s ∈ l ++ l', '/' ∉ f s)
    (hne : l ≠ []) (hne' : l' ≠ []) (h : join ['/'] (l.map f) = join ['/'] (l'.map f)) : l.map f = l'.map f := by
  rw [← split_join (l := l.map f) (sep := '/'), h, split_join]
  · simpa using hne'
  · intro x hx
    obtain ⟨s, hs, rfl⟩ := List.mem_map.mp hx
    exact hf s (by simp [hs])
  · simpa using hne
  · intro x hx
    obtain ⟨s, hs, rfl⟩ := List.mem_map.mp hx
    exact hf s (by simp [hs])

/-- The text up to the first '{'. -/
theorem takeWhile_brace {b rest : Str} (h : '{' ∉ b) : (b ++ '{' :: rest).takeWhile (· ≠ '{') = b := by
  induction b with
  | nil => simp
  | cons c b ih =>
    simp only [List.mem_cons, not_or] at h
    have : c ≠ '{' := fun e => h.1 e.symm
    rw [List.cons_append, List.takeWhile_cons_of_pos (by simpa using this), ih h.2]

theorem mapSeg_inj {s t : Str}
    (hs : (':' ∉ s ∧ '*' ∉ s) ∨ ∃ b m n, WildcardOf s b m n ∧ ':' ∉ n ∧ '*' ∉ n)
    (ht : (':' ∉ t ∧ '*' ∉ t) ∨ ∃ b m n, WildcardOf t b m n ∧ ':' ∉ n ∧ '*' ∉ n)
    (bs : '{' ∉ s) (bt : '{' ∉ t)
    (h : mapSeg (fun m n => openapiRepl (m :: n)) s = mapSeg (fun m n => openapiRepl (m :: n)) t) : s = t := by
  have noWild : ∀ x : Str, ':' ∉ x ∧ '*' ∉ x → mapSeg (fun m n => openapiRepl (m :: n)) x = x := by
    intro x hx
    unfold mapSeg
    cases hw : segWild x with
    | none => rfl
    | some y =>
      obtain ⟨b, m, n⟩ := y
      obtain ⟨h1, _, h3, _⟩ := segWild_sound hw
      exfalso
      rcases h3 with e | e <;> subst e
      · exact hx.1 (by rw [h1]; simp)
      · exact hx.2 (by rw [h1]; simp)
  have wild : ∀ x b m n, WildcardOf x b m n →
      mapSeg (fun m n => openapiRepl (m :: n)) x = b ++ '{' :: (templateVar (m, n) ++ ['}']) := by
    intro x b m n hx
    unfold mapSeg
    rw [segWild_complete hx]
    simp [openapiRepl_eq]
  rcases hs with hs | ⟨b, m, n, hs, hn⟩
  · rw [noWild s hs] at h
    rcases ht with ht | ⟨b', m', n', ht, _⟩
    · rw [noWild t ht] at h; exact h
    · rw [wild t _ _ _ ht] at h
      exact absurd (show '{' ∈ s by rw [h]; simp) bs
  · rw [wild s _ _ _ hs] at h
    rcases ht with ht | ⟨b', m', n', ht, hn'⟩
    · rw [noWild t ht] at h
      exact absurd (show '{' ∈ t by rw [← h]; simp) bt
    · rw [wild t _ _ _ ht] at h
      obtain ⟨es, hs2, hs3, _⟩ := hs
      obtain ⟨et, ht2, ht3, _⟩ := ht
      have hbs : '{' ∉ b := fun hh => bs (by rw [es]; simp [hh])
      have hbt : '{' ∉ b' := fun hh => bt (by rw [et]; simp [hh])
      have eb : b = b' := by
        have h1 := congrArg (fun l => l.takeWhile (· ≠ '{')) h
        simpa only [takeWhile_brace hbs, takeWhile_brace hbt] using h1
      subst eb
      have h2 := List.append_cancel_left h
      simp only [List.cons.injEq, true_and] at h2
      have h3 := List.append_cancel_right h2
      unfold templateVar at h3
      have hmn : m = m' ∧ n = n' := by
        rcases hs3 with e | e <;> rcases ht3 with e' | e' <;> subst e <;> subst e'
        · simp at h3; exact ⟨rfl, h3⟩
        · simp at h3; exact absurd (by rw [h3]; simp) hn.2
        · simp at h3; exact absurd (by rw [← h3]; simp) hn'.2
        · simp at h3; exact ⟨rfl, h3⟩
      obtain ⟨rfl, rfl⟩ := hmn
      rw [es, et]

/-- C05, partial: for paths gin accepts that contain no '{', different router paths have different OpenAPI paths, so no
path item is shared by accident. Missing: paths with literal braces, for which it is false (next theorem). -/
theorem openapiPath_injective_partial (p q : Str) (hp : GinPath p) (hq : GinPath q) (bp : '{' ∉ p) (bq : '{' ∉ q)
    (h : openapiPath p = openapiPath q) : p = q := by
  have hsub : ∀ (ch : Char) (p : Str), ch ∉ p → ∀ seg ∈ split '/' p, ch ∉ seg := by
    intro ch p h seg hseg hc
    have key : ∀ (l : List Str), seg ∈ l → ch ∈ join ['/'] l := by
      intro l hl
      induction l with
      | nil => simp at hl
      | cons x l ih =>
        cases l with
        | nil => simp at hl; subst hl; exact hc
        | cons y r =>
          rw [join_cons (by simp)]
          simp only [List.mem_cons] at hl
          rcases hl with e | hl
          · subst e; simp [hc]
          · simp only [List.mem_append]; right; exact ih (by simpa using hl)
    exact h (by have := key _ hseg; rwa [join_split] at this)
  unfold openapiPath at h
  rw [mapPathParams_eq, mapPathParams_eq] at h
  unfold mapPath at h
  have hslash : ∀ s ∈ split '/' p ++ split '/' q, '/' ∉ mapSeg (fun m n => openapiRepl (m :: n)) s := by
    intro s hs
    have hno : '/' ∉ s := by
      rcases List.mem_append.mp hs with h | h
      · exact split_no_sep s h
      · exact split_no_sep s h
    unfold mapSeg
    cases hw : segWild s with
    | none => exact hno
    | some x =>
      obtain ⟨b, m, n⟩ := x
      obtain ⟨h1, _⟩ := segWild_sound hw
      rw [h1] at hno
      simp only [List.mem_append, List.mem_cons, not_or] at hno
      simp only [openapiRepl_eq, List.mem_append, List.mem_cons, not_or]
      refine ⟨hno.1, ⟨by decide, ?_⟩, by decide⟩
      unfold templateVar
      split
      · exact hno.2.2
      · simp only [List.mem_append, not_or]; exact ⟨hno.2.2, by simp⟩
  have h := join_map_inj hslash (split_ne_nil _ _) (split_ne_nil _ _) h
  apply split_inj (sep := '/')
  have hp' : ∀ s ∈ split '/' p, '{' ∉ s := hsub '{' p bp
  have hq' : ∀ s ∈ split '/' q, '{' ∉ s := hsub '{' q bq
  unfold GinPath at hp hq
  generalize split '/' p = l at h hp hp'
  generalize split '/' q = l' at h hq hq'
  induction l generalizing l' with
  | nil => cases l' with
    | nil => rfl
    | cons _ _ => simp at h
  | cons s l ih => cases l' with
    | nil => simp at h
    | cons t l' =>
      simp only [List.map_cons, List.cons.injEq] at h
      have e := mapSeg_inj (hp s (by simp)) (hq t (by simp)) (hp' s (by simp)) (hq' t (by simp)) h.1
      subst e
      congr 1
      exact ih (fun x hx => hp x (by simp [hx])) (fun x hx => hp' x (by simp [hx])) l' h.2
        (fun x hx => hq x (by simp [hx])) (fun x hx => hq' x (by simp [hx]))

example : openapiPath c!"/a/:id" = c!"/a/{id}" ∧ openapiPath c!"/a/*id" = c!"/a/{id*}" := by decide

/-- C05 is false with literal braces: a static and a parametrised route share one OpenAPI path. -/
theorem openapiPath_collision : openapiPath c!"/a/{id}" = openapiPath c!"/a/:id" ∧ c!"/a/{id}" ≠ c!"/a/:id" := by
  decide

end Astra.Props
