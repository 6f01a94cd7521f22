/-
C84: exactly which router paths get a right OpenAPI path template, and exactly which share one.
-/
import Verif.Props.Paths
import Verif.Spec.Cache

namespace Astra.Props

open Spec

theorem each_nil_iff {α β : Type} {R : α → β → Prop} {m : List β} : Each R [] m ↔ m = [] :=
  ⟨fun h => by cases h; rfl, fun h => by subst h; exact .nil⟩

theorem each_cons_iff {α β : Type} {R : α → β → Prop} {a : α} {l : List α} {m : List β} :
    Each R (a :: l) m ↔ ∃ b m', m = b :: m' ∧ R a b ∧ Each R l m' :=
  ⟨fun h => by cases h with | cons h1 h2 => exact ⟨_, _, rfl, h1, h2⟩, fun ⟨_, _, e, h1, h2⟩ => by subst e; exact .cons h1 h2⟩

theorem templateOf_iff (seg t : Str) : TemplateOf seg t ↔ t = mapSeg (fun m n => openapiRepl (m :: n)) seg := by
  constructor
  · intro h
    cases h with
    | plain h =>
      unfold mapSeg
      cases hw : segWild seg with
      | none => rfl
      | some x => exact absurd (segWild_iff.mp hw) (h x.1 x.2.1 x.2.2)
    | param h => unfold mapSeg; rw [segWild_iff.mpr h]; simp [openapiRepl]
    | catchAll h => unfold mapSeg; rw [segWild_iff.mpr h]; simp [openapiRepl]
  · intro h
    subst h
    unfold mapSeg
    cases hw : segWild seg with
    | none => exact .plain (fun b m n hn => by rw [segWild_iff.mpr hn] at hw; simp at hw)
    | some x =>
      obtain ⟨b, m, n⟩ := x
      have hW := segWild_iff.mp hw
      rcases hW.2.2.1 with e | e <;> subst e
      · have := TemplateOf.param hW; simpa [openapiRepl] using this
      · have := TemplateOf.catchAll hW; simpa [openapiRepl] using this

/-- C84: the OpenAPI path is the router path with every segment replaced by its template, and this determines it. -/
theorem openapiPath_iff (path t : Str) :
    openapiPath path = t ↔ ∃ ts, Each TemplateOf (split '/' path) ts ∧ t = join ['/'] ts := by
  unfold openapiPath
  rw [mapPathParams_eq]
  unfold mapPath
  have key : ∀ (l ts : List Str), Each TemplateOf l ts ↔ ts = l.map (mapSeg fun m n => openapiRepl (m :: n)) := by
    intro l
    induction l with
    | nil => intro ts; cases ts <;> simp [each_nil_iff]
    | cons s l ih =>
      intro ts
      cases ts with
      | nil => simp [each_cons_iff]
      | cons t ts => simp [each_cons_iff, ih, templateOf_iff]
  constructor
  · intro h; exact ⟨_, (key _ _).mpr rfl, h.symm⟩
  · rintro ⟨ts, h, rfl⟩; rw [(key _ _).mp h]

theorem template_no_slash {s t : Str} (hs : '/' ∉ s) (h : TemplateOf s t) : '/' ∉ t := by
  cases h with
  | plain => exact hs
  | param h =>
    rw [h.1] at hs
    simp only [List.mem_append, List.mem_cons, not_or, List.not_mem_nil, not_false_eq_true, and_true] at hs ⊢
    exact ⟨⟨hs.1, by decide, hs.2.2⟩, by decide⟩
  | catchAll h =>
    rw [h.1] at hs
    simp only [List.mem_append, List.mem_cons, not_or, List.not_mem_nil, not_false_eq_true, and_true] at hs ⊢
    exact ⟨⟨hs.1, by decide, hs.2.2⟩, by decide, by decide⟩

/-- C84: two router paths share their OpenAPI path exactly if they have the same number of segments and segments at the same place have the
same template. -/
theorem openapiPath_shared_iff (p q : Str) :
    openapiPath p = openapiPath q ↔ Each (fun s t => ∃ x, TemplateOf s x ∧ TemplateOf t x) (split '/' p) (split '/' q) := by
  have key : ∀ (l l' : List Str), Each (fun s t => ∃ x, TemplateOf s x ∧ TemplateOf t x) l l' ↔
      l.map (mapSeg fun m n => openapiRepl (m :: n)) = l'.map (mapSeg fun m n => openapiRepl (m :: n)) := by
    intro l
    induction l with
    | nil => intro l'; cases l' <;> simp [each_nil_iff]
    | cons s l ih =>
      intro l'
      cases l' with
      | nil => simp [each_cons_iff]
      | cons t l' =>
        simp only [each_cons_iff, ih, List.map_cons, List.cons.injEq]
        constructor
        · rintro ⟨_, _, ⟨rfl, rfl⟩, ⟨x, h1, h2⟩, h3⟩
          exact ⟨((templateOf_iff _ _).mp h1).symm.trans ((templateOf_iff _ _).mp h2), h3⟩
        · rintro ⟨h1, h2⟩
          exact ⟨_, _, ⟨rfl, rfl⟩, ⟨_, (templateOf_iff _ _).mpr rfl, (templateOf_iff _ _).mpr h1⟩, h2⟩
  rw [key]
  unfold openapiPath
  rw [mapPathParams_eq, mapPathParams_eq]
  unfold mapPath
  constructor
  · intro h
    refine join_map_inj ?_ (split_ne_nil _ _) (split_ne_nil _ _) h
    intro s hs
    have hno : '/' ∉ s := by
      rcases List.mem_append.mp hs with h | h
      · exact split_no_sep s h
      · exact split_no_sep s h
    exact template_no_slash hno ((templateOf_iff s _).mpr rfl)
  · intro h; rw [h]

/-- The two ways in which different paths come to share a template are literal braces and catch-all markers in names. -/
example : openapiPath c!"/a/{id}/x" = openapiPath c!"/a/:id/x" ∧ openapiPath c!"/:id*" = openapiPath c!"/*id" := by decide

/-- C84: for a path without braces, the template variables are the declared path parameters exactly if no wildcard is a catch-all. -/
theorem template_vars_match_iff (path : Str) (hb : '{' ∉ path ∧ '}' ∉ path) :
    placeholders (openapiPath path) = (extractParams path).map (·.name) ↔ ∀ w ∈ wildcards path, w.1 = ':' := by
  rw [placeholders_openapiPath path hb, extractParams_exact, List.map_map, List.map_map]
  generalize wildcards path = l
  induction l with
  | nil => simp
  | cons w l ih =>
    simp only [List.map_cons, List.cons.injEq, List.forall_mem_cons, ih]
    apply and_congr_left
    intro _
    simp only [Function.comp]
    by_cases h : w.1 = ':' <;> simp [h]

example : ('{' ∉ c!"/a/:id/*rest" ∧ '}' ∉ c!"/a/:id/*rest") ∧ wildcards c!"/a/:id/*rest" = [(':', c!"id"), ('*', c!"rest")] ∧
    placeholders (openapiPath c!"/a/:id/*rest") = [c!"id", c!"rest*"] := by decide

end Astra.Props
