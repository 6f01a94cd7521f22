/-
C06: Azure route templates.
-/
import Verif.Props.Paths

namespace Astra.Props

open Spec

/-- Specification: what a wildcard becomes in an Azure Functions route. -/
def azureVar (marker : Char) (name : Str) : Str :=
  if marker = ':' then '{' :: name ++ c!":alpha}" else '{' :: name ++ c!":alpha?}"

/-- Every ':' in the text belongs to an already rewritten placeholder. -/
def ColonAlpha (s : Str) : Prop :=
  ∀ p q, s = p ++ ':' :: q → ∃ c r, (c = '}' ∨ c = '?') ∧ q = c!"alpha" ++ c :: r

theorem ColonAlpha.append {a b : Str} (ha : ColonAlpha a) (hb : ColonAlpha b) : ColonAlpha (a ++ b) := by
  intro p q h
  rcases List.append_eq_append_iff.mp h with ⟨a', rfl, h2⟩ | ⟨c', h1, h2⟩
  · exact hb _ _ h2
  · cases c' with
    | nil => simp at h2; exact hb [] q (by simp [← h2])
    | cons x c' =>
      simp only [List.cons_append, List.cons.injEq] at h2
      obtain ⟨rfl, rfl⟩ := h2
      obtain ⟨c, r, hc, e⟩ := ha p c' h1
      exact ⟨c, r ++ b, hc, by rw [e]; simp⟩

theorem ColonAlpha.of_no_colon {a : Str} (h : ':' ∉ a) : ColonAlpha a := by
  intro p q e; exact absurd (by rw [e]; simp) h

theorem ColonAlpha.placeholder (c : Char) (hc : c = '}' ∨ c = '?') (tail : Str) (ht : ':' ∉ tail) :
    ColonAlpha (':' :: (c!"alpha" ++ c :: tail)) := by
  intro p q h
  cases p with
  | nil =>
    simp only [List.nil_append, List.cons.injEq, true_and] at h
    exact ⟨c, tail, hc, by rw [← h]⟩
  | cons x p =>
    simp only [List.cons_append, List.cons.injEq] at h
    have : ':' ∈ c!"alpha" ++ c :: tail := by
      have := h.2; simp only [List.cons_append] ; rw [this]; simp
    rcases hc with e | e <;> subst e <;> simp [ht] at this

theorem replaceFirst_at {pre post w new : Str} {m : Char} {n : Str} (hw : w = m :: n)
    (h : ∀ p q, pre = p ++ m :: q → ¬ (n <+: q ++ (w ++ post))) :
    replaceFirst (pre ++ (w ++ post)) w new = pre ++ (new ++ post) := by
  induction pre with
  | nil =>
    subst hw
    simp only [List.nil_append, List.cons_append, replaceFirst]
    rw [if_pos (by rw [hasPrefix_iff]; exact ⟨post, by simp⟩)]
    simp
  | cons c pre ih =>
    simp only [List.cons_append, replaceFirst]
    rw [if_neg, ih]
    · intro p q e; exact h (c :: p) q (by rw [e]; rfl)
    · intro hp
      rw [hasPrefix_iff, hw, List.cons_prefix_cons] at hp
      exact h [] pre (by simp [hp.1]) (by rw [hw]; exact hp.2)

/-- A name that cannot be mistaken for the text ":alpha}" or ":alpha?}" of an earlier placeholder. -/
def AzureSafe (name : Str) : Prop := ¬ name <+: c!"alpha" ∧ '}' ∉ name ∧ '?' ∉ name

instance (name : Str) : Decidable (AzureSafe name) := by unfold AzureSafe; infer_instance

theorem azureSafe_no_prefix {n q post : Str} (h : AzureSafe n)
    (hq : ∃ c r, (c = '}' ∨ c = '?') ∧ q = c!"alpha" ++ c :: r) : ¬ n <+: q ++ post := by
  obtain ⟨c, r, hc, rfl⟩ := hq
  intro hp
  have hp2 : c!"alpha" ++ [c] <+: c!"alpha" ++ c :: r ++ post := ⟨r ++ post, by simp⟩
  rcases List.prefix_or_prefix_of_prefix hp hp2 with h1 | h1
  · rcases List.prefix_concat_iff.mp h1 with e | h1
    · rcases hc with rfl | rfl
      · exact h.2.1 (by rw [e]; simp)
      · exact h.2.2 (by rw [e]; simp)
    · exact h.1 h1
  · have : c ∈ n := h1.subset (by simp)
    rcases hc with rfl | rfl
    · exact h.2.1 this
    · exact h.2.2 this

/-- Parameters of a list of segments. -/
def segParams (segs : List Str) : List Param :=
  (segs.filterMap (fun seg => (segWild seg).map (fun x => x.2))).map (fun w =>
    ({ name := w.2, field := { type := c!"string" }, isRequired := decide (w.1 = ':') } : Param))

theorem azureType_string : aget azureTypeMap c!"string" = some c!"alpha" := by decide

theorem convert_segs (segs : List Str) (done : Str)
    (hg : ∀ seg ∈ segs, (':' ∉ seg ∧ '*' ∉ seg) ∨ ∃ b m n, WildcardOf seg b m n ∧ ':' ∉ n ∧ '*' ∉ n)
    (hd : ColonAlpha done) (hds : '*' ∉ done)
    (hsafe : ∀ w ∈ segs.filterMap (fun seg => (segWild seg).map (fun x => x.2)), w.1 = ':' →
      AzureSafe w.2 ∨ (':' ∉ done ∧ (segs.filterMap (fun seg => (segWild seg).map (fun x => x.2))).head? = some w ∧
        w ∉ (segs.filterMap (fun seg => (segWild seg).map (fun x => x.2))).tail)) :
    convertRouteLoop (done ++ join ['/'] segs) (segParams segs) = done ++ join ['/'] (segs.map (mapSeg azureVar)) := by
  induction segs generalizing done with
  | nil => simp [segParams, convertRouteLoop]
  | cons seg segs ih =>
    have hgs := hg seg (by simp)
    cases hw : segWild seg with
    | none =>
      have hm : mapSeg azureVar seg = seg := by simp [mapSeg, hw]
      have hno : ':' ∉ seg ∧ '*' ∉ seg := by
        rcases hgs with h | ⟨b, m, n, h, _⟩
        · exact h
        · rw [segWild_complete h] at hw; cases hw
      have hp : segParams (seg :: segs) = segParams segs := by simp [segParams, hw]
      have hf : (seg :: segs).filterMap (fun seg => (segWild seg).map (fun x => x.2))
          = segs.filterMap (fun seg => (segWild seg).map (fun x => x.2)) := by simp [hw]
      rw [hf] at hsafe
      rw [hp, List.map_cons, hm]
      cases segs with
      | nil => simp [segParams, convertRouteLoop, join]
      | cons y l =>
        rw [join_cons (r := y :: l) (by simp), join_cons (r := (y :: l).map _) (by simp)]
        have := ih (done ++ seg ++ ['/']) (fun s hs => hg s (by simp [hs]))
          ((hd.append (.of_no_colon hno.1)).append (.of_no_colon (by decide)))
          (by simp only [List.mem_append, not_or]; exact ⟨⟨hds, hno.2⟩, by decide⟩)
          (by
            intro w hw hc
            rcases hsafe w hw hc with h | ⟨h1, h2⟩
            · exact Or.inl h
            · refine Or.inr ⟨?_, h2⟩
              simp only [List.mem_append, not_or]; exact ⟨⟨h1, hno.1⟩, by decide⟩)
        simpa using this
    | some x =>
      obtain ⟨b, m, n⟩ := x
      have hwc := segWild_sound hw
      obtain ⟨e1, e2, e3, e4, e5⟩ := hwc
      have hn : ':' ∉ n ∧ '*' ∉ n := by
        rcases hgs with h | ⟨b', m', n', h, hn⟩
        · exfalso
          rcases e3 with e | e <;> subst e
          · exact h.1 (by rw [e1]; simp)
          · exact h.2 (by rw [e1]; simp)
        · have := segWild_complete h
          rw [hw] at this
          simp at this
          obtain ⟨_, _, rfl⟩ := this
          exact hn
      have hm : mapSeg azureVar seg = b ++ azureVar m n := by simp [mapSeg, hw]
      have hf : (seg :: segs).filterMap (fun seg => (segWild seg).map (fun x => x.2))
          = (m, n) :: segs.filterMap (fun seg => (segWild seg).map (fun x => x.2)) := by simp [hw]
      have hp : segParams (seg :: segs) =
          { name := n, field := { type := c!"string" }, isRequired := decide (m = ':') } :: segParams segs := by
        simp [segParams, hw]
      rw [hf] at hsafe
      -- one loop step
      have step : ∀ post, convertRouteLoop (done ++ (seg ++ post)) (segParams (seg :: segs))
          = convertRouteLoop (done ++ b ++ (azureVar m n ++ post)) (segParams segs) := by
        intro post
        rw [hp]
        simp only [convertRouteLoop, azureType_string]
        rw [if_neg (by simp)]
        rcases e3 with e | e <;> subst e
        · rw [if_pos (by simp), e1]
          rw [show done ++ (b ++ ':' :: n ++ post) = (done ++ b) ++ ((':' :: n) ++ post) from by simp]
          rw [replaceFirst_at (m := ':') (n := n) rfl]
          · simp [azureVar]
          · intro p q hpq
            rcases hsafe (':', n) (by simp) rfl with hs | ⟨h1, _, _⟩
            · exact azureSafe_no_prefix hs ((hd.append (.of_no_colon e4)) p q hpq)
            · exfalso
              have : ':' ∈ done ++ b := by rw [hpq]; simp
              simp only [List.mem_append] at this
              rcases this with h | h
              · exact h1 h
              · exact e4 h
        · rw [if_neg (by simp), e1]
          rw [show done ++ (b ++ '*' :: n ++ post) = (done ++ b) ++ (('*' :: n) ++ post) from by simp]
          rw [replaceFirst_at (m := '*') (n := n) rfl]
          · simp [azureVar]
          · intro p q hpq
            exfalso
            have : '*' ∈ done ++ b := by rw [hpq]; simp
            simp only [List.mem_append] at this
            rcases this with h | h
            · exact hds h
            · exact e5 h
      have hca : ColonAlpha (azureVar m n) := by
        unfold azureVar
        split
        · rw [show '{' :: n ++ c!":alpha}" = ('{' :: n) ++ (':' :: (c!"alpha" ++ '}' :: [])) from by simp]
          exact (ColonAlpha.of_no_colon (by simp [hn.1])).append (.placeholder _ (Or.inl rfl) [] (by simp))
        · rw [show '{' :: n ++ c!":alpha?}" = ('{' :: n) ++ (':' :: (c!"alpha" ++ '?' :: ['}'])) from by simp]
          exact (ColonAlpha.of_no_colon (by simp [hn.1])).append (.placeholder _ (Or.inr rfl) ['}'] (by simp))
      have hstar : '*' ∉ azureVar m n := by
        unfold azureVar
        split <;> simp [hn.2]
      rw [List.map_cons, hm]
      cases segs with
      | nil =>
        have := step []
        simp only [List.append_nil] at this
        simp only [join]
        rw [this]
        simp [segParams, convertRouteLoop, join]
      | cons y l =>
        rw [join_cons (r := y :: l) (by simp), List.append_assoc, step]
        have := ih (done ++ b ++ azureVar m n ++ ['/']) (fun s hs => hg s (by simp [hs]))
          (((hd.append (.of_no_colon e4)).append hca).append (.of_no_colon (by decide)))
          (by simp only [List.mem_append, not_or]; exact ⟨⟨⟨hds, e5⟩, hstar⟩, by decide⟩)
          (by
            intro w hw hc
            rcases hsafe w (List.mem_cons_of_mem _ hw) hc with h | ⟨_, h2, h3⟩
            · exact Or.inl h
            · simp only [List.head?_cons, Option.some.injEq] at h2
              exact absurd hw (by simpa using h3))
        rw [join_cons (r := (y :: l).map _) (by simp)]
        simpa using this

/-- C06, partial: for a path gin accepts whose parameters are the extracted ones, the Azure route is the path with each
wildcard rewritten in place, provided no ':' parameter other than the first has a name that reads like the text of an
earlier placeholder (a prefix of "alpha", or containing '}' or '?'). Missing: those names; the claim fails for them. -/
theorem convertRoute_faithful_partial (route : Route) (hg : GinPath route.path)
    (hp : route.pathParams = extractParams route.path)
    (hsafe : ∀ w ∈ (wildcards route.path).tail, w.1 = ':' → AzureSafe w.2) :
    convertRoute route = mapPath azureVar route.path := by
  unfold convertRoute
  rw [hp, extractParams_exact]
  have := convert_segs (split '/' route.path) [] hg (.of_no_colon (by simp)) (by simp) (by
    intro w hw hc
    change w ∈ wildcards route.path at hw
    change AzureSafe w.2 ∨ (_ ∧ (wildcards route.path).head? = some w ∧ w ∉ (wildcards route.path).tail)
    cases h : wildcards route.path with
    | nil => rw [h] at hw; simp at hw
    | cons x l =>
      rw [h] at hw hsafe
      by_cases hl : w ∈ l
      · exact Or.inl (hsafe w hl hc)
      · simp only [List.mem_cons, hl, or_false] at hw
        subst hw
        exact Or.inr ⟨by simp, by simp, by simpa using hl⟩)
  simp only [List.nil_append, join_split] at this
  exact this

example : convertRoute { path := c!"/a/:id/:name/*rest", pathParams := extractParams c!"/a/:id/:name/*rest" }
      = c!"/a/{id:alpha}/{name:alpha}/{rest:alpha?}" ∧
    (∀ w ∈ (wildcards c!"/a/:id/:name/*rest").tail, w.1 = ':' → AzureSafe w.2) := by decide

/-- C06 is false in general: a parameter named "al" is searched for inside the placeholder of an earlier one. -/
theorem convertRoute_corrupts :
    convertRoute { path := c!"/:x/:al", pathParams := extractParams c!"/:x/:al" } = c!"/{x{al:alpha}pha}/:al" ∧
    mapPath azureVar c!"/:x/:al" = c!"/{x:alpha}/{al:alpha}" := by decide

end Astra.Props
