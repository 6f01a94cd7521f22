/-
C06: for which router paths the Azure route is right.
-/
import Verif.Props.Azure

namespace Astra.Props

open Spec

/-- A wildcard whose text also stands in the placeholder of any earlier one. -/
def ReadsAlpha (w : Char × Str) : Prop := w.1 = ':' ∧ w.2 <+: c!"alpha"

theorem replaceFirst_keeps {m : Char} {n new p s : Str} (hm : m ∉ p) (h : p <+: s) : p <+: replaceFirst s (m :: n) new := by
  induction p generalizing s with
  | nil => exact List.nil_prefix
  | cons c p ih =>
    cases s with
    | nil => simp at h
    | cons d s =>
      rw [List.cons_prefix_cons] at h
      obtain ⟨rfl, h⟩ := h
      rw [replaceFirst, if_neg]
      · exact List.cons_prefix_cons.mpr ⟨rfl, ih (fun h => hm (by simp [h])) h⟩
      · intro hp
        rw [hasPrefix_iff, List.cons_prefix_cons] at hp
        exact hm (by simp [hp.1])

/-- What stands before the first marker is never changed. -/
theorem convertRouteLoop_keeps {p : Str} (hc : ':' ∉ p) (hs : '*' ∉ p) (segs : List Str) {s : Str} (h : p <+: s) :
    p <+: convertRouteLoop s (segParams segs) := by
  unfold segParams
  generalize segs.filterMap (fun seg => (segWild seg).map (fun x => x.2)) = ws
  induction ws generalizing s with
  | nil => exact h
  | cons w ws ih =>
    simp only [List.map_cons, convertRouteLoop, azureType_string]
    rw [if_neg (by simp)]
    split
    · exact ih (replaceFirst_keeps hc h)
    · exact ih (replaceFirst_keeps hs h)

theorem azureVar_colon (m : Char) (n : Str) : ':' ∈ azureVar m n := by unfold azureVar; split <;> simp

theorem azureVar_colonAlpha {m : Char} {n : Str} (h : ':' ∉ n) : ColonAlpha (azureVar m n) := by
  unfold azureVar
  split
  · rw [show '{' :: n ++ c!":alpha}" = ('{' :: n) ++ (':' :: (c!"alpha" ++ '}' :: [])) from by simp]
    exact (ColonAlpha.of_no_colon (by simp [h])).append (.placeholder _ (Or.inl rfl) [] (by simp))
  · rw [show '{' :: n ++ c!":alpha?}" = ('{' :: n) ++ (':' :: (c!"alpha" ++ '?' :: ['}'])) from by simp]
    exact (ColonAlpha.of_no_colon (by simp [h])).append (.placeholder _ (Or.inr rfl) ['}'] (by simp))

/-- A wildcard that is found where it stands. -/
theorem convert_step {done b n post : Str} {m : Char} (segs : List Str) (hd : ColonAlpha done) (hds : '*' ∉ done) (e3 : m = ':' ∨ m = '*')
    (e4 : ':' ∉ b) (e5 : '*' ∉ b) (hsafe : m = ':' → AzureSafe n ∨ ':' ∉ done) :
    convertRouteLoop (done ++ (b ++ m :: n ++ post))
        ({ name := n, field := { type := c!"string" }, isRequired := decide (m = ':') } :: segParams segs)
      = convertRouteLoop (done ++ b ++ (azureVar m n ++ post)) (segParams segs) := by
  simp only [convertRouteLoop, azureType_string]
  rw [if_neg (by simp)]
  rcases e3 with e | e <;> subst e
  · rw [if_pos (by simp), show done ++ (b ++ ':' :: n ++ post) = (done ++ b) ++ ((':' :: n) ++ post) from by simp,
      replaceFirst_at (m := ':') (n := n) rfl]
    · simp [azureVar]
    · intro p q hpq
      rcases hsafe rfl with hs | h1
      · exact azureSafe_no_prefix hs ((hd.append (.of_no_colon e4)) p q hpq)
      · exfalso
        have : ':' ∈ done ++ b := by rw [hpq]; simp
        exact (List.mem_append.mp this).elim h1 e4
  · rw [if_neg (by simp), show done ++ (b ++ '*' :: n ++ post) = (done ++ b) ++ (('*' :: n) ++ post) from by simp,
      replaceFirst_at (m := '*') (n := n) rfl]
    · simp [azureVar]
    · intro p q hpq
      exfalso
      have : '*' ∈ done ++ b := by rw [hpq]; simp
      exact (List.mem_append.mp this).elim hds e5

theorem first_colon {s : Str} (h : ':' ∈ s) : ∃ p q, s = p ++ ':' :: q ∧ ':' ∉ p := by
  induction s with
  | nil => simp at h
  | cons c s ih =>
    by_cases hc : c = ':'
    · exact ⟨[], s, by rw [hc]; rfl, by simp⟩
    · obtain ⟨p, q, e, hp⟩ := ih (by simpa [Ne.symm hc] using h)
      exact ⟨c :: p, q, by rw [e]; rfl, by simp [Ne.symm hc, hp]⟩

/-- A wildcard that is found inside an earlier placeholder spoils the route for good. -/
theorem convert_spoiled {done n post : Str} (segs : List Str) (tail : Str) (hd : ColonAlpha done) (hds : '*' ∉ done) (hc : ':' ∈ done)
    (hn : n <+: c!"alpha") :
    convertRouteLoop (done ++ post) ({ name := n, field := { type := c!"string" }, isRequired := true } :: segParams segs) ≠ done ++ tail := by
  obtain ⟨p, q, rfl, hp⟩ := first_colon hc
  obtain ⟨c, r, _, rfl⟩ := hd p q rfl
  obtain ⟨u, hu⟩ := hn
  have hps : '*' ∉ p := fun h => hds (by simp [h])
  have hnew : p ++ ['{'] <+: convertRouteLoop (p ++ ':' :: (c!"alpha" ++ c :: r) ++ post)
      ({ name := n, field := { type := c!"string" }, isRequired := true } :: segParams segs) := by
    simp only [convertRouteLoop, azureType_string]
    rw [if_neg (by simp), if_pos trivial]
    apply convertRouteLoop_keeps
    · simp [hp]
    · simp [hps]
    · rw [show p ++ ':' :: (c!"alpha" ++ c :: r) ++ post = p ++ ((':' :: n) ++ (u ++ c :: r ++ post)) from by rw [← hu]; simp,
        replaceFirst_at (m := ':') (n := n) rfl (by intro p' q' e; exact absurd (by rw [e]; simp) hp)]
      exact ⟨n ++ ':' :: c!"alpha" ++ c!"}" ++ (u ++ c :: r ++ post), by simp⟩
  intro e
  rw [e] at hnew
  obtain ⟨x, hx⟩ := hnew
  rw [List.append_assoc, List.append_assoc] at hx
  have := List.append_cancel_left hx
  simp at this

theorem convert_wrong (segs : List Str) (done : Str)
    (hg : ∀ seg ∈ segs, (':' ∉ seg ∧ '*' ∉ seg) ∨ ∃ b m n, WildcardOf seg b m n ∧ ':' ∉ n ∧ '*' ∉ n)
    (hd : ColonAlpha done) (hds : '*' ∉ done)
    (hnice : ∀ w ∈ segs.filterMap (fun seg => (segWild seg).map (fun x => x.2)), '}' ∉ w.2 ∧ '?' ∉ w.2)
    (hbad : (':' ∈ done ∧ ∃ w ∈ segs.filterMap (fun seg => (segWild seg).map (fun x => x.2)), ReadsAlpha w) ∨
      (':' ∉ done ∧ ∃ w ∈ (segs.filterMap (fun seg => (segWild seg).map (fun x => x.2))).tail, ReadsAlpha w)) :
    convertRouteLoop (done ++ join ['/'] segs) (segParams segs) ≠ done ++ join ['/'] (segs.map (mapSeg azureVar)) := by
  induction segs generalizing done with
  | nil => simp at hbad
  | cons seg segs ih =>
    have hgs := hg seg (by simp)
    cases hw : segWild seg with
    | none =>
      have hm : mapSeg azureVar seg = seg := by simp [mapSeg, hw]
      have hno : ':' ∉ seg ∧ '*' ∉ seg := by
        rcases hgs with h | ⟨b, m, n, h, _⟩
        · exact h
        · rw [segWild_complete h] at hw; cases hw
      have hp : segParams (seg :: segs) = segParams segs := by simp [segParams, hw]
      have hf : (seg :: segs).filterMap (fun seg => (segWild seg).map (fun x => x.2))
          = segs.filterMap (fun seg => (segWild seg).map (fun x => x.2)) := by simp [hw]
      rw [hf] at hbad hnice
      rw [hp, List.map_cons, hm]
      cases segs with
      | nil => simp at hbad
      | cons y l =>
        rw [join_cons (r := y :: l) (by simp), join_cons (r := (y :: l).map _) (by simp)]
        have hiff : ':' ∈ done ++ seg ++ ['/'] ↔ ':' ∈ done := by simp [hno.1]
        have := ih (done ++ seg ++ ['/']) (fun s hs => hg s (by simp [hs]))
          ((hd.append (.of_no_colon hno.1)).append (.of_no_colon (by decide)))
          (by simp only [List.mem_append, not_or]; exact ⟨⟨hds, hno.2⟩, by decide⟩) hnice
          (by rw [hiff]; exact hbad)
        simpa using this
    | some x =>
      obtain ⟨b, m, n⟩ := x
      obtain ⟨e1, e2, e3, e4, e5⟩ := segWild_sound hw
      have hn : ':' ∉ n ∧ '*' ∉ n := by
        rcases hgs with h | ⟨b', m', n', h, hn⟩
        · exfalso
          rcases e3 with e | e <;> subst e
          · exact h.1 (by rw [e1]; simp)
          · exact h.2 (by rw [e1]; simp)
        · have := segWild_complete h
          rw [hw] at this
          simp at this
          obtain ⟨_, _, rfl⟩ := this
          exact hn
      have hm : mapSeg azureVar seg = b ++ azureVar m n := by simp [mapSeg, hw]
      have hf : (seg :: segs).filterMap (fun seg => (segWild seg).map (fun x => x.2))
          = (m, n) :: segs.filterMap (fun seg => (segWild seg).map (fun x => x.2)) := by simp [hw]
      have hp : segParams (seg :: segs) =
          { name := n, field := { type := c!"string" }, isRequired := decide (m = ':') } :: segParams segs := by
        simp [segParams, hw]
      rw [hf] at hbad hnice
      by_cases hspoil : ':' ∈ done ∧ ReadsAlpha (m, n)
      · obtain ⟨hc, rfl, hal⟩ := hspoil
        rw [hp]
        exact convert_spoiled segs _ hd hds hc hal
      · have hsafe : m = ':' → AzureSafe n ∨ ':' ∉ done := by
          intro e
          by_cases hc : ':' ∈ done
          · exact Or.inl ⟨fun hal => hspoil ⟨hc, e, hal⟩, hnice (m, n) (by simp)⟩
          · exact Or.inr hc
        have hrest : ∃ w ∈ segs.filterMap (fun seg => (segWild seg).map (fun x => x.2)), ReadsAlpha w := by
          rcases hbad with ⟨hc, w, hwm, hr⟩ | ⟨_, w, hwm, hr⟩
          · rcases List.mem_cons.mp hwm with rfl | hwm
            · exact absurd ⟨hc, hr⟩ hspoil
            · exact ⟨w, hwm, hr⟩
          · exact ⟨w, hwm, hr⟩
        rw [List.map_cons, hm, hp]
        cases segs with
        | nil => simp at hrest
        | cons y l =>
          rw [join_cons (r := y :: l) (by simp), join_cons (r := (y :: l).map _) (by simp)]
          have hstar : '*' ∉ azureVar m n := by
            unfold azureVar
            split <;> simp [hn.2]
          have := ih (done ++ b ++ azureVar m n ++ ['/']) (fun s hs => hg s (by simp [hs]))
            (((hd.append (.of_no_colon e4)).append (azureVar_colonAlpha hn.1)).append (.of_no_colon (by decide)))
            (by simp only [List.mem_append, not_or]; exact ⟨⟨⟨hds, e5⟩, hstar⟩, by decide⟩)
            (fun w hw => hnice w (List.mem_cons_of_mem _ hw))
            (Or.inl ⟨by simp [azureVar_colon m n], hrest⟩)
          have hstep := convert_step (post := ['/'] ++ join ['/'] (y :: l)) (y :: l) hd hds e3 e4 e5 hsafe
          rw [e1, List.append_assoc, hstep]
          simpa using this

/-- C06, exact: for a path gin accepts, with names that have neither '}' nor '?', the Azure route is the path with each wildcard rewritten in
place if and only if no ':' parameter after the first wildcard is named a, al, alp, alph or alpha. -/
theorem convertRoute_faithful_iff (route : Route) (hg : GinPath route.path) (hp : route.pathParams = extractParams route.path)
    (hnice : ∀ w ∈ wildcards route.path, '}' ∉ w.2 ∧ '?' ∉ w.2) :
    convertRoute route = mapPath azureVar route.path ↔
      ∀ w ∈ (wildcards route.path).tail, w.1 = ':' → w.2 ∉ [c!"a", c!"al", c!"alp", c!"alph", c!"alpha"] := by
  have hname : ∀ w ∈ wildcards route.path, (w.2 <+: c!"alpha" ↔ w.2 ∈ [c!"a", c!"al", c!"alp", c!"alph", c!"alpha"]) := by
    intro w hw
    have hne : w.2 ≠ [] := by
      obtain ⟨seg, _, hs⟩ := List.mem_filterMap.mp hw
      cases h : segWild seg with
      | none => rw [h] at hs; cases hs
      | some x =>
        rw [h] at hs
        cases hs
        exact (segWild_sound h).2.1
    constructor
    · intro h
      have e : w.2 = c!"alpha".take w.2.length := List.prefix_iff_eq_take.mp h
      have hl : w.2.length ≤ 5 := h.length_le
      have h0 : 0 < w.2.length := List.length_pos_iff.mpr hne
      rw [e]
      generalize w.2.length = k at hl h0
      have : k = 1 ∨ k = 2 ∨ k = 3 ∨ k = 4 ∨ k = 5 := by omega
      rcases this with rfl | rfl | rfl | rfl | rfl <;> decide
    · intro h
      simp only [List.mem_cons, List.not_mem_nil, or_false] at h
      rcases h with h | h | h | h | h <;> rw [h] <;> decide
  constructor
  · intro h w hw hc hmem
    have hr : ReadsAlpha w := ⟨hc, (hname w (List.mem_of_mem_tail hw)).mpr hmem⟩
    have := convert_wrong (split '/' route.path) [] hg (.of_no_colon (by simp)) (by simp) hnice (Or.inr ⟨by simp, w, hw, hr⟩)
    apply this
    unfold convertRoute at h
    rw [hp, extractParams_exact] at h
    simp only [List.nil_append, join_split]
    exact h
  · intro h
    refine convertRoute_faithful_partial route hg hp fun w hw hc => ?_
    have hm := List.mem_of_mem_tail hw
    exact ⟨fun hal => h w hw hc ((hname w hm).mp hal), hnice w hm⟩

/-- Both sides occur. -/
example : (GinPath c!"/:al/:x/*alpha" ∧ GinPath c!"/:x/:al") ∧
    convertRoute { path := c!"/:al/:x/*alpha", pathParams := extractParams c!"/:al/:x/*alpha" } = c!"/{al:alpha}/{x:alpha}/{alpha:alpha?}" ∧
    convertRoute { path := c!"/:x/:al", pathParams := extractParams c!"/:x/:al" } ≠ c!"/{x:alpha}/{al:alpha}" := by
  refine ⟨⟨?_, ?_⟩, by decide, by decide⟩
  · intro seg hs
    have : split '/' c!"/:al/:x/*alpha" = [[], c!":al", c!":x", c!"*alpha"] := by decide
    rw [this] at hs
    simp only [List.mem_cons, List.not_mem_nil, or_false] at hs
    rcases hs with rfl | rfl | rfl | rfl
    · exact Or.inl (by decide)
    · exact Or.inr ⟨[], ':', c!"al", ⟨rfl, by decide, by decide, by decide, by decide⟩, by decide, by decide⟩
    · exact Or.inr ⟨[], ':', c!"x", ⟨rfl, by decide, by decide, by decide, by decide⟩, by decide, by decide⟩
    · exact Or.inr ⟨[], '*', c!"alpha", ⟨rfl, by decide, by decide, by decide, by decide⟩, by decide, by decide⟩
  · intro seg hs
    have : split '/' c!"/:x/:al" = [[], c!":x", c!":al"] := by decide
    rw [this] at hs
    simp only [List.mem_cons, List.not_mem_nil, or_false] at hs
    rcases hs with rfl | rfl | rfl
    · exact Or.inl (by decide)
    · exact Or.inr ⟨[], ':', c!"x", ⟨rfl, by decide, by decide, by decide, by decide⟩, by decide, by decide⟩
    · exact Or.inr ⟨[], ':', c!"al", ⟨rfl, by decide, by decide, by decide, by decide⟩, by decide, by decide⟩

/-- Specification: the route constraints of Azure Functions, each with the Go types whose values it describes. -/
def azureConstraints : List (Str × List Str) := [
  (c!"alpha", [c!"string"]), (c!"bool", [c!"bool"]), (c!"int", [c!"int32", c!"uint32"]),
  (c!"long", [c!"int", c!"int64", c!"uint", c!"uint64"]), (c!"float", [c!"float32"]), (c!"double", [c!"float", c!"float64"]),
  (c!"datetime", [c!"time.Time"]), (c!"guid", [c!"github.com/google/uuid.UUID"])]

/-- Specification: the constraint `k` describes the Go type `t`. -/
def Constrains (k t : Str) : Prop := ∃ ts, (k, ts) ∈ azureConstraints ∧ t ∈ ts

theorem azureTypeMap_iff (t k : Str) : aget azureTypeMap t = some k ↔ Constrains k t := by
  constructor
  · intro h
    have hm : ∀ (l : List (Str × Str)), aget l t = some k → (t, k) ∈ l := by
      intro l
      induction l with
      | nil => intro h; cases h
      | cons e l ih =>
        intro h
        simp only [aget] at h
        split at h
        · next e' => cases h; rw [← e']; exact List.mem_cons_self
        · exact List.mem_cons_of_mem _ (ih h)
    have : ∀ e ∈ azureTypeMap, ∃ x ∈ azureConstraints, x.1 = e.2 ∧ e.1 ∈ x.2 := by decide
    obtain ⟨x, hx, rfl, ht⟩ := this _ (hm _ h)
    exact ⟨x.2, hx, ht⟩
  · rintro ⟨ts, hx, ht⟩
    have : ∀ x ∈ azureConstraints, ∀ t ∈ x.2, aget azureTypeMap t = some x.1 := by decide
    exact this _ hx t ht

/-- C06 for parameters of other types, which only a custom function or a changed cache can give a route: the placeholder has the
constraint that describes the type, and a type that no constraint describes leaves the path as it is. -/
theorem convertRoute_typed (pre name post t : Str) (hpre : ':' ∉ pre ∧ '*' ∉ pre) (r : Route) (p : Param) (hp : r.pathParams = [p])
    (hn : p.name = name) (ht : p.field.type = t) :
    (∀ k, Constrains k t → p.isRequired = true → r.path = pre ++ (':' :: name ++ post) →
      convertRoute r = pre ++ (c!"{" ++ name ++ c!":" ++ k ++ c!"}" ++ post)) ∧
    (∀ k, Constrains k t → p.isRequired = false → r.path = pre ++ ('*' :: name ++ post) →
      convertRoute r = pre ++ (c!"{" ++ name ++ c!":" ++ k ++ c!"?}" ++ post)) ∧
    ((∀ k, ¬ Constrains k t) → convertRoute r = r.path) := by
  subst hn ht
  have hne : ∀ k t, Constrains k t → k ≠ [] := by
    rintro k t ⟨ts, hx, _⟩
    have : ∀ x ∈ azureConstraints, x.1 ≠ [] := by decide
    exact this _ hx
  refine ⟨fun k hk hq hr => ?_, fun k hk hq hr => ?_, fun hno => ?_⟩
  · unfold convertRoute
    rw [hp, convertRouteLoop, (azureTypeMap_iff _ _).mpr hk]
    simp only [if_neg (hne k _ hk), hq, if_true, convertRouteLoop]
    rw [hr, replaceFirst_at (m := ':') rfl (fun p q e => absurd (by rw [e]; simp) hpre.1)]
    simp
  · unfold convertRoute
    rw [hp, convertRouteLoop, (azureTypeMap_iff _ _).mpr hk]
    simp only [if_neg (hne k _ hk), hq, convertRouteLoop]
    simp only [Bool.false_eq_true, if_false]
    rw [hr, replaceFirst_at (m := '*') rfl (fun p q e => absurd (by rw [e]; simp) hpre.2)]
    simp
  · unfold convertRoute
    rw [hp, convertRouteLoop]
    cases h : aget azureTypeMap p.field.type with
    | none => rfl
    | some k => exact absurd ((azureTypeMap_iff _ _).mp h) (hno k)

/-- A number, an optional date and a type without constraint. -/
example : convertRoute { path := c!"/users/:id/posts", pathParams := [{ name := c!"id", field := { type := c!"int64" }, isRequired := true }] } =
      c!"/users/{id:long}/posts" ∧
    convertRoute { path := c!"/from/*day", pathParams := [{ name := c!"day", field := { type := c!"time.Time" } }] } = c!"/from/{day:datetime?}" ∧
    convertRoute { path := c!"/users/:id", pathParams := [{ name := c!"id", field := { type := c!"int8" }, isRequired := true }] } = c!"/users/:id" ∧
    Constrains c!"long" c!"int64" := by
  exact ⟨by decide, by decide, by decide, [c!"int", c!"int64", c!"uint", c!"uint64"], by decide, by decide⟩

end Astra.Props
