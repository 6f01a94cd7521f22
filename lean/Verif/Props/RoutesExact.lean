/-
C09: what the table of routes is after the analysis, for every table.
-/
import Verif.Props.Routes

namespace Astra.Props

theorem replaceRoute_get (l : List Route) (o : Route) (j : Nat) (r : Route) (h : l[j]? = some r) :
    ((SameKey r o ∧ ∀ k < j, ∀ x, l[k]? = some x → ¬ SameKey x o) → (replaceRoute l o)[j]? = some o) ∧
    (¬ (SameKey r o ∧ ∀ k < j, ∀ x, l[k]? = some x → ¬ SameKey x o) → (replaceRoute l o)[j]? = some r) := by
  induction l generalizing j with
  | nil => simp at h
  | cons y l ih =>
    simp only [replaceRoute]
    by_cases hy : SameKey y o
    · rw [if_pos (show y.path = o.path ∧ y.method = o.method from hy)]
      cases j with
      | zero =>
        simp at h
        subst h
        exact ⟨fun _ => rfl, fun hn => absurd ⟨hy, by omega⟩ hn⟩
      | succ j =>
        exact ⟨fun hn => absurd hy (hn.2 0 (by omega) y rfl), fun _ => by simpa using h⟩
    · rw [if_neg (show ¬ (y.path = o.path ∧ y.method = o.method) from hy)]
      cases j with
      | zero =>
        simp at h
        subst h
        exact ⟨fun hn => absurd hn.1 hy, fun _ => rfl⟩
      | succ j =>
        have h' : l[j]? = some r := by simpa using h
        have hiff : (∀ k < j + 1, ∀ x, (y :: l)[k]? = some x → ¬ SameKey x o) ↔ ∀ k < j, ∀ x, l[k]? = some x → ¬ SameKey x o := by
          constructor
          · intro hk k hlt x hx; exact hk (k + 1) (by omega) x (by simpa using hx)
          · intro hk k hlt x hx
            cases k with
            | zero => simp at hx; subst hx; exact hy
            | succ k => exact hk k (by omega) x (by simpa using hx)
        rw [hiff]
        simpa using ih j h'

/-- The loop writes the results of the analyses of the original entries, one after the other. -/
theorem parseRoutesLoop_fold {σ : Type} (parse : σ → Route → σ × Except Str Route)
    (hkey : ∀ st r st' r', parse st r = (st', .ok r') → SameKey r' r) (before rest : List Route) (st : σ) :
    (∀ st' outs, parseAll parse st rest = (st', .ok outs) →
      parseRoutesLoop parse rest.length before.length st (before ++ rest) = (st', outs.foldl replaceRoute (before ++ rest), none)) ∧
    (∀ st' e, parseAll parse st rest = (st', .error e) →
      ∃ t, parseRoutesLoop parse rest.length before.length st (before ++ rest) = (st', t, some e)) := by
  induction rest generalizing before st with
  | nil => simp [parseAll, parseRoutesLoop]
  | cons r rs ih =>
    simp only [List.length_cons, parseRoutesLoop, parseAll]
    rw [show (before ++ r :: rs)[before.length]? = some r by simp]
    simp only
    cases hp : parse st r with
    | mk st1 res =>
      cases res with
      | error e =>
        simp only
        refine ⟨by intro _ _ h; simp at h, ?_⟩
        intro st' e' h; simp at h; obtain ⟨rfl, rfl⟩ := h; exact ⟨_, rfl⟩
      | ok r' =>
        simp only
        have hk := hkey _ _ _ _ hp
        obtain ⟨b', hb', hl⟩ : ∃ b', replaceRoute (before ++ r :: rs) r' = b' ++ rs ∧ b'.length = before.length + 1 := by
          clear ih hp
          induction before with
          | nil => exact ⟨[r'], by simp [replaceRoute, hk.1, hk.2], rfl⟩
          | cons x before ihb =>
            obtain ⟨b', h1, h2⟩ := ihb
            simp only [List.cons_append, replaceRoute]
            split
            · exact ⟨r' :: (before ++ [r]), by simp, by simp⟩
            · exact ⟨x :: b', by rw [h1]; rfl, by simp [h2]⟩
        rw [hb', ← hl]
        obtain ⟨ih1, ih2⟩ := ih b' st1
        constructor
        · intro st' outs h
          cases hpa : parseAll parse st1 rs with
          | mk st2 res2 =>
            rw [hpa] at h
            cases res2 with
            | error e => simp at h
            | ok rs' =>
              simp at h
              obtain ⟨rfl, rfl⟩ := h
              rw [ih1 _ _ hpa, List.foldl_cons, hb']
        · intro st' e h
          cases hpa : parseAll parse st1 rs with
          | mk st2 res2 =>
            rw [hpa] at h
            cases res2 with
            | error e' => simp at h; obtain ⟨rfl, rfl⟩ := h; exact ih2 _ _ hpa
            | ok rs' => simp at h

theorem fold_get (outs l : List Route) (j : Nat) (r : Route) (h : l[j]? = some r) :
    ((∀ k < j, ∀ x, l[k]? = some x → ¬ SameKey x r) →
      (outs.foldl replaceRoute l)[j]? = some (((outs.filter (fun o => o.path = r.path ∧ o.method = r.method)).getLast?).getD r)) ∧
    ((∃ k, k < j ∧ ∃ x, l[k]? = some x ∧ SameKey x r) → (outs.foldl replaceRoute l)[j]? = some r) := by
  induction outs generalizing l r with
  | nil => simp [h]
  | cons o outs ih =>
    rw [List.foldl_cons]
    obtain ⟨g1, g2⟩ := replaceRoute_get l o j r h
    -- the keys of the table do not change
    have keys : ∀ (k : Nat) x, (replaceRoute l o)[k]? = some x → ∃ y, l[k]? = some y ∧ SameKey x y := by
      intro k x hx
      cases hy : l[k]? with
      | none =>
        have := congrArg List.length (replaceRoute_keys l o)
        simp only [List.length_map] at this
        rw [List.getElem?_eq_none_iff] at hy
        rw [List.getElem?_eq_none (by omega)] at hx
        cases hx
      | some y =>
        obtain ⟨x', h1, h2⟩ := replaceRoute_get_key l o y k hy
        rw [hx] at h1
        cases h1
        exact ⟨y, rfl, h2⟩
    have keys' : ∀ (k : Nat) y, l[k]? = some y → ∃ x, (replaceRoute l o)[k]? = some x ∧ SameKey x y :=
      fun k y hy => replaceRoute_get_key l o y k hy
    constructor
    · intro hfirst
      by_cases ho : SameKey r o
      · have hnew := g1 ⟨ho, fun k hk x hx hs => hfirst k hk x hx ⟨hs.1.trans ho.1.symm, hs.2.trans ho.2.symm⟩⟩
        have := (ih _ o hnew).1 (by
          intro k hk x hx hs
          obtain ⟨y, hy, hxy⟩ := keys k x hx
          exact hfirst k hk y hy ⟨hxy.1.symm.trans (hs.1.trans ho.1.symm), hxy.2.symm.trans (hs.2.trans ho.2.symm)⟩)
        rw [this, List.filter_cons, if_pos (by simp [ho.1, ho.2]), ho.1, ho.2]
        cases hq : (outs.filter (fun x => decide (x.path = o.path ∧ x.method = o.method))) with
        | nil => rfl
        | cons q qs => simp [List.getLast?_eq_some_getLast]
      · have hold := g2 (fun hn => ho hn.1)
        have := (ih _ r hold).1 (by
          intro k hk x hx hs
          obtain ⟨y, hy, hxy⟩ := keys k x hx
          exact hfirst k hk y hy ⟨hxy.1.symm.trans hs.1, hxy.2.symm.trans hs.2⟩)
        rw [this, List.filter_cons, if_neg]
        simp only [decide_eq_true_eq]
        exact fun hs => ho ⟨hs.1.symm, hs.2.symm⟩
    · rintro ⟨k, hk, x, hx, hs⟩
      have hold := g2 (fun hn => hn.2 k hk x hx ⟨hs.1.trans hn.1.1, hs.2.trans hn.1.2⟩)
      obtain ⟨x', hx', hxx⟩ := keys' k x hx
      exact (ih _ r hold).2 ⟨k, hk, x', hx', hxx.1.trans hs.1, hxx.2.trans hs.2⟩

/-- C09, exact: for every table, with duplicates or without, `ParseRoutes` analyses every original entry once and in order. Of the entries that share
path and method, the first holds the analysis of the last, and the others stay as they were. The first error ends the analysis. -/
theorem ginParseRoutes_exact {σ : Type} (parse : σ → Route → σ × Except Str Route)
    (hkey : ∀ st r st' r', parse st r = (st', .ok r') → SameKey r' r) (routes : List Route) (st : σ) :
    (∀ st' outs, parseAll parse st routes = (st', .ok outs) → ∃ t, ginParseRoutes parse st routes = (st', t, none) ∧
      ∀ (j : Nat) r, routes[j]? = some r →
        ((∀ k < j, ∀ x, routes[k]? = some x → ¬ SameKey x r) →
          t[j]? = (outs.filter (fun o => o.path = r.path ∧ o.method = r.method)).getLast?) ∧
        ((∃ k, k < j ∧ ∃ x, routes[k]? = some x ∧ SameKey x r) → t[j]? = some r)) ∧
    (∀ st' e, parseAll parse st routes = (st', .error e) → ∃ t, ginParseRoutes parse st routes = (st', t, some e)) := by
  have h := parseRoutesLoop_fold parse hkey [] routes st
  simp only [List.nil_append, List.length_nil] at h
  refine ⟨fun st' outs ho => ⟨_, h.1 st' outs ho, fun j r hr => ?_⟩, h.2⟩
  obtain ⟨f1, f2⟩ := fold_get outs routes j r hr
  refine ⟨fun hfirst => ?_, f2⟩
  rw [f1 hfirst]
  -- the analysis of the entry itself has its key
  have hself : ∃ o ∈ outs, SameKey o r := by
    clear h f1 f2 hfirst
    induction routes generalizing st outs j with
    | nil => simp at hr
    | cons x xs ih =>
      rw [parseAll] at ho
      cases hp : parse st x with
      | mk st1 res =>
        rw [hp] at ho
        cases res with
        | error e => simp at ho
        | ok x' =>
          simp only at ho
          cases hpa : parseAll parse st1 xs with
          | mk st2 res2 =>
            rw [hpa] at ho
            cases res2 with
            | error e => simp at ho
            | ok xs' =>
              simp at ho
              obtain ⟨rfl, rfl⟩ := ho
              cases j with
              | zero =>
                simp at hr
                subst hr
                exact ⟨x', by simp, hkey _ _ _ _ hp⟩
              | succ j =>
                obtain ⟨o, hm, hs⟩ := ih st1 xs' hpa j (by simpa using hr)
                exact ⟨o, by simp [hm], hs⟩
  obtain ⟨o, hm, hs⟩ := hself
  cases hl : (outs.filter (fun o => decide (o.path = r.path ∧ o.method = r.method))).getLast? with
  | none =>
    rw [List.getLast?_eq_none_iff, List.filter_eq_nil_iff] at hl
    exact absurd (by simpa using And.intro hs.1 hs.2) (hl o hm)
  | some q => rfl

/-- A table in which the first path is registered twice, with different handlers: the handler of the second is documented in the first entry. -/
example : ((ginParseRoutes (fun (n : Nat) r => (n + 1, .ok { r with doc := c!"by " ++ r.handler })) 0
    [{ path := c!"/a", method := c!"GET", handler := c!"f" }, { path := c!"/b", method := c!"GET", handler := c!"g" },
      { path := c!"/a", method := c!"GET", handler := c!"h" }]).2.1).map (·.doc) = [c!"by h", c!"by g", []] := by decide

end Astra.Props
