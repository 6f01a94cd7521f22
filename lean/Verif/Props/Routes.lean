/-
C01, C08, C09: the route table.
-/
import Verif.Model.Routes

namespace Astra.Props

/-! ### C01: deny list -/

/-- C01: if no file system error occurs the table grows by exactly the undenied router routes, in order. -/
theorem createRoutes_exact (deny : List (Str → Bool)) (relPath : Str → Str) (infos : List RouteInfo)
    (before : List Route) :
    createRoutes deny (fun f => .ok (relPath f)) infos before =
      (before ++ (infos.filter (fun i => ¬ ∃ f ∈ deny, f i.path = true)).map (fun i =>
        ({ handler := i.handler, file := relPath i.file, lineNo := i.line, path := i.path, method := i.method } : Route)),
       none) := by
  induction infos generalizing before with
  | nil => simp [createRoutes]
  | cons i infos ih =>
    simp only [createRoutes]
    by_cases h : deny.any (fun f => f i.path) = true
    · rw [if_pos h, ih, List.filter_cons_of_neg]
      simpa using h
    · rw [if_neg h, ih, List.filter_cons_of_pos]
      · simp [addRoute, baseRoute]
      · simpa using h

/-- C01: even when the run stops with an error, the old routes are kept and no denied path is added. -/
theorem createRoutes_never_denied (deny : List (Str → Bool)) (rel : Str → Except Str Str) (infos : List RouteInfo)
    (before : List Route) :
    ∃ added, (createRoutes deny rel infos before).1 = before ++ added ∧
      ∀ r ∈ added, (∀ f ∈ deny, f r.path = false) ∧ ∃ i ∈ infos, i.path = r.path ∧ i.method = r.method ∧ i.handler = r.handler := by
  induction infos generalizing before with
  | nil => exact ⟨[], by simp [createRoutes]⟩
  | cons i infos ih =>
    simp only [createRoutes]
    by_cases h : deny.any (fun f => f i.path) = true
    · rw [if_pos h]
      obtain ⟨added, h1, h2⟩ := ih before
      exact ⟨added, h1, fun r hr => ⟨(h2 r hr).1, by
        obtain ⟨j, hj, e⟩ := (h2 r hr).2; exact ⟨j, by simp [hj], e⟩⟩⟩
    · rw [if_neg h]
      cases hrel : rel i.file with
      | error e => exact ⟨[], by simp⟩
      | ok rp =>
        obtain ⟨added, h1, h2⟩ := ih (addRoute before (baseRoute i rp))
        refine ⟨baseRoute i rp :: added, by simp only [h1]; simp [addRoute], ?_⟩
        intro r hr
        simp only [List.mem_cons] at hr
        rcases hr with e | hr
        · subst e
          refine ⟨?_, i, by simp, rfl, rfl, rfl⟩
          simpa [baseRoute] using h
        · exact ⟨(h2 r hr).1, by obtain ⟨j, hj, e⟩ := (h2 r hr).2; exact ⟨j, by simp [hj], e⟩⟩

/-- C01: a path denied by an exact-match option never gets into the table, whatever the other options. -/
theorem denied_path_absent (opts : List DenyOption) (p : Str) (h : .exact p ∈ opts) (rel : Str → Except Str Str)
    (infos : List RouteInfo) :
    ∀ r ∈ (createRoutes (opts.map DenyOption.pred) rel infos []).1, r.path ≠ p := by
  obtain ⟨added, h1, h2⟩ := createRoutes_never_denied (opts.map DenyOption.pred) rel infos []
  intro r hr e
  rw [h1] at hr
  have := (h2 r (by simpa using hr)).1 _ (List.mem_map.mpr ⟨_, h, rfl⟩)
  simp [DenyOption.pred, e] at this

example : (createRoutes [DenyOption.pred (.exact c!"/a")] (fun f => .ok f)
    [⟨c!"GET", c!"/a", c!"m.h", c!"f.go", 1⟩, ⟨c!"GET", c!"/b", c!"m.h", c!"f.go", 1⟩] []).1.map (·.path) = [c!"/b"] := by
  decide

/-! ### C08: ReplaceRoute -/

/-- Two routes with the same table key. -/
def SameKey (a b : Route) : Prop := a.path = b.path ∧ a.method = b.method

instance (a b : Route) : Decidable (SameKey a b) := by unfold SameKey; infer_instance

/-- C08: without a matching route nothing changes. -/
theorem replaceRoute_absent (routes : List Route) (route : Route) (h : ∀ r ∈ routes, ¬ SameKey r route) :
    replaceRoute routes route = routes := by
  induction routes with
  | nil => rfl
  | cons r rs ih =>
    simp only [replaceRoute]
    rw [if_neg (show ¬ (r.path = route.path ∧ r.method = route.method) from h r (by simp)),
      ih (fun x hx => h x (by simp [hx]))]

/-- C08: the first matching route is overwritten; everything before and after it is unchanged. -/
theorem replaceRoute_first (pre post : List Route) (old route : Route) (hk : SameKey old route)
    (h : ∀ r ∈ pre, ¬ SameKey r route) :
    replaceRoute (pre ++ old :: post) route = pre ++ route :: post := by
  induction pre with
  | nil => simp only [List.nil_append, replaceRoute]; exact if_pos hk
  | cons r rs ih =>
    simp only [List.cons_append, replaceRoute]
    rw [if_neg (show ¬ (r.path = route.path ∧ r.method = route.method) from h r (by simp)),
      ih (fun x hx => h x (by simp [hx]))]

/-- C08: the length and the keys of the table never change. -/
theorem replaceRoute_keys (routes : List Route) (route : Route) :
    (replaceRoute routes route).map (fun r => (r.path, r.method)) = routes.map (fun r => (r.path, r.method)) := by
  induction routes with
  | nil => rfl
  | cons r rs ih =>
    simp only [replaceRoute]
    split
    · rename_i h; simp [h.1, h.2]
    · simp [ih]

/-- C08: `AddRoute` appends. -/
theorem addRoute_appends (routes : List Route) (route : Route) : addRoute routes route = routes ++ [route] := rfl

example : (replaceRoute [{ path := c!"/a", method := c!"GET" }, { path := c!"/b", method := c!"GET" }]
    { path := c!"/b", method := c!"GET", doc := c!"d" }).map (·.doc) = [[], c!"d"] := by decide

/-! ### C09: every route is analysed into its own slot -/

/-- Specification: analyse the routes one after the other, threading the shared state; stop at the first error. -/
def parseAll {σ : Type} (parse : σ → Route → σ × Except Str Route) : σ → List Route → σ × Except Str (List Route)
  | st, [] => (st, .ok [])
  | st, r :: rs =>
    match parse st r with
    | (st', .error e) => (st', .error e)
    | (st', .ok r') =>
      match parseAll parse st' rs with
      | (st'', .error e) => (st'', .error e)
      | (st'', .ok rs') => (st'', .ok (r' :: rs'))

theorem parseRoutesLoop_spec {σ : Type} (parse : σ → Route → σ × Except Str Route)
    (hkey : ∀ st r st' r', parse st r = (st', .ok r') → SameKey r' r)
    (done rest : List Route) (st : σ)
    (hnd : ((done ++ rest).map (fun r => (r.path, r.method))).Nodup) :
    (∀ st' rest', parseAll parse st rest = (st', .ok rest') →
      parseRoutesLoop parse rest.length done.length st (done ++ rest) = (st', done ++ rest', none)) ∧
    (∀ st' e, parseAll parse st rest = (st', .error e) →
      ∃ t, parseRoutesLoop parse rest.length done.length st (done ++ rest) = (st', t, some e)) := by
  induction rest generalizing done st with
  | nil => simp [parseAll, parseRoutesLoop]
  | cons r rs ih =>
    simp only [List.length_cons, parseRoutesLoop, parseAll]
    have hget : (done ++ r :: rs)[done.length]? = some r := by simp
    rw [hget]
    simp only
    cases hp : parse st r with
    | mk st1 res =>
      cases res with
      | error e =>
        simp only
        refine ⟨by intro _ _ h; simp at h, ?_⟩
        intro st' e' h; simp at h; obtain ⟨rfl, rfl⟩ := h; exact ⟨_, rfl⟩
      | ok r' =>
        simp only
        have hk := hkey _ _ _ _ hp
        have hrep : replaceRoute (done ++ r :: rs) r' = (done ++ [r']) ++ rs := by
          rw [replaceRoute_first done rs r r' ⟨hk.1.symm, hk.2.symm⟩]
          · simp
          · intro x hx hsx
            simp only [List.map_append, List.map_cons, List.nodup_append] at hnd
            exact hnd.2.2 (x.path, x.method) (List.mem_map.mpr ⟨x, hx, rfl⟩) (r.path, r.method) (by simp)
              (by rw [hsx.1, hsx.2, hk.1, hk.2])
        have hlen : done.length + 1 = (done ++ [r']).length := by simp
        rw [hrep, hlen]
        have hnd' : (((done ++ [r']) ++ rs).map (fun r => (r.path, r.method))).Nodup := by
          simp only [List.map_append, List.map_cons, List.append_assoc, List.singleton_append, hk.1, hk.2] at hnd ⊢
          exact hnd
        obtain ⟨ih1, ih2⟩ := ih (done ++ [r']) st1 hnd'
        constructor
        · intro st' rest' h
          cases hpa : parseAll parse st1 rs with
          | mk st2 res2 =>
            rw [hpa] at h
            cases res2 with
            | error e => simp at h
            | ok rs' =>
              simp at h
              obtain ⟨rfl, rfl⟩ := h
              rw [ih1 _ _ hpa]; simp
        · intro st' e h
          cases hpa : parseAll parse st1 rs with
          | mk st2 res2 =>
            rw [hpa] at h
            cases res2 with
            | error e' => simp at h; obtain ⟨rfl, rfl⟩ := h; exact ih2 _ _ hpa
            | ok rs' => simp at h

/-- C09, partial: if no two routes share path and method and the analysis of a route keeps its path and method, then
`ParseRoutes` leaves entry `i` equal to the analysis of the original entry `i`, for all `i`, and reports no error; if the
analysis of some route fails the first such error is returned. Missing: tables with duplicate keys (false, see below). -/
theorem ginParseRoutes_correct_partial {σ : Type} (parse : σ → Route → σ × Except Str Route)
    (hkey : ∀ st r st' r', parse st r = (st', .ok r') → SameKey r' r)
    (routes : List Route) (hnd : (routes.map (fun r => (r.path, r.method))).Nodup) (st : σ) :
    (∀ st' out, parseAll parse st routes = (st', .ok out) → ginParseRoutes parse st routes = (st', out, none)) ∧
    (∀ st' e, parseAll parse st routes = (st', .error e) → ∃ t, ginParseRoutes parse st routes = (st', t, some e)) := by
  have := parseRoutesLoop_spec parse hkey [] routes st (by simpa using hnd)
  simpa [ginParseRoutes] using this

/-- C09: the table keeps its length and keys in every case, duplicates and errors included. -/
theorem ginParseRoutes_keys {σ : Type} (parse : σ → Route → σ × Except Str Route) (st : σ) (routes : List Route) :
    (ginParseRoutes parse st routes).2.1.map (fun r => (r.path, r.method)) = routes.map (fun r => (r.path, r.method)) := by
  unfold ginParseRoutes
  generalize routes.length = n
  generalize 0 = i
  induction n generalizing i st routes with
  | zero => rfl
  | succ n ih =>
    simp only [parseRoutesLoop]
    split
    · rfl
    · split
      · rfl
      · rw [ih, replaceRoute_keys]

theorem replaceRoute_get_dup (routes : List Route) (route : Route) (i j : Nat) (hij : j < i) (ri rj : Route)
    (hi : routes[i]? = some ri) (hj : routes[j]? = some rj) (hk : SameKey rj ri) :
    (replaceRoute routes route)[i]? = some ri := by
  induction routes generalizing i j with
  | nil => simp at hi
  | cons r rs ih =>
    cases i with
    | zero => omega
    | succ i =>
      simp only [replaceRoute]
      split
      · simpa using hi
      · cases j with
        | zero =>
          rename_i hne
          simp at hj; subst hj
          simp at hi
          -- the first element has the key of `ri` but not of `route`, so `ri` is not the target either
          have hri : ¬ SameKey ri route := fun h => hne ⟨hk.1.trans h.1, hk.2.trans h.2⟩
          have key : ∀ (l : List Route) (k : Nat), l[k]? = some ri → (replaceRoute l route)[k]? = some ri := by
            intro l
            induction l with
            | nil => intro k h; simp at h
            | cons x l ih2 =>
              intro k h
              simp only [replaceRoute]
              split
              · rename_i hx
                cases k with
                | zero => simp at h; subst h; exact absurd hx hri
                | succ k => simpa using h
              · cases k with
                | zero => simpa using h
                | succ k => simp at h ⊢; exact ih2 k h
          simp; exact key rs i hi
        | succ j =>
          simp at hi hj ⊢
          exact ih i j (by omega) hi hj

theorem replaceRoute_get_key (routes : List Route) (route rj : Route) (j : Nat) (hj : routes[j]? = some rj) :
    ∃ r, (replaceRoute routes route)[j]? = some r ∧ SameKey r rj := by
  have h := replaceRoute_keys routes route
  have h1 := congrArg (fun l => l[j]?) h
  simp only [List.getElem?_map, hj, Option.map_some] at h1
  cases hr : (replaceRoute routes route)[j]? with
  | none => rw [hr] at h1; simp at h1
  | some r =>
    rw [hr] at h1; simp at h1
    exact ⟨r, rfl, h1.1, h1.2⟩

/-- C09 fails for duplicates, in general form: a route that shares path and method with an earlier one is never filled
in: its entry is the unanalysed original whatever the analysis returns. -/
theorem ginParseRoutes_duplicate_unparsed {σ : Type} (parse : σ → Route → σ × Except Str Route) (st : σ)
    (routes : List Route) (i j : Nat) (hij : j < i) (ri rj : Route)
    (hi : routes[i]? = some ri) (hj : routes[j]? = some rj) (hk : SameKey rj ri) :
    (ginParseRoutes parse st routes).2.1[i]? = some ri := by
  unfold ginParseRoutes
  generalize routes.length = n
  generalize 0 = k
  induction n generalizing k st routes rj with
  | zero => exact hi
  | succ n ih =>
    simp only [parseRoutesLoop]
    split
    · exact hi
    · split
      · exact hi
      · rename_i r' _
        obtain ⟨rj', h1, h2⟩ := replaceRoute_get_key routes r' rj j hj
        exact ih _ _ rj' (replaceRoute_get_dup routes r' i j hij ri rj hi hj hk) h1 ⟨h2.1.trans hk.1, h2.2.trans hk.2⟩ _

example : ((ginParseRoutes (fun (st : Unit) r => (st, .ok { r with doc := c!"parsed" })) ()
    [{ path := c!"/a", method := c!"GET" }, { path := c!"/b", method := c!"GET" }]).2.1).map (·.doc)
      = [c!"parsed", c!"parsed"] := by decide

/-- C09 is false for duplicates (concrete witness): the second registration of the same path and method stays empty. -/
theorem ginParseRoutes_duplicate_witness :
    ((ginParseRoutes (fun (st : Unit) r => (st, .ok { r with doc := c!"parsed" })) ()
      [{ path := c!"/a", method := c!"GET" }, { path := c!"/a", method := c!"GET" }]).2.1).map (·.doc)
        = [c!"parsed", []] := by decide

end Astra.Props
