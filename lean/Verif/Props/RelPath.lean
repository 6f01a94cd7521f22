/-
C103: the file recorded for a route is the file of its handler.
-/
import Verif.Model.RelPath
import Verif.Model.Routes
import Verif.Lemmas.GoPathClean
import Verif.Spec.MainPackage
import Verif.Spec.EndToEnd

namespace Astra.Props
open Spec

theorem dropCommon_spec (b t : List Str) : ∃ c, b = c ++ (dropCommon b t).1 ∧ t = c ++ (dropCommon b t).2 := by
  induction b generalizing t with
  | nil => exact ⟨[], by simp [dropCommon], by simp [dropCommon]⟩
  | cons x xs ih =>
    cases t with
    | nil => exact ⟨[], by simp [dropCommon], by simp [dropCommon]⟩
    | cons y ys =>
      rw [dropCommon]
      split
      · rename_i e
        subst e
        obtain ⟨c, h1, h2⟩ := ih ys
        exact ⟨x :: c, by rw [List.cons_append, ← h1], by rw [List.cons_append, ← h2]⟩
      · exact ⟨[], rfl, rfl⟩

theorem walk_up (base : FPath) (b : List Str) : walk (base ++ b) (b.map (fun _ => c!"..")) = base := by
  have key : ∀ n (b : List Str), b.length = n → walk (base ++ b) (List.replicate n c!"..") = base := by
    intro n
    induction n with
    | zero => intro b hb; rw [List.length_eq_zero_iff.mp hb]; simp [walk]
    | succ n ih =>
      intro b hb
      rcases List.eq_nil_or_concat b with rfl | ⟨b', x, rfl⟩
      · simp at hb
      · rw [List.replicate_succ, walk_cons]
        have : walkStep (base ++ (b'.concat x)) c!".." = base ++ b' := by
          rw [List.concat_eq_append, ← List.append_assoc]
          simp [walkStep]
        rw [this, ih b' (by simpa using hb)]
  rw [List.map_const']
  exact key _ b rfl

theorem cleanSegs_cwd {cwd : FPath} (hc : ∀ x ∈ cwd, FileName x) : cleanSegs ('/' :: join c!"/" cwd) = cwd := by
  rw [← locOf_abs [] (p := '/' :: join c!"/" cwd) rfl]
  show walk [] (segments ('/' :: join c!"/" cwd)) = cwd
  have e : segments ('/' :: join c!"/" cwd) = [] :: segments (join c!"/" cwd) := split_cons_sep '/' _
  rw [e, walk_cons, walkStep_empty]
  by_cases hne : cwd = []
  · subst hne
    simp [segments, split, join, walk, walkStep]
  · rw [segments_join (fun x hx => (hc x hx).2.2.2) hne, walk_plain_segs [] (fun x hx => ⟨(hc x hx).1, (hc x hx).2.1, (hc x hx).2.2.1⟩)]
    rfl

/-- What the library returns for an absolute file, in terms of the elements of the two paths. -/
theorem routeFile_eq {cwd : FPath} (hc : ∀ x ∈ cwd, FileName x) {file : Str} (ha : isAbs file = true) :
    (cleanSegs file = cwd ∧ routeFile cwd file = .ok c!".") ∨
    ∃ c b t, cwd = c ++ b ∧ cleanSegs file = c ++ t ∧ b ++ t ≠ [] ∧ routeFile cwd file = .ok (join c!"/" (b.map (fun _ => c!"..") ++ t)) := by
  have hb : isAbs ('/' :: join c!"/" cwd) = true := rfl
  unfold routeFile filepathRel
  by_cases he : pathClean file = pathClean ('/' :: join c!"/" cwd)
  · left
    refine ⟨?_, by rw [if_pos he]⟩
    have := congrArg (locOf []) he
    rw [loc_clean, loc_clean, locOf_abs [] ha, locOf_abs [] hb, cleanSegs_cwd hc] at this
    exact this
  · right
    rw [if_neg he, if_neg (by rw [ha, hb]; simp), cleanSegs_cwd hc]
    obtain ⟨c, h1, h2⟩ := dropCommon_spec cwd (cleanSegs file)
    refine ⟨c, _, _, h1, h2, ?_, rfl⟩
    intro hn
    obtain ⟨n1, n2⟩ := List.append_eq_nil_iff.mp hn
    rw [n1, List.append_nil] at h1
    rw [n2, List.append_nil] at h2
    apply he
    unfold pathClean
    rw [if_pos ha, if_pos hb, cleanSegs_cwd hc, h1, h2]

/-- C103: the file that is recorded for a handler in an absolute file leads from the working directory to the file of the handler. -/
theorem recorded_file_leads_back {cwd : FPath} (hc : ∀ x ∈ cwd, FileName x) {file : Str} (ha : isAbs file = true) :
    ∃ r, routeFile cwd file = .ok r ∧ isAbs r = false ∧ resolve cwd r = resolve cwd file := by
  have hne : file ≠ [] := by rintro rfl; cases ha
  rw [resolve_eq hne, locOf_abs cwd ha]
  have hseg : ∀ x ∈ cleanSegs file, FileName x :=
    fun x hx => ⟨(cleanSegs_mem file x hx).1, (cleanSegs_mem file x hx).2.1, cleanSegs_no_dots ha x hx, (cleanSegs_mem file x hx).2.2⟩
  rcases routeFile_eq hc ha with ⟨h1, h2⟩ | ⟨c, b, t, h1, h2, h3, h4⟩
  · refine ⟨_, h2, rfl, ?_⟩
    rw [h1]
    simp [resolve, isAbs, segments, split, walk, walkStep]
  · have ht : ∀ x ∈ t, FileName x := fun x hx => hseg x (by rw [h2]; exact List.mem_append_right _ hx)
    have hl : b.map (fun _ => c!"..") ++ t ≠ [] := by
      intro e
      obtain ⟨e1, e2⟩ := List.append_eq_nil_iff.mp e
      exact h3 (by rw [List.map_eq_nil_iff.mp e1, e2]; rfl)
    have hs : ∀ x ∈ b.map (fun _ => c!"..") ++ t, '/' ∉ x ∧ x ≠ [] := by
      intro x hx
      rcases List.mem_append.mp hx with hx | hx
      · obtain ⟨_, _, rfl⟩ := List.mem_map.mp hx
        decide
      · exact ⟨(ht x hx).2.2.2, (ht x hx).1⟩
    have hsegs := segments_join (fun x hx => (hs x hx).1) hl
    have habs : isAbs (join c!"/" (b.map (fun _ => c!"..") ++ t)) = false := by
      generalize hr : join c!"/" (b.map (fun _ => c!"..") ++ t) = r at hsegs
      cases r with
      | nil => rfl
      | cons a r =>
        by_cases e : a = '/'
        · subst e
          have : segments ('/' :: r) = [] :: segments r := split_cons_sep '/' _
          rw [this] at hsegs
          exact absurd rfl (hs [] (by rw [← hsegs]; simp)).2
        · unfold isAbs
          split
          · rename_i h; injection h with h; exact absurd h e
          · rfl
    refine ⟨_, h4, habs, ?_⟩
    have hrne : join c!"/" (b.map (fun _ => c!"..") ++ t) ≠ [] := by
      intro e
      rw [e] at hsegs
      have : ([] : Str) ∈ b.map (fun _ => c!"..") ++ t := by rw [← hsegs]; decide
      exact (hs _ this).2 rfl
    rw [resolve_eq hrne]
    unfold locOf baseOf
    rw [habs, if_neg (by simp), hsegs, walk_append, h1, walk_up, walk_plain_segs _ (fun x hx => ⟨(ht x hx).1, (ht x hx).2.1, (ht x hx).2.2.1⟩), h2]

/-- The last element of a path that does not end in a slash. -/
theorem pathBase_last {p : Str} {l : List Str} {n : Str} (h : segments p = l ++ [n]) (hn : n ≠ []) : pathBase p = n := by
  unfold pathBase
  rw [h, List.reverse_append]
  by_cases hp : p = []
  · subst hp
    have : segments [] = [[]] := rfl
    rw [this] at h
    cases l with
    | nil => simp at h; exact absurd h hn
    | cons x l => simp at h
  · rw [if_neg hp]
    simp [hn]

theorem segments_file (dir : Str) {n : Str} (hn : '/' ∉ n) : segments (dir ++ '/' :: n) = segments dir ++ [n] := by
  unfold segments
  induction dir with
  | nil =>
    rw [List.nil_append, split_cons_sep, split_eq_singleton hn]
    rfl
  | cons c dir ih =>
    by_cases h : c = '/'
    · subst h
      rw [List.cons_append, split_cons_sep, split_cons_sep, ih]
      rfl
    · rw [List.cons_append]
      simp only [split]
      rw [ih]
      have hne := split_ne_nil '/' dir
      cases hs : split '/' dir with
      | nil => exact absurd hs hne
      | cons x xs => simp [h]

/-- C103: the name of the recorded file is that of the file of the handler, unless the process works inside of that file. -/
theorem recorded_file_name {cwd : FPath} (hc : ∀ x ∈ cwd, FileName x) {dir n r : Str} (ha : isAbs (dir ++ '/' :: n) = true) (hn : FileName n)
    (hout : ∀ q, resolve cwd (dir ++ '/' :: n) = some q → ¬ q <+: cwd) (h : routeFile cwd (dir ++ '/' :: n) = .ok r) :
    pathBase r = n ∧ pathBase (dir ++ '/' :: n) = n := by
  have hsf := segments_file dir hn.2.2.2
  refine ⟨?_, pathBase_last hsf hn.1⟩
  have hlast : ∃ l, cleanSegs (dir ++ '/' :: n) = l ++ [n] := by
    unfold cleanSegs
    rw [hsf, List.foldl_append]
    refine ⟨((segments dir).foldl (cleanStep (isAbs (dir ++ '/' :: n))) []).reverse, ?_⟩
    simp only [List.foldl_cons, List.foldl_nil]
    unfold cleanStep
    rw [if_neg (by rintro (e | e); exact hn.1 e; exact hn.2.1 e), if_neg hn.2.2.1, List.reverse_cons]
  have hseg : ∀ x ∈ cleanSegs (dir ++ '/' :: n), FileName x :=
    fun x hx => ⟨(cleanSegs_mem _ x hx).1, (cleanSegs_mem _ x hx).2.1, cleanSegs_no_dots ha x hx, (cleanSegs_mem _ x hx).2.2⟩
  have hout := hout (cleanSegs (dir ++ '/' :: n)) (by rw [resolve_eq (by simp), locOf_abs cwd ha])
  rcases routeFile_eq hc ha with ⟨h1, _⟩ | ⟨c, b, t, h1, h2, _, h4⟩
  · exact absurd ⟨[], by rw [h1, List.append_nil]⟩ hout
  · rw [h] at h4
    injection h4 with h4
    rcases List.eq_nil_or_concat t with rfl | ⟨t', x, rfl⟩
    · exact absurd ⟨b, by rw [h2, List.append_nil, ← h1]⟩ hout
    · have ht : ∀ y ∈ t'.concat x, FileName y := fun y hy => hseg y (by rw [h2]; exact List.mem_append_right _ hy)
      obtain ⟨l, hl⟩ := hlast
      have hx : x = n := by
        rw [hl, List.concat_eq_append, ← List.append_assoc] at h2
        have := congrArg List.getLast? h2
        simpa using this.symm
      subst hx h4
      apply pathBase_last (l := b.map (fun _ => c!"..") ++ t')
      · rw [segments_join _ (by simp), List.concat_eq_append, List.append_assoc]
        intro y hy
        rcases List.mem_append.mp hy with hy | hy
        · obtain ⟨_, _, rfl⟩ := List.mem_map.mp hy
          decide
        · exact (ht y hy).2.2.2
      · exact hn.1

/-- C103: the analysis of a route opens the file of its package that has the name of the handler's file (for package `main`, whose files are copied, the
copy): names are distinct in a package. -/
theorem handler_file_opened {cwd : FPath} (hc : ∀ x ∈ cwd, FileName x) {i : RouteInfo} {route : Route} (hr : Found (routeFile cwd) i route) {dir n : Str}
    (hi : i.file = dir ++ '/' :: n) (ha : isAbs i.file = true) (hn : FileName n) (hout : ∀ q, resolve cwd i.file = some q → ¬ q <+: cwd)
    {F : Type} (files : List (Str × F)) (hdist : (files.map (fun f => pathBase f.1)).Nodup) :
    (∀ d f, (d ++ '/' :: n, f) ∈ files → findFile files route.file = some f) ∧
    ((∀ g ∈ files, pathBase g.1 ≠ n) → findFile files route.file = none) := by
  obtain ⟨r, h1, rfl⟩ := hr
  rw [hi] at h1 ha hout
  obtain ⟨hb, _⟩ := recorded_file_name hc ha hn hout h1
  unfold findFile
  simp only [hb]
  constructor
  · intro d f hf
    have hf1 : pathBase (d ++ '/' :: n) = n := pathBase_last (segments_file d hn.2.2.2) hn.1
    clear hi ha hout h1
    induction files with
    | nil => simp at hf
    | cons g files ih =>
      rw [List.find?_cons]
      rcases List.mem_cons.mp hf with rfl | hf
      · simp [hf1]
      · have : pathBase g.1 ≠ n := by
          intro e
          simp only [List.map_cons, List.nodup_cons, List.mem_map, not_exists, not_and] at hdist
          exact hdist.1 _ hf (by rw [hf1, e])
        simp only [this, decide_false]
        exact ih (by simp only [List.map_cons, List.nodup_cons] at hdist; exact hdist.2) hf
  · intro h
    have : files.find? (fun f => decide (pathBase f.1 = n)) = none := by
      rw [List.find?_eq_none]
      intro g hg
      simpa using h g hg
    rw [this]
    rfl

theorem routeFile_relative {cwd : FPath} {file : Str} (h : isAbs file = false) : ∃ e, routeFile cwd file = .error e := by
  unfold routeFile filepathRel
  have hb : isAbs ('/' :: join c!"/" cwd) = true := rfl
  rw [if_neg, if_pos (by rw [h, hb]; simp)]
  · exact ⟨_, rfl⟩
  · intro e
    have := congrArg isAbs e
    rw [isAbs_clean, isAbs_clean, h, hb] at this
    cases this

/-- C103: the routes are created exactly if every handler that no deny option excludes is in a file with an absolute path. (The Go compiler records other paths
with `-trimpath`; then the run fails.) -/
theorem routes_created_iff {cwd : FPath} (hc : ∀ x ∈ cwd, FileName x) (deny : List (Str → Bool)) (infos : List RouteInfo) (rs : List Route) :
    (createRoutes deny (routeFile cwd) infos rs).2 = none ↔ ∀ i ∈ allowed deny infos, isAbs i.file = true := by
  induction infos generalizing rs with
  | nil => simp [createRoutes, allowed]
  | cons i infos ih =>
    rw [createRoutes]
    by_cases hd : deny.any (fun f => f i.path) = true
    · rw [if_pos hd, ih]
      have hx : ∃ f ∈ deny, f i.path = true := List.any_eq_true.mp hd
      unfold allowed
      rw [List.filter_cons, if_neg (by simpa using hx)]
    · rw [if_neg hd]
      have hx : ¬ ∃ f ∈ deny, f i.path = true := fun h => hd (List.any_eq_true.mpr h)
      have hall : allowed deny (i :: infos) = i :: allowed deny infos := by
        unfold allowed
        rw [List.filter_cons, if_pos (by simpa using hx)]
      rw [hall]
      cases ha : isAbs i.file with
      | true =>
        obtain ⟨r, hr, _, _⟩ := recorded_file_leads_back hc ha
        rw [hr]
        simp only
        rw [ih]
        simp [ha]
      | false =>
        obtain ⟨e, he⟩ := routeFile_relative (cwd := cwd) ha
        rw [he]
        simp [ha]

/-- Non-vacuity: a handler below the working directory, one beside it and the file of a copied main package. -/
example : routeFile [c!"home", c!"me", c!"app"] c!"/home/me/app/routes/users.go" = .ok c!"routes/users.go" ∧
    routeFile [c!"home", c!"me", c!"app"] c!"/home/me/lib/../shop/users.go" = .ok c!"../shop/users.go" ∧
    findFile [(c!"/home/me/app/.astra/astramain/main.go", 1), (c!"/home/me/app/.astra/astramain/x.go", 2)] c!"x.go" = some 2 := ⟨by rfl, by rfl, by decide +kernel⟩

example : ∃ e, routeFile [c!"app"] c!"example.com/app/main.go" = .error e := routeFile_relative rfl

example : let i : RouteInfo := { method := c!"GET", path := c!"/a", handler := c!"main.A", file := c!"/w/main.go", line := 3 }
    Found (routeFile [c!"w"]) i { handler := c!"main.A", file := c!"main.go", lineNo := 3, path := c!"/a", method := c!"GET" } ∧
    (∀ q, resolve [c!"w"] i.file = some q → ¬ q <+: [c!"w"]) := by
  refine ⟨⟨c!"main.go", by rfl, rfl⟩, ?_⟩
  intro q hq
  have : resolve [c!"w"] c!"/w/main.go" = some [c!"w", c!"main.go"] := by decide
  rw [this] at hq
  injection hq with hq
  subst hq
  decide

end Astra.Props
