/-
Every call keeps a file tree a file tree.
-/
import Verif.Spec.Dirs
import Verif.Lemmas.Steps
import Verif.Lemmas.GoPathClean

namespace Astra
open Spec

theorem FS.look_nil (fs : FS) : fs.look [] = some .dir := by simp [FS.look]

theorem dropLast_prefix' (q : FPath) : q.dropLast <+: q := List.dropLast_prefix q

theorem prefix_dropLast {a q : FPath} (h : a <+: q) (hne : a ≠ q) : a <+: q.dropLast := by
  obtain ⟨t, rfl⟩ := h
  have ht : t ≠ [] := by rintro rfl; simp at hne
  rw [List.dropLast_append_of_ne_nil ht]
  exact List.prefix_append _ _

/-- Below an entry that is not a directory there is nothing. -/
theorem Spec.Tree.none_below {fs : FS} (h : Tree fs) {a : FPath} (ha : fs.look a ≠ some .dir) {r : FPath} (hr : a <+: r) (hne : a ≠ r) :
    fs.look r = none := by
  obtain ⟨t, rfl⟩ := hr
  have key : ∀ (n : Nat) (t : FPath), t.length = n + 1 → fs.look (a ++ t) = none := by
    intro n
    induction n with
    | zero =>
      intro t ht
      cases hl : fs.look (a ++ t) with
      | none => rfl
      | some n =>
        have := h (a ++ t) (by rintro e; simp_all) (by rw [hl]; simp)
        rw [List.dropLast_append_of_ne_nil (by rintro rfl; simp at ht), List.length_eq_zero_iff.mp (by rw [List.length_dropLast, ht] : t.dropLast.length = 0),
          List.append_nil] at this
        exact absurd this ha
    | succ n ih =>
      intro t ht
      cases hl : fs.look (a ++ t) with
      | none => rfl
      | some n =>
        have := h (a ++ t) (by rintro e; simp_all) (by rw [hl]; simp)
        rw [List.dropLast_append_of_ne_nil (by rintro rfl; simp at ht), ih t.dropLast (by rw [List.length_dropLast, ht]; rfl)] at this
        cases this
  cases t with
  | nil => simp at hne
  | cons x t => exact key t.length (x :: t) rfl

theorem Spec.Tree.nothing {fs : FS} (h : Tree fs) {a : FPath} (ha : fs.look a = none) : NothingAt fs a := by
  intro r hr
  by_cases e : a = r
  · subst e; exact ha
  · exact h.none_below (by rw [ha]; simp) hr e

theorem Spec.Tree.put {fs : FS} {q : FPath} {n : FNode} (h : Tree fs) (hq : q ≠ []) (hp : fs.look q.dropLast = some .dir)
    (hd : n = .dir ∨ fs.look q ≠ some .dir) : Tree (fs.put q n) := by
  intro r hr hl
  rw [FS.look_put fs hq] at hl ⊢
  have hqq : q.dropLast ≠ q := by
    intro e
    have := congrArg List.length e
    rw [List.length_dropLast] at this
    have : 0 < q.length := List.length_pos_iff.mpr hq
    omega
  by_cases e : r = q
  · subst e
    rw [if_neg hqq]; exact hp
  · rw [if_neg e] at hl
    by_cases e2 : r.dropLast = q
    · rw [if_pos e2]
      have := h r hr hl
      rw [e2] at this
      rcases hd with rfl | hd
      · rfl
      · exact absurd this hd
    · rw [if_neg e2]; exact h r hr hl

theorem Spec.Tree.del {fs : FS} (h : Tree fs) (q : FPath) : Tree (fs.del q) := by
  intro r hr hl
  rw [FS.look_del] at hl ⊢
  split at hl
  · exact absurd rfl hl
  · rename_i hn
    rw [if_neg]
    · exact h r hr hl
    · rintro ⟨h1, h2⟩
      exact hn ⟨h1.trans (dropLast_prefix' r), hr⟩

theorem FS.get_filter_path {fs : FS} {p : FPath} (f : FPath → Bool) : FS.get (fs.filter (fun e => f e.1)) p = if f p then FS.get fs p else none := by
  by_cases h : f p = true
  · rw [if_pos h]
    exact FS.get_filter _ (fun e _ he => by rw [he]; exact h)
  · rw [if_neg h]
    exact FS.get_filter_none _ (fun e _ he => by rw [he]; simpa using h)

theorem FS.get_mem_iff {fs : FS} {p : FPath} : FS.get fs p ≠ none ↔ ∃ e ∈ fs, e.1 = p := by
  constructor
  · intro h
    cases hg : fs.get p with
    | none => exact absurd hg h
    | some n => exact ⟨(p, n), FS.get_some_mem hg, rfl⟩
  · rintro ⟨e, he, rfl⟩
    exact FS.get_ne_none_of_mem he

theorem Spec.Tree.delPart {fs : FS} (h : Tree fs) (keep : FPath → Bool) (p : FPath) : Tree (fs.delPart keep p) := by
  intro r hr hl
  have e : ∀ q, q ≠ [] → (fs.delPart keep p).look q =
      if (!p.isPrefixOf q || fs.any (fun e' => q.isPrefixOf e'.1 && keep e'.1)) then fs.look q else none := by
    intro q hq
    unfold FS.look FS.delPart
    simp only [hq, if_false]
    exact FS.get_filter_path (fun q => !p.isPrefixOf q || fs.any (fun e' => q.isPrefixOf e'.1 && keep e'.1))
  rw [e r hr] at hl
  split at hl
  · rename_i hc
    have hd := h r hr hl
    by_cases h0 : r.dropLast = []
    · rw [h0]; exact FS.look_nil _
    · rw [e _ h0, if_pos]
      · exact hd
      · simp only [Bool.or_eq_true, Bool.not_eq_true', List.any_eq_true, Bool.and_eq_true] at hc ⊢
        rcases hc with hc | ⟨e', he', h1, h2⟩
        · left
          rw [← Bool.not_eq_true, List.isPrefixOf_iff_prefix] at hc ⊢
          exact fun hp => hc (hp.trans (dropLast_prefix' r))
        · right
          refine ⟨e', he', ?_, h2⟩
          rw [List.isPrefixOf_iff_prefix] at h1 ⊢
          exact (dropLast_prefix' r).trans h1
  · exact absurd rfl hl

theorem Spec.Tree.move {fs : FS} (h : Tree fs) {a b : FPath} (ha : a ≠ []) (hb : b ≠ []) (hab : ¬ a <+: b)
    (hp : fs.look b.dropLast = some .dir) : Tree (fs.move a b) := by
  intro r hr hl
  rw [FS.look_move fs ha hb] at hl ⊢
  have hbb : ¬ b <+: b.dropLast := by
    intro hh
    have := hh.length_le
    rw [List.length_dropLast] at this
    have : 0 < b.length := List.length_pos_iff.mpr hb
    omega
  by_cases hbr : b <+: r
  · rw [if_pos hbr] at hl
    by_cases e : b = r
    · subst e
      rw [if_neg hbb, if_neg]
      · exact hp
      · exact fun hh => hab (hh.trans (dropLast_prefix' b))
    · have h1 := prefix_dropLast hbr e
      rw [if_pos h1]
      obtain ⟨t, rfl⟩ := hbr
      have ht : t ≠ [] := by rintro rfl; simp at e
      rw [List.drop_left] at hl
      rw [List.dropLast_append_of_ne_nil ht, List.drop_left, ← List.dropLast_append_of_ne_nil ht]
      exact h (a ++ t) (by simp [ht]) hl
  · rw [if_neg hbr] at hl
    split at hl
    · exact absurd rfl hl
    · rename_i har
      rw [if_neg, if_neg]
      · exact h r hr hl
      · exact fun hh => har (hh.trans (dropLast_prefix' r))
      · exact fun hh => hbr (hh.trans (dropLast_prefix' r))

theorem mkdirs_put_absent (fs : FS) (q : FPath) (qs : List FPath) (h : fs.look q = none) : fs.mkdirs (q :: qs) = (fs.put q .dir).mkdirs qs := by
  simp [FS.mkdirs, h]

theorem mkdirs_present {fs : FS} {q : FPath} {n : FNode} (qs : List FPath) (h : fs.look q = some n) : fs.mkdirs (q :: qs) = fs.mkdirs qs := by
  simp [FS.mkdirs, h]

theorem mkdirs_append (fs : FS) (a b : List FPath) : fs.mkdirs (a ++ b) = (fs.mkdirs a).mkdirs b := by
  induction a generalizing fs with
  | nil => rfl
  | cons q a ih =>
    cases hl : fs.look q with
    | none => rw [List.cons_append, mkdirs_put_absent _ _ _ hl, mkdirs_put_absent _ _ _ hl, ih]
    | some n => rw [List.cons_append, mkdirs_present _ hl, mkdirs_present _ hl, ih]

/-- What `mkdirs` makes of an entry. -/
theorem look_mkdirs (fs : FS) (qs : List FPath) (r : FPath) : (fs.mkdirs qs).look r = if fs.look r = none ∧ r ∈ qs then some .dir else fs.look r := by
  induction qs generalizing fs with
  | nil => simp [FS.mkdirs]
  | cons q qs ih =>
    cases hl : fs.look q with
    | some n =>
      rw [mkdirs_present qs hl, ih]
      by_cases e : r = q
      · subst e; simp [hl]
      · simp [e]
    | none =>
      have hq : q ≠ [] := by rintro rfl; rw [FS.look_nil] at hl; cases hl
      rw [mkdirs_put_absent _ _ qs hl, ih, FS.look_put fs hq]
      by_cases e : r = q
      · subst e; simp [hl]
      · simp [e]

theorem mem_take_ancestors {q r : FPath} {n : Nat} : r ∈ (ancestors q).take n ↔ r <+: q ∧ r.length < n := by
  unfold ancestors
  rw [← List.map_take, List.mem_map]
  constructor
  · rintro ⟨k, hk, rfl⟩
    rw [List.take_range, List.mem_range] at hk
    refine ⟨List.take_prefix _ _, ?_⟩
    rw [List.length_take]
    omega
  · rintro ⟨h1, h2⟩
    refine ⟨r.length, ?_, (List.prefix_iff_eq_take.mp h1).symm⟩
    rw [List.take_range, List.mem_range]
    have := h1.length_le
    omega

theorem mem_ancestors {q r : FPath} : r ∈ ancestors q ↔ r <+: q := by
  have : ancestors q = (ancestors q).take (ancestors q).length := by rw [List.take_length]
  rw [this, mem_take_ancestors]
  constructor
  · exact fun h => h.1
  · intro h
    refine ⟨h, ?_⟩
    have := h.length_le
    simp [ancestors]
    omega

theorem Spec.Tree.mkdirs {fs : FS} (h : Tree fs) (q : FPath) (n : Nat) (hf : (ancestors q).any fs.isFile = false) :
    Tree (fs.mkdirs ((ancestors q).take n)) := by
  intro r hr hl
  rw [look_mkdirs] at hl ⊢
  have hfile : ∀ s, s <+: q → fs.look s = none ∨ fs.look s = some .dir := by
    intro s hs
    have := List.any_eq_false.mp hf s (mem_ancestors.mpr hs)
    cases hl : fs.look s with
    | none => exact Or.inl rfl
    | some n =>
      cases n with
      | dir => exact Or.inr rfl
      | file t => exact absurd (FS.isFile_iff.mpr ⟨t, hl⟩) this
  by_cases hm : fs.look r = none ∧ r ∈ (ancestors q).take n
  · obtain ⟨h1, h2⟩ := hm
    have h2 := mem_take_ancestors.mp h2
    have h3 : r.dropLast <+: q := (dropLast_prefix' r).trans h2.1
    rcases hfile _ h3 with h4 | h4
    · rw [if_pos ⟨h4, mem_take_ancestors.mpr ⟨h3, by rw [List.length_dropLast]; omega⟩⟩]
    · rw [if_neg (by rw [h4]; simp)]; exact h4
  · rw [if_neg hm] at hl
    have := h r hr hl
    rw [if_neg (by rw [this]; simp)]; exact this

/-- All calls keep file trees. -/
theorem closed_tree : ClosedFS Tree where
  mkdir := fun _ _ h h1 _ h3 => h.put h1 h3 (Or.inl rfl)
  create := fun _ _ h h1 h2 h3 => h.put h1 h2 (Or.inr h3)
  write := fun _ q _ h h1 => by
    have hq := FS.isFile_ne_nil h1
    obtain ⟨u, hu⟩ := FS.isFile_iff.mp h1
    exact h.put hq (h q hq (by rw [hu]; simp)) (Or.inr (by rw [hu]; simp))
  mkdirs := fun _ q n h h1 => h.mkdirs q n h1
  del := fun _ q h => h.del q
  delPart := fun _ q keep h => h.delPart keep q
  move := fun _ a b h _ h2 h3 h4 => h.move (by rintro rfl; exact h3 (List.nil_prefix)) h2 h3 h4

/-! ### The directories of a service -/

theorem dirAt_iff {cwd : FPath} {p : Str} {d : FPath} : DirAt cwd p d ↔ locOf cwd p = d := by
  unfold DirAt
  by_cases h : p = []
  · subst h
    simp [resolve, locOf, baseOf, segments, split, isAbs, walk, walkStep]
    exact eq_comm
  · rw [resolve_eq h]
    simp [h]

theorem plain_astra : PlainName astraDir := by constructor <;> decide
theorem plain_main : PlainName mainReplacement := by constructor <;> decide
theorem plain_gitignore : PlainName c!".gitignore" := by constructor <;> decide
theorem plain_azure : PlainName azureTemp := by constructor <;> decide
theorem plain_cacheFile : PlainName cacheFileName := by constructor <;> decide
theorem plain_function : PlainName azureFile := by constructor <;> decide

theorem resolve_astra (cwd : FPath) (s : Service) : resolve cwd (astraDirPath s) = some (locOf cwd s.workDir ++ [c!".astra"]) := by
  obtain ⟨h1, h2⟩ := loc_join_plain cwd s.workDir plain_astra
  unfold astraDirPath
  rw [resolve_eq h1, h2]; rfl

theorem astra_ne_nil (s : Service) : astraDirPath s ≠ [] := (loc_join_plain [] s.workDir plain_astra).1

theorem loc_astra (cwd : FPath) (s : Service) : locOf cwd (astraDirPath s) = locOf cwd s.workDir ++ [c!".astra"] :=
  (loc_join_plain cwd s.workDir plain_astra).2

theorem resolve_in_astra (cwd : FPath) (s : Service) {n : Str} (h : PlainName n) :
    resolve cwd (pathJoin [astraDirPath s, n]) = some (locOf cwd s.workDir ++ [c!".astra", n]) := by
  obtain ⟨h1, h2⟩ := loc_join_plain cwd (astraDirPath s) h
  rw [resolve_eq h1, h2, loc_astra]; simp

/-- A path that denotes another place than the current directory is not ".". -/
theorem ne_dot_of_plain (a : Str) {n : Str} (h : PlainName n) : pathJoin [a, n] ≠ c!"." := by
  intro e
  have h2 := (loc_join_plain [] a h).2
  rw [e] at h2
  have : locOf [] c!"." = [] := by decide
  rw [this] at h2
  simp at h2

end Astra
