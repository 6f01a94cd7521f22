/-
C43: the temporary main package.
-/
import Verif.Spec.MainPackage
import Verif.Props.Dirs

namespace Astra.Props
open Spec Run

/-! ### Texts -/

theorem replaceAllAux_skip (old new : Str) (n : Nat) (s : Str) : replaceAllAux old new n s = replaceAllAux old new 0 (s.drop n) := by
  induction n generalizing s with
  | zero => rfl
  | succ n ih =>
    cases s with
    | nil => simp [replaceAllAux]
    | cons c cs => rw [List.drop_succ_cons, replaceAllAux, ih]

theorem replaceAllAux_none {old new : Str} {s : Str} (h : ¬ old <:+: s) : replaceAllAux old new 0 s = s := by
  induction s with
  | nil => rfl
  | cons c cs ih =>
    rw [replaceAllAux]
    have h1 : hasPrefix (c :: cs) old = false := by
      rw [← Bool.not_eq_true, hasPrefix_iff]
      exact fun hp => h hp.isInfix
    simp only [h1, Bool.false_eq_true, if_false]
    rw [ih (fun hi => h (List.infix_cons hi))]

/-- `strings.ReplaceAll` where the old text occurs in one place only. -/
theorem replaceAll_unique {old new pre post : Str} (hold : old ≠ []) (h : ∀ a b, pre ++ old ++ post = a ++ old ++ b → a = pre) :
    replaceAll (pre ++ old ++ post) old new = pre ++ new ++ post := by
  unfold replaceAll
  induction pre with
  | nil =>
    cases old with
    | nil => exact absurd rfl hold
    | cons c cs =>
      simp only [List.nil_append, List.cons_append]
      rw [replaceAllAux]
      have h1 : hasPrefix (c :: (cs ++ post)) (c :: cs) = true := by rw [hasPrefix_iff]; exact ⟨post, rfl⟩
      simp only [h1, if_true]
      rw [replaceAllAux_skip]
      have : (cs ++ post).drop ((c :: cs).length - 1) = post := by simp
      rw [this, replaceAllAux_none]
      rintro ⟨a, b, hab⟩
      have := h (c :: cs ++ a) b (by simp [← hab])
      simp at this
  | cons p ps ih =>
    have hp : hasPrefix (p :: (ps ++ old ++ post)) old = false := by
      rw [← Bool.not_eq_true, hasPrefix_iff]
      rintro ⟨b, hb⟩
      have := h [] b (by simpa using hb.symm)
      simp at this
    simp only [List.cons_append]
    rw [replaceAllAux]
    simp only [hp, Bool.false_eq_true, if_false]
    rw [ih]
    intro a b hab
    have := h (p :: a) b (by simp [← hab])
    exact (List.cons.inj this).2

/-- C43: a source text in which "package main" occurs once is copied with exactly this clause renamed. -/
theorem renamed_once (pre post : Str) (h : ∀ a b, pre ++ c!"package main" ++ post = a ++ c!"package main" ++ b → a = pre) :
    renamePackage (pre ++ c!"package main" ++ post) = pre ++ c!"package astramain" ++ post :=
  replaceAll_unique (by decide) h

/-- C43: a source text without "package main" is copied as it is. -/
theorem renamed_never (text : Str) (h : ¬ c!"package main" <:+: text) : renamePackage text = text := replaceAllAux_none h

/-- C43: the module path of a go.mod file that begins with its module line. -/
theorem module_line (m rest : Str) (h : '\n' ∉ m) : modulePath (c!"module " ++ m ++ '\n' :: rest) = m := by
  have e : split '\n' (c!"module " ++ m ++ '\n' :: rest) = (c!"module " ++ m) :: split '\n' rest :=
    split_append_sep (by simp only [List.mem_append]; rintro (h1 | h1); exact absurd h1 (by decide); exact h h1) rest
  unfold modulePath
  rw [e]
  simp only [List.headD_cons]
  show replaceFirst ('m' :: (c!"odule " ++ m)) c!"module " [] = m
  rw [replaceFirst]
  have : hasPrefix ('m' :: (c!"odule " ++ m)) c!"module " = true := by rw [hasPrefix_iff]; exact ⟨m, rfl⟩
  rw [if_pos this]
  rfl

theorem fileName_plain {n : Str} (h : FileName n) : PlainName n := ⟨h.1, h.2.1, h.2.2.1, h.2.2.2⟩

/-- Cleaning does not change a path of plain names. -/
theorem pathClean_plain {l : List Str} (hne : l ≠ []) (h : ∀ x ∈ l, FileName x) : pathClean (join c!"/" l) = join c!"/" l := by
  have habs : isAbs (join c!"/" l) = false := isAbs_join (fun x hx => ⟨(h x hx).1, (h x hx).2.2.2⟩)
  have hseg : segments (join c!"/" l) = l := segments_join (fun x hx => (h x hx).2.2.2) hne
  have key : ∀ (l acc : List Str), (∀ x ∈ l, FileName x) → l.foldl (cleanStep false) acc = l.reverse ++ acc := by
    intro l
    induction l with
    | nil => intro acc _; rfl
    | cons x xs ih =>
      intro acc hx
      have h1 := hx x (by simp)
      rw [List.foldl_cons, ih _ (fun y hy => hx y (by simp [hy]))]
      simp [cleanStep, h1.1, h1.2.1, h1.2.2.1]
  have hc : cleanSegs (join c!"/" l) = l := by
    unfold cleanSegs
    rw [habs, hseg, key l [] h]
    simp
  unfold pathClean
  rw [habs, hc]
  simp [hne]

/-- C43: the import path of the temporary package. -/
theorem temp_import_path (m : Str) (h : ModulePath m) : pathJoin [m, mainReplacementPath] = m ++ c!"/.astra/astramain" := by
  have hm : m ≠ [] := by
    rintro rfl
    exact (h [] (by simp [split])).1 rfl
  have e : join c!"/" (split '/' m ++ [c!".astra", c!"astramain"]) = m ++ c!"/.astra/astramain" := by
    have hs : ∀ x ∈ split '/' m ++ [c!".astra", c!"astramain"], '/' ∉ x := by
      intro x hx
      rcases List.mem_append.mp hx with hx | hx
      · exact split_no_sep x hx
      · exact (by decide : ∀ x ∈ [c!".astra", c!"astramain"], '/' ∉ x) x hx
    apply split_inj (sep := '/')
    rw [split_join (by simp) hs]
    have : m ++ c!"/.astra/astramain" = m ++ '/' :: c!".astra/astramain" := rfl
    rw [this, split_append]
    congr 1
  have hj : pathJoin [m, mainReplacementPath] = pathClean (m ++ c!"/.astra/astramain") := by
    unfold pathJoin
    simp only [List.filter_cons, List.filter_nil]
    have h1 : (!m.isEmpty) = true := by cases m with | nil => exact absurd rfl hm | cons _ _ => rfl
    have h2 : (!mainReplacementPath.isEmpty) = true := rfl
    simp only [h1, h2, if_true]
    rw [if_neg (by simp)]
    congr 1
    simp [join, mainReplacementPath, mainReplacement, astraDir]
  rw [hj, ← e]
  apply pathClean_plain (by simp)
  intro x hx
  rcases List.mem_append.mp hx with hx | hx
  · exact h x hx
  · have : ∀ x ∈ [c!".astra", c!"astramain"], x ≠ [] ∧ x ≠ c!"." ∧ x ≠ c!".." ∧ '/' ∉ x := by decide
    exact this x hx

/-! ### The directory -/

theorem mem_foldl_names {l : List Str} : ∀ {acc : List (Str × Unit)} {n : Str},
    n ∈ (l.foldl (fun acc n => mset acc n ()) acc).map (·.1) ↔ n ∈ l ∨ n ∈ acc.map (·.1) := by
  have step : ∀ (acc : List (Str × Unit)) (k n : Str), n ∈ (mset acc k ()).map (·.1) ↔ n = k ∨ n ∈ acc.map (·.1) := by
    intro acc k n
    have h1 := mget_isSome_iff (m := mset acc k ()) (k := n)
    have h2 := mget_isSome_iff (m := acc) (k := n)
    unfold mkeys at h1 h2
    rw [← h1, ← h2, mget_mset]
    by_cases e : k = n
    · simp [e]
    · simp [e, Ne.symm e]
  induction l with
  | nil => intro acc n; simp
  | cons k l ih =>
    intro acc n
    rw [List.foldl_cons, ih, step]
    simp only [List.mem_cons]
    constructor
    · rintro (h | h | h)
      · exact Or.inl (Or.inr h)
      · exact Or.inl (Or.inl h)
      · exact Or.inr h
    · rintro ((h | h) | h)
      · exact Or.inr (Or.inl h)
      · exact Or.inl h
      · exact Or.inr (Or.inr h)

/-- The names that `os.ReadDir` lists. -/
theorem mem_children {fs : FS} {d : FPath} {n : Str} : n ∈ fs.children d ↔ fs.look (d ++ [n]) ≠ none := by
  unfold FS.children
  rw [mem_foldl_names, FS.look, if_neg (by simp), FS.get_mem_iff]
  simp only [List.map_nil, List.not_mem_nil, or_false, List.mem_filterMap]
  constructor
  · rintro ⟨e, he, h⟩
    refine ⟨e, he, ?_⟩
    split at h
    · rename_i hd
      rw [← hd]
      have hne : e.1 ≠ [] := by intro h0; rw [h0] at h; simp at h
      rw [List.getLast?_eq_some_getLast hne] at h
      rw [← Option.some.inj h, List.dropLast_concat_getLast]
    · cases h
  · rintro ⟨e, he, h⟩
    refine ⟨e, he, ?_⟩
    rw [h]
    simp

/-- The copy of a directory entry. -/
def copied : FNode → FNode
  | .file t => .file (renamePackage t)
  | .dir => .dir

/-- mainPackage.go:57: the module path after the loop. -/
def lastModule (fs : FS) (d : FPath) : List Str → Str → Str
  | [], acc => acc
  | n :: ns, acc =>
    match hasSuffix n c!".go", hasSuffix n c!".mod", fs.look (d ++ [n]) with
    | false, true, some (.file t) => lastModule fs d ns (modulePath t)
    | _, _, _ => lastModule fs d ns acc

theorem lastModule_congr {fs fs' : FS} {d : FPath} (ns : List Str) (acc : Str) (h : ∀ n, fs'.look (d ++ [n]) = fs.look (d ++ [n])) :
    lastModule fs' d ns acc = lastModule fs d ns acc := by
  induction ns generalizing acc with
  | nil => rfl
  | cons n ns ih =>
    unfold lastModule
    rw [h n]
    split <;> exact ih _

theorem copyMainFiles_ok (wd target : Str) (d g : FPath) (c : FPath) (hd : resolve c wd = some d) (hg : resolve c target = some g)
    (hdg : ∀ m n : Str, d ++ [m] ≠ g ++ [n]) (names : List Str) :
    ∀ (pkg : Str) (w : World Proc), w.cwd = c → w.fs.look g = some .dir → (∀ n, w.fs.look (g ++ [n]) ≠ some .dir) →
      (∀ n ∈ names, (hasSuffix n c!".go" = true ∨ hasSuffix n c!".mod" = true) → PlainName n ∧ ∃ t, w.fs.look (d ++ [n]) = some (.file t)) →
      ∃ w', copyMainFiles wd target names pkg noFaults w = (w', .ok (lastModule w.fs d names pkg)) ∧ w'.cwd = c ∧ w'.st = w.st ∧
        (∀ q, (∀ n ∈ names, hasSuffix n c!".go" = true → q ≠ g ++ [n]) → w'.fs.look q = w.fs.look q) ∧
        (∀ n ∈ names, hasSuffix n c!".go" = true → w'.fs.look (g ++ [n]) = (w.fs.look (d ++ [n])).map copied) := by
  have rd : ∀ {n : Str}, PlainName n → resolve c (pathJoin [wd, n]) = some (d ++ [n]) := by
    intro n hn
    obtain ⟨h1, h2⟩ := loc_join_plain c wd hn
    have hwd : wd ≠ [] := by rintro rfl; simp [resolve] at hd
    rw [resolve_eq h1, h2]
    rw [resolve_eq hwd] at hd
    rw [Option.some.inj hd]
  have rg : ∀ {n : Str}, PlainName n → resolve c (pathJoin [target, n]) = some (g ++ [n]) := by
    intro n hn
    obtain ⟨h1, h2⟩ := loc_join_plain c target hn
    have hwd : target ≠ [] := by rintro rfl; simp [resolve] at hg
    rw [resolve_eq h1, h2]
    rw [resolve_eq hwd] at hg
    rw [Option.some.inj hg]
  induction names with
  | nil => intro pkg w hc _ _ _; exact ⟨w, rfl, hc, rfl, fun _ _ => rfl, fun _ h => absurd h (by simp)⟩
  | cons n names ih =>
    intro pkg w hc hgd hgn hfiles
    unfold copyMainFiles
    by_cases hgo : hasSuffix n c!".go" = true
    · obtain ⟨hpl, t, ht⟩ := hfiles n (by simp) (Or.inl hgo)
      rw [if_pos hgo]
      have hr1 := osReadFile_ok (φ := noFaults) (w := w) rfl (hc ▸ rd hpl) ht
      let w1 : World Proc := { w with clock := w.clock + 1 }
      have hr2 := osWriteFile_ok (φ := noFaults) (w := w1) (c := renamePackage t) rfl rfl (show resolve w1.cwd (pathJoin [target, n]) = _ from hc ▸ rg hpl)
        (by rw [List.dropLast_concat]; exact hgd) (hgn n)
      let w2 : World Proc := { w1 with clock := w1.clock + 2, fs := w1.fs.put (g ++ [n]) (.file (renamePackage t)) }
      have hlook : ∀ q, w2.fs.look q = if q = g ++ [n] then some (.file (renamePackage t)) else w.fs.look q := fun q => FS.look_put w.fs (by simp) _ q
      have hsame : ∀ m, w2.fs.look (d ++ [m]) = w.fs.look (d ++ [m]) := fun m => by rw [hlook, if_neg (hdg m n)]
      obtain ⟨w', h1, h2, h3, h4, h5⟩ := ih pkg w2 hc (by
          rw [hlook, if_neg]
          · exact hgd
          · intro e; have := congrArg List.length e; simp at this)
        (fun m => by
          rw [hlook]
          split
          · simp
          · exact hgn m)
        (fun m hm hx => by rw [hsame]; exact hfiles m (by simp [hm]) hx)
      rw [Run.bind_ok hr1]
      rw [Run.bind_ok hr2]
      refine ⟨w', ?_, h2, h3, ?_, ?_⟩
      · rw [h1, lastModule_congr names pkg hsame]
        conv => rhs; rw [lastModule]
        rw [hgo]
      · intro q hq
        rw [h4 q (fun m hm hx => hq m (by simp [hm]) hx), hlook, if_neg (hq n (by simp) hgo)]
      · intro m hm hx
        by_cases hmem : m ∈ names
        · rw [h5 m hmem hx, hsame]
        · have : m = n := by rcases List.mem_cons.mp hm with h | h; exact h; exact absurd h hmem
          subst this
          rw [h4 _ (fun k hk _ e => hmem (by
            have := List.append_cancel_left e
            rw [List.cons.inj this |>.1]; exact hk)), hlook, if_pos rfl, ht]
          rfl
    · rw [if_neg hgo]
      have hgo' : hasSuffix n c!".go" = false := by simpa using hgo
      by_cases hmod : hasSuffix n c!".mod" = true
      · rw [if_pos hmod]
        obtain ⟨hpl, t, ht⟩ := hfiles n (by simp) (Or.inr hmod)
        have hr1 := osReadFile_ok (φ := noFaults) (w := w) rfl (hc ▸ rd hpl) ht
        rw [Run.bind_ok hr1]
        obtain ⟨w', h1, h2, h3, h4, h5⟩ := ih (modulePath t) { w with clock := w.clock + 1 } hc hgd hgn
          (fun m hm hx => hfiles m (by simp [hm]) hx)
        refine ⟨w', ?_, h2, h3, ?_, ?_⟩
        · rw [h1]
          conv => rhs; rw [lastModule]
          rw [hgo', hmod, ht]
        · intro q hq; exact h4 q (fun m hm hx => hq m (by simp [hm]) hx)
        · intro m hm hx
          rcases List.mem_cons.mp hm with rfl | h
          · exact absurd hx hgo
          · exact h5 m h hx
      · rw [if_neg hmod]
        obtain ⟨w', h1, h2, h3, h4, h5⟩ := ih pkg w hc hgd hgn (fun m hm hx => hfiles m (by simp [hm]) hx)
        refine ⟨w', ?_, h2, h3, ?_, ?_⟩
        · rw [h1]
          conv => rhs; rw [lastModule]
          rw [hgo', (by simpa using hmod : hasSuffix n c!".mod" = false)]
        · intro q hq; exact h4 q (fun m hm hx => hq m (by simp [hm]) hx)
        · intro m hm hx
          rcases List.mem_cons.mp hm with rfl | h
          · exact absurd hx hgo
          · exact h5 m h hx

theorem go_not_mod {n : Str} (h : GoFile n) : ¬ ModFile n := by
  rintro hm
  obtain ⟨a, rfl⟩ := h
  obtain ⟨b, hb⟩ := hm
  have := congrArg List.reverse hb
  simp at this

/-- If all module files name the same module, its path is the result. -/
theorem lastModule_eq {fs : FS} {d : FPath} {m : Str} (ns : List Str) (acc : Str)
    (h : ∀ n ∈ ns, ModFile n → ∃ t, fs.look (d ++ [n]) = some (.file t) ∧ modulePath t = m)
    (hx : acc = m ∨ ∃ n ∈ ns, ModFile n) : lastModule fs d ns acc = m := by
  induction ns generalizing acc with
  | nil =>
    rcases hx with hx | ⟨n, hn, _⟩
    · exact hx
    · exact absurd hn (by simp)
  | cons n ns ih =>
    have ih' := fun acc hx => ih acc (fun k hk => h k (List.mem_cons_of_mem _ hk)) hx
    by_cases hm : ModFile n
    · obtain ⟨t, ht, hp⟩ := h n (by simp) hm
      have hgo : hasSuffix n c!".go" = false := by
        rw [← Bool.not_eq_true, hasSuffix_iff]
        exact fun hg => go_not_mod hg hm
      have hmod : hasSuffix n c!".mod" = true := hasSuffix_iff.mpr hm
      unfold lastModule
      rw [hgo, hmod, ht]
      exact ih' _ (Or.inl hp)
    · have hmod : hasSuffix n c!".mod" = false := by
        rw [← Bool.not_eq_true, hasSuffix_iff]
        exact hm
      have e : lastModule fs d (n :: ns) acc = lastModule fs d ns acc := by
        rw [lastModule, hmod]
        split
        · rename_i h _; cases h
        · rfl
      rw [e]
      refine ih' _ ?_
      rcases hx with hx | ⟨k, hk, hkm⟩
      · exact Or.inl hx
      · rcases List.mem_cons.mp hk with rfl | hk
        · exact absurd hkm hm
        · exact Or.inr ⟨k, hk, hkm⟩

/-- The temporary package, for a working directory whose Go and module entries are files: it is created, it consists of the copies of the
Go files, nothing else changes, and its import path is made from the last module file. -/
theorem temp_package_ok (w : World Proc) (d : FPath) (hw : w.st.svc.workDir ≠ []) (hd : locOf w.cwd w.st.svc.workDir = d)
    (ht : Tree w.fs) (ha : w.fs.look (d ++ [c!".astra"]) = some .dir)
    (hfiles : ∀ n, GoFile n ∨ ModFile n → w.fs.look (d ++ [n]) ≠ none → FileName n ∧ ∃ t, w.fs.look (d ++ [n]) = some (.file t)) :
    ∃ (w' : World Proc) (fs2 : FS), setupTempMainPackage noFaults w = (w', .ok ()) ∧ w'.cwd = w.cwd ∧
      (∀ n, n ∈ fs2.children d ↔ w.fs.look (d ++ [n]) ≠ none) ∧
      w'.st = { w.st with svc := { w.st.svc with tempMain := pathJoin [lastModule w.fs d (fs2.children d) [], mainReplacementPath] } } ∧
      ChangesOnly (fun q => d ++ [c!".astra", c!"astramain"] <+: q) w.fs w'.fs ∧ w'.fs.look (d ++ [c!".astra", c!"astramain"]) = some .dir ∧
      (∀ n t, GoFile n → w.fs.look (d ++ [n]) = some (.file t) →
        w'.fs.look (d ++ [c!".astra", c!"astramain"] ++ [n]) = some (.file (renamePackage t))) ∧
      (∀ q, d ++ [c!".astra", c!"astramain"] <+: q → q ≠ d ++ [c!".astra", c!"astramain"] → w'.fs.look q ≠ none →
        ∃ n, GoFile n ∧ w.fs.look (d ++ [n]) ≠ none ∧ q = d ++ [c!".astra", c!"astramain"] ++ [n]) := by
  have hrd : resolve w.cwd w.st.svc.workDir = some d := by rw [resolve_eq hw, hd]
  have hr : resolve w.cwd (pathJoin [astraDirPath w.st.svc, mainReplacement]) = some (d ++ [c!".astra", c!"astramain"]) := by
    rw [resolve_in_astra w.cwd w.st.svc plain_main, hd]; rfl
  have htne : d ++ [c!".astra", c!"astramain"] ≠ [] := by simp
  have hdrop : (d ++ [c!".astra", c!"astramain"]).dropLast = d ++ [c!".astra"] := by
    rw [show d ++ [c!".astra", c!"astramain"] = (d ++ [c!".astra"]) ++ [c!"astramain"] by simp, List.dropLast_concat]
  have hdd : w.fs.look d = some .dir := by
    have := ht (d ++ [c!".astra"]) (by simp) (by rw [ha]; simp)
    rwa [List.dropLast_concat] at this
  generalize htg : d ++ [c!".astra", c!"astramain"] = target at *
  -- the old copy is removed
  obtain ⟨w1, h1, hc1, hs1, hf1, hn1⟩ : ∃ w1 : World Proc, (do
      match ← Run.try_ (osStat (pathJoin [astraDirPath w.st.svc, mainReplacement])) with
      | .ok _ => osRemoveAll (pathJoin [astraDirPath w.st.svc, mainReplacement])
      | .error _ => Pure.pure () : Prg Unit) noFaults w = (w1, .ok ()) ∧ w1.cwd = w.cwd ∧ w1.st = w.st ∧
      ChangesOnly (fun q => target <+: q) w.fs w1.fs ∧ NothingAt w1.fs target := by
    cases hl : w.fs.look target with
    | some x =>
      refine ⟨{ w with clock := w.clock + 1 + 1, fs := w.fs.del target }, ?_, rfl, rfl, ?_, ?_⟩
      · rw [Run.bind_ok (Run.try_ok (osStat_ok (w := w) rfl hr hl))]
        exact osRemoveAll_ok (w := { w with clock := w.clock + 1 }) rfl hr (ne_dot_of_plain _ plain_main) hl
      · intro q hq
        show (w.fs.del target).look q = _
        rw [FS.look_del, if_neg (fun h => hq h.1)]
      · intro q hq
        show (w.fs.del target).look q = _
        rw [FS.look_del, if_pos]
        refine ⟨hq, ?_⟩
        rintro rfl
        exact htne (List.prefix_nil.mp hq)
    | none =>
      refine ⟨{ w with clock := w.clock + 1 }, ?_, rfl, rfl, fun _ _ => rfl, ht.nothing hl⟩
      rw [Run.bind_ok (Run.try_err (osStat_err (w := w) rfl hr hl))]
      rfl
  have hout : ∀ q, ¬ target <+: q → w1.fs.look q = w.fs.look q := hf1
  have hlen : ∀ q : FPath, q.length < d.length + 2 → ¬ target <+: q := by
    intro q h hp
    have := hp.length_le
    simp [← htg] at this
    omega
  -- the new directory
  have hmk := osMkdir_ok (φ := noFaults) (w := w1) rfl (hc1 ▸ hr) (by rw [hdrop, hout _ (hlen _ (by simp))]; exact ha) (hn1 _ (List.prefix_refl _))
  let w2 : World Proc := { w1 with clock := w1.clock + 1, fs := w1.fs.put target .dir }
  have h2look : ∀ q, w2.fs.look q = if q = target then some .dir else w1.fs.look q := fun q => FS.look_put w1.fs htne _ q
  have h2d : ∀ q : FPath, q.length < d.length + 2 → w2.fs.look q = w.fs.look q := by
    intro q h
    rw [h2look, if_neg, hout _ (hlen _ h)]
    intro e
    simp [e, ← htg] at h
  have hdir := osReadDir_ok (φ := noFaults) (w := w2) (p := w.st.svc.workDir) (q := d) rfl (show resolve w1.cwd _ = _ from hc1 ▸ hrd)
    (by rw [h2d _ (by omega)]; exact hdd)
  let w3 : World Proc := { w2 with clock := w2.clock + 1 }
  have hmem : ∀ n, n ∈ w2.fs.children d ↔ w.fs.look (d ++ [n]) ≠ none := by
    intro n
    rw [mem_children, h2d _ (by simp)]
  obtain ⟨w4, h4, hc4, hs4, ho4, hg4⟩ := copyMainFiles_ok w.st.svc.workDir (pathJoin [astraDirPath w.st.svc, mainReplacement]) d target w.cwd hrd hr
    (by
      intro a b e
      have := congrArg List.length e
      simp [← htg] at this) (w2.fs.children d) [] w3 (show w1.cwd = _ from hc1) (by show w2.fs.look target = _; rw [h2look, if_pos rfl])
    (by
      intro n
      show w2.fs.look (target ++ [n]) ≠ _
      rw [h2look, if_neg (by intro e; have := congrArg List.length e; simp at this), hn1 _ ⟨[n], rfl⟩]
      simp)
    (by
      intro n hn hs
      show PlainName n ∧ ∃ t, w2.fs.look (d ++ [n]) = _
      rw [h2d _ (by simp)]
      obtain ⟨k1, k2⟩ := hfiles n (by rwa [hasSuffix_iff, hasSuffix_iff] at hs) ((hmem n).mp hn)
      exact ⟨fileName_plain k1, k2⟩)
  have hrun : setupTempMainPackage noFaults w = ({ w4 with st := { w4.st with svc := { w4.st.svc with
      tempMain := pathJoin [lastModule w3.fs d (w2.fs.children d) [], mainReplacementPath] } } }, .ok ()) := by
    unfold setupTempMainPackage
    rw [Run.bind_ok (getSvc_ok noFaults w)]
    have step : ∀ (k : Prg Unit), (do
        match ← Run.try_ (osStat (pathJoin [astraDirPath w.st.svc, mainReplacement])) with
        | .ok _ => osRemoveAll (pathJoin [astraDirPath w.st.svc, mainReplacement])
        | .error _ => Pure.pure ()
        k : Prg Unit) noFaults w = k noFaults w1 := by
      intro k
      cases hl : w.fs.look target with
      | some x =>
        have e1 := Run.try_ok (osStat_ok (φ := noFaults) (w := w) rfl hr hl)
        rw [Run.bind_ok e1] at h1 ⊢
        exact Run.bind_ok h1
      | none =>
        have e1 := Run.try_err (osStat_err (φ := noFaults) (w := w) rfl hr hl)
        rw [Run.bind_ok e1] at h1 ⊢
        exact congrArg (k noFaults) (congrArg Prod.fst h1)
    refine (step _).trans ?_
    rw [Run.bind_ok hmk, Run.bind_ok hdir, Run.bind_ok h4]
    rw [modifySvc_ok]
  refine ⟨_, w2.fs, hrun, hc4, hmem, ?_, ?_, ?_, ?_, ?_⟩
  · have e : lastModule w3.fs d (w2.fs.children d) [] = lastModule w.fs d (w2.fs.children d) [] :=
      lastModule_congr _ _ (fun n => h2d _ (by simp))
    show ({ w4.st with svc := { w4.st.svc with tempMain := _ } } : Proc) = _
    rw [e, hs4]
    show ({ w1.st with svc := { w1.st.svc with tempMain := _ } } : Proc) = _
    rw [hs1]
  · intro q hq
    show w4.fs.look q = _
    rw [ho4 q (fun n _ _ e => hq ⟨[n], e.symm⟩)]
    show w2.fs.look q = _
    rw [h2look, if_neg (by rintro rfl; exact hq (List.prefix_refl _)), hout q hq]
  · show w4.fs.look target = _
    rw [ho4 target (fun n _ _ e => by have := congrArg List.length e; simp at this)]
    show w2.fs.look target = _
    rw [h2look, if_pos rfl]
  · intro n t hn hl
    have hg := hg4 n ((hmem n).mpr (by rw [hl]; simp)) (hasSuffix_iff.mpr hn)
    show w4.fs.look _ = _
    rw [hg]
    show (w2.fs.look (d ++ [n])).map copied = _
    rw [h2d _ (by simp), hl]; rfl
  · intro q hq hne hlk
    have hlk : w4.fs.look q ≠ none := hlk
    by_cases hex : ∃ n ∈ w2.fs.children d, hasSuffix n c!".go" = true ∧ q = target ++ [n]
    · obtain ⟨n, hn, hs, e⟩ := hex
      exact ⟨n, hasSuffix_iff.mp hs, (hmem n).mp hn, e⟩
    · rw [ho4 q (fun n hn hs e => hex ⟨n, hn, hs, e⟩)] at hlk
      have hlk : w2.fs.look q ≠ none := hlk
      rw [h2look, if_neg hne, hn1 q hq] at hlk
      exact absurd rfl hlk

/-- C43, in part: for a working directory whose Go and module entries are files, whose only module file is a go.mod that begins with
its module line, and whose Go files contain the words "package main" at most once, the temporary package is exactly the renamed copy of the Go
files, nothing else is changed, and its import path is that of the module followed by /.astra/astramain.

Missing for the full property: Go files in which "package main" also occurs elsewhere (`not_only_clause_renamed`) and module files that do
not begin with the plain module line (`not_import_path`). -/
theorem temp_package_partial (w : World Proc) (d : FPath) (hw : w.st.svc.workDir ≠ []) (hd : DirAt w.cwd w.st.svc.workDir d)
    (ht : Tree w.fs) (ha : w.fs.look (d ++ [c!".astra"]) = some .dir)
    (hfiles : ∀ n, GoFile n ∨ ModFile n → w.fs.look (d ++ [n]) ≠ none → FileName n ∧ ∃ t, w.fs.look (d ++ [n]) = some (.file t))
    (m rest : Str) (hm : ModulePath m) (hnl : '\n' ∉ m)
    (hmod : w.fs.look (d ++ [c!"go.mod"]) = some (.file (c!"module " ++ m ++ '\n' :: rest)))
    (hone : ∀ n, ModFile n → w.fs.look (d ++ [n]) ≠ none → n = c!"go.mod")
    (hcl : ∀ n t, GoFile n → w.fs.look (d ++ [n]) = some (.file t) → ∀ a b a' b', t = a ++ c!"package main" ++ b →
      t = a' ++ c!"package main" ++ b' → a = a') :
    let r := setupTempMainPackage noFaults w
    let target := d ++ [c!".astra", c!"astramain"]
    r.2 = .ok () ∧ ChangesOnly (fun q => target <+: q) w.fs r.1.fs ∧ r.1.fs.look target = some .dir ∧
    (∀ n t, GoFile n → w.fs.look (d ++ [n]) = some (.file t) → ∃ copy, r.1.fs.look (target ++ [n]) = some (.file copy) ∧
      (RenamedClause t copy ∨ ¬ c!"package main" <:+: t ∧ copy = t)) ∧
    (∀ q, target <+: q → q ≠ target → r.1.fs.look q ≠ none → ∃ n, GoFile n ∧ w.fs.look (d ++ [n]) ≠ none ∧ q = target ++ [n]) ∧
    r.1.st.svc.tempMain = m ++ c!"/.astra/astramain" := by
  obtain ⟨w', fs2, h1, _, hmem, h2, h3, h4, h5, h6⟩ := temp_package_ok w d hw (dirAt_iff.mp hd) ht ha hfiles
  intro r target
  have hlast : lastModule w.fs d (fs2.children d) [] = m := by
    refine lastModule_eq _ _ ?_ (Or.inr ⟨c!"go.mod", (hmem _).mpr (by rw [hmod]; simp), ⟨c!"go", rfl⟩⟩)
    intro n hn hmf
    have e := hone n hmf ((hmem n).mp hn)
    subst e
    exact ⟨_, hmod, module_line m rest hnl⟩
  have hrun : r = (w', .ok ()) := h1
  rw [hlast, temp_import_path m hm] at h2
  rw [hrun]
  refine ⟨rfl, h3, h4, ?_, h6, by rw [h2]⟩
  intro n t hn hl
  refine ⟨renamePackage t, h5 n t hn hl, ?_⟩
  by_cases hi : c!"package main" <:+: t
  · obtain ⟨pre, post, e⟩ := hi
    refine Or.inl ⟨pre, post, e.symm, ?_⟩
    rw [← e]
    refine renamed_once pre post (fun a b hab => ?_)
    exact (hcl n t hn hl pre post a b e.symm (by rw [← e]; exact hab)).symm
  · exact Or.inr ⟨hi, renamed_never t hi⟩

/-- A working directory with two Go files, a module file, another file and the .astra directory. -/
def mainWorld : World Proc :=
  { fs := [([c!"w"], .dir), ([c!"w", c!"main.go"], .file c!"package main\nfunc main() {}"), ([c!"w", c!"x_test.go"], .file c!"package main_test\n"),
      ([c!"w", c!"go.mod"], .file c!"module example.com/m\n\ngo 1.21\n"), ([c!"w", c!"README"], .file c!"package main"),
      ([c!"w", c!".astra"], .dir), ([c!"w", c!".astra", c!"astramain"], .dir), ([c!"w", c!".astra", c!"astramain", c!"old.go"], .file [])]
    cwd := [c!"w"], st := { svc := newService [.workDir c!"/w"] } }

theorem occurrence_unique {t old : Str} {k0 : Nat} (h : ∀ k < t.length + 1, hasPrefix (t.drop k) old = true → k = k0) {a b a' b' : Str}
    (h1 : t = a ++ old ++ b) (h2 : t = a' ++ old ++ b') : a = a' := by
  have key : ∀ {a b : Str}, t = a ++ old ++ b → a = t.take k0 := by
    intro a b e
    have hl : a.length < t.length + 1 := by rw [e]; simp only [List.length_append]; omega
    have := h a.length hl (by
      rw [hasPrefix_iff, e]
      exact ⟨b, by simp⟩)
    rw [← this, e]
    simp
  rw [key h1, key h2]

/-- Non-vacuity: the hypotheses of `temp_package_partial` hold in `mainWorld`; its result there. -/
example : mainWorld.st.svc.workDir ≠ [] ∧ DirAt mainWorld.cwd mainWorld.st.svc.workDir [c!"w"] ∧ Tree mainWorld.fs ∧
    mainWorld.fs.look ([c!"w"] ++ [c!".astra"]) = some .dir ∧
    (∀ n, GoFile n ∨ ModFile n → mainWorld.fs.look ([c!"w"] ++ [n]) ≠ none → FileName n ∧ ∃ t, mainWorld.fs.look ([c!"w"] ++ [n]) = some (.file t)) ∧
    ModulePath c!"example.com/m" ∧ mainWorld.fs.look ([c!"w"] ++ [c!"go.mod"]) = some (.file (c!"module " ++ c!"example.com/m" ++ '\n' :: c!"\ngo 1.21\n")) ∧
    (∀ n, ModFile n → mainWorld.fs.look ([c!"w"] ++ [n]) ≠ none → n = c!"go.mod") ∧
    (∀ n t, GoFile n → mainWorld.fs.look ([c!"w"] ++ [n]) = some (.file t) → ∀ a b a' b', t = a ++ c!"package main" ++ b →
      t = a' ++ c!"package main" ++ b' → a = a') := by
  have hmem : ∀ n, mainWorld.fs.look ([c!"w"] ++ [n]) ≠ none → n ∈ [c!"main.go", c!"x_test.go", c!"go.mod", c!"README", c!".astra"] := by
    intro n h
    rw [← mem_children] at h
    exact (by decide +kernel : ∀ n ∈ mainWorld.fs.children [c!"w"], n ∈ [c!"main.go", c!"x_test.go", c!"go.mod", c!"README", c!".astra"]) n h
  refine ⟨by decide, Or.inr (by decide), ?_, by decide, ?_, ?_, by decide, ?_, ?_⟩
  · intro q hq hl
    rw [FS.look, if_neg hq, FS.get_mem_iff] at hl
    obtain ⟨e, he, rfl⟩ := hl
    have : ∀ e ∈ mainWorld.fs, mainWorld.fs.look e.1.dropLast = some .dir := by decide
    exact this e he
  · intro n hn hl
    have key : ∀ n ∈ [c!"main.go", c!"x_test.go", c!"go.mod", c!"README", c!".astra"], (hasSuffix n c!".go" || hasSuffix n c!".mod") = true →
        (n ≠ [] ∧ n ≠ c!"." ∧ n ≠ c!".." ∧ '/' ∉ n) ∧ mainWorld.fs.isFile ([c!"w"] ++ [n]) = true := by decide
    have := key n (hmem n hl) (by
      rw [Bool.or_eq_true, hasSuffix_iff, hasSuffix_iff]; exact hn)
    exact ⟨this.1, FS.isFile_iff.mp this.2⟩
  · have : ∀ x ∈ split '/' c!"example.com/m", x ≠ [] ∧ x ≠ c!"." ∧ x ≠ c!".." ∧ '/' ∉ x := by decide
    exact this
  · intro n hn hl
    have key : ∀ n ∈ [c!"main.go", c!"x_test.go", c!"go.mod", c!"README", c!".astra"], hasSuffix n c!".mod" = true → n = c!"go.mod" := by decide
    exact key n (hmem n hl) (hasSuffix_iff.mpr hn)
  · intro n t hn hl a b a' b' h1 h2
    have hm := hmem n (by rw [hl]; simp)
    have key : ∀ n ∈ [c!"main.go", c!"x_test.go", c!"go.mod", c!"README", c!".astra"], hasSuffix n c!".go" = true → n = c!"main.go" ∨ n = c!"x_test.go" := by
      decide
    refine occurrence_unique (k0 := 0) ?_ h1 h2
    rcases key n hm (hasSuffix_iff.mpr hn) with rfl | rfl
    · have e : mainWorld.fs.look ([c!"w"] ++ [c!"main.go"]) = some (.file c!"package main\nfunc main() {}") := by decide
      rw [e] at hl
      obtain rfl : c!"package main\nfunc main() {}" = t := by simpa using hl
      decide +kernel
    · have e : mainWorld.fs.look ([c!"w"] ++ [c!"x_test.go"]) = some (.file c!"package main_test\n") := by decide
      rw [e] at hl
      obtain rfl : c!"package main_test\n" = t := by simpa using hl
      decide +kernel

/-- Non-vacuity: the copy in `mainWorld`. -/
example : (setupTempMainPackage noFaults mainWorld).1.fs.children [c!"w", c!".astra", c!"astramain"] = [c!"main.go", c!"x_test.go"] ∧
    (setupTempMainPackage noFaults mainWorld).1.fs.look [c!"w", c!".astra", c!"astramain", c!"main.go"] = some (.file c!"package astramain\nfunc main() {}") ∧
    (setupTempMainPackage noFaults mainWorld).1.st.svc.tempMain = c!"example.com/m/.astra/astramain" := by
  decide +kernel

/-- The world with another file. -/
def mainWorldWith (name text : Str) : World Proc := { mainWorld with fs := mainWorld.fs.put [c!"w", name] (.file text) }

/-- C43, negation: the words "package main" are also replaced in comments and string literals. -/
theorem not_only_clause_renamed : ¬ ∀ text, RenamedClause text (renamePackage text) ∨ (¬ c!"package main" <:+: text ∧ renamePackage text = text) := by
  intro h
  have e : renamePackage c!"// package main\npackage main" = c!"// package astramain\npackage astramain" := by decide
  rcases h c!"// package main\npackage main" with ⟨pre, post, h1, h2⟩ | ⟨h1, _⟩
  · rw [e] at h2
    have l1 := congrArg List.length h1
    have l2 := congrArg List.length h2
    simp only [List.length_append, List.length_cons, List.length_nil] at l1 l2
    omega
  · exact h1 ⟨c!"// ", c!"\npackage main", rfl⟩

/-- C43, negation: a comment before the module line gives a wrong import path, and so do quotes and a second module file. -/
theorem not_import_path :
    (let r := setupTempMainPackage noFaults (mainWorldWith c!"go.mod" c!"// The module.\nmodule m\n")
     r.2 = .ok () ∧ r.1.st.svc.tempMain = c!"/ The module./.astra/astramain") ∧
    (let r := setupTempMainPackage noFaults (mainWorldWith c!"go.mod" c!"module \"m\"\n")
     r.2 = .ok () ∧ r.1.st.svc.tempMain = c!"\"m\"/.astra/astramain") ∧
    (let r := setupTempMainPackage noFaults (mainWorldWith c!"tools.mod" c!"module tools\n")
     r.2 = .ok () ∧ r.1.st.svc.tempMain = c!"tools/.astra/astramain") := by
  decide +kernel

/-- C43, negation: a directory with the name of a Go file makes the copy fail. -/
theorem not_copy_with_go_directory :
    (setupTempMainPackage noFaults { mainWorld with fs := ([c!"w", c!"x.go"], .dir) :: mainWorld.fs }).2 = .err (.errno .isdir) := by
  decide +kernel

/-- C43: without the .astra directory there is no temporary package. -/
theorem no_copy_without_astra :
    (setupTempMainPackage noFaults (stepsWorld [])).2 = .err (.errno .noent) := by
  decide +kernel

end Astra.Props
