/-
C36, C37: the .astra directory.
-/
import Verif.Lemmas.Tree
import Verif.Props.Steps

namespace Astra.Props
open Spec Run

/-! ### Footprints -/

section
variable {c : FPath} {S : Proc → Prop} {T : FPath → Prop} {fs0 : FS} {p : Str}

theorem foot_mkdir (h : ∀ q, resolve c p = some q → T q) : Keeps (Inv c S (SameOutside T fs0)) anyVal (osMkdir p : Prg Unit) :=
  keeps_mkdir (fun _ q hp hr h1 _ _ => hp.trans (.put h1 _ (h q hr)))

theorem foot_create (h : ∀ q, resolve c p = some q → T q) : Keeps (Inv c S (SameOutside T fs0)) anyVal (osCreate p : Prg Unit) :=
  keeps_create (fun _ q hp hr h1 _ _ => hp.trans (.put h1 _ (h q hr)))

theorem foot_write {t : Str} (h : ∀ q, resolve c p = some q → T q) : Keeps (Inv c S (SameOutside T fs0)) anyVal (osWrite p t : Prg Unit) :=
  keeps_write (fun _ q _ hp hr h1 => hp.trans (.put (FS.isFile_ne_nil h1) _ (h q hr)))

theorem foot_writeFile {t : Str} (h : ∀ q, resolve c p = some q → T q) : Keeps (Inv c S (SameOutside T fs0)) anyVal (osWriteFile p t : Prg Unit) :=
  keeps_writeFile (fun _ q hp hr h1 _ _ => hp.trans (.put h1 _ (h q hr))) (fun _ q _ hp hr h1 => hp.trans (.put (FS.isFile_ne_nil h1) _ (h q hr)))

theorem foot_removeAll (h : ∀ q, resolve c p = some q → ∀ r, q <+: r → T r) : Keeps (Inv c S (SameOutside T fs0)) anyVal (osRemoveAll p : Prg Unit) :=
  keeps_removeAll (fun _ q hp hr => ⟨hp.trans (.del (h q hr)), fun k => hp.trans (.delPart k (h q hr))⟩)

theorem foot_rename {a b : Str} (ha : ∀ q, resolve c a = some q → ∀ r, q <+: r → T r) (hb : ∀ q, resolve c b = some q → ∀ r, q <+: r → T r) :
    Keeps (Inv c S (SameOutside T fs0)) anyVal (osRename a b : Prg Unit) :=
  keeps_rename (fun fs qa qb hp hra hrb _ h1 h2 _ => hp.trans (by
    intro r hr
    rw [FS.look_move fs (by rintro rfl; exact h2 List.nil_prefix) h1, if_neg, if_neg]
    · exact fun hh => hr (ha qa hra r hh)
    · exact fun hh => hr (hb qb hrb r hh)))

/-- `os.MkdirAll` creates only what was absent. -/
theorem foot_mkdirAll (h : ∀ q, resolve c p = some q → ∀ r, r <+: q → fs0.look r = none → T r) :
    Keeps (Inv c S (SameOutside T fs0)) anyVal (osMkdirAll p : Prg Unit) :=
  keeps_mkdirAll (fun fs q n hp hr _ => hp.trans (SameOutside.mkdirs (fun r hm => by
    by_cases ht : T r
    · exact Or.inr ht
    · left
      rw [hp r ht]
      exact fun hn => ht (h q hr r (mem_take_ancestors.mp hm).1 hn))))

end

/-! ### C36 -/

/-- The service is `s`. -/
def isSvc (s : Service) (p : Proc) : Prop := p.svc = s

theorem keeps_isSvc {c : FPath} {s : Service} {P : FS → Prop} : Keeps (Inv c (isSvc s) P) (fun s' => s' = s) getSvc := keeps_getSvc (fun _ h => h)

theorem foot_cleanupMain {c : FPath} {s : Service} {T : FPath → Prop} {fs0 : FS}
    (h : ∀ r, locOf c s.workDir ++ [c!".astra", c!"astramain"] <+: r → T r) :
    Keeps (Inv c (isSvc s) (SameOutside T fs0)) anyVal cleanupTempMainPackage := by
  unfold cleanupTempMainPackage
  refine Keeps.bind keeps_isSvc (fun s' hs => ?_)
  subst hs
  refine Keeps.seq (Keeps.try' (keeps_stat (A := anyVal) (fun _ _ _ _ _ _ => trivial))) (fun r => ?_)
  split
  · refine foot_removeAll (fun q hr => ?_)
    rw [resolve_in_astra c s' plain_main] at hr
    cases hr
    exact h
  · exact Keeps.pure trivial

theorem foot_cleanupAstra {c : FPath} {s : Service} {T : FPath → Prop} {fs0 : FS}
    (h : ∀ r, locOf c s.workDir ++ [c!".astra"] <+: r → T r) :
    Keeps (Inv c (isSvc s) (SameOutside T fs0)) anyVal cleanupAstraDir := by
  unfold cleanupAstraDir
  refine Keeps.bind keeps_isSvc (fun s' hs => ?_)
  subst hs
  refine foot_removeAll (fun q hr => ?_)
  rw [resolve_astra c s'] at hr
  cases hr
  exact h

/-- C36: whatever fails, teardown changes nothing outside .astra; with a cache or for the CLI, nothing outside the temporary package. -/
theorem teardown_changes_only (φ : Faults) (w : World Proc) (d : FPath) (hd : DirAt w.cwd w.st.svc.workDir d) :
    ChangesOnly (fun q => d ++ [c!".astra"] <+: q) w.fs (teardown φ w).1.fs ∧
    (w.st.svc.cacheEnabled = true ∨ w.st.svc.cliMode ≠ .none →
      ChangesOnly (fun q => d ++ [c!".astra", c!"astramain"] <+: q) w.fs (teardown φ w).1.fs) := by
  have hd := dirAt_iff.mp hd
  have hmain : ∀ T : FPath → Prop, (∀ r, locOf w.cwd w.st.svc.workDir ++ [c!".astra", c!"astramain"] <+: r → T r) →
      ((w.st.svc.cacheEnabled = false ∧ w.st.svc.cliMode = .none) → ∀ r, locOf w.cwd w.st.svc.workDir ++ [c!".astra"] <+: r → T r) →
      SameOutside T w.fs (teardown φ w).1.fs := by
    intro T h1 h2
    have : Keeps (Inv w.cwd (isSvc w.st.svc) (SameOutside T w.fs)) anyVal teardown := by
      unfold teardown
      refine Keeps.seq (keeps_logEvent (fun p hp => hp)) (fun _ => Keeps.bind keeps_isSvc (fun s hs => ?_))
      subst hs
      refine Keeps.seq (Keeps.try' (A := anyVal) ?_) (fun _ => Keeps.pure trivial)
      split
      · rename_i hc; exact foot_cleanupAstra (h2 hc)
      · exact foot_cleanupMain h1
    exact (this φ w ⟨rfl, rfl, .refl _ _⟩).1.2.2
  subst hd
  refine ⟨hmain _ (fun r hr => ?_) (fun _ r hr => hr), fun hc => hmain _ (fun r hr => hr) (fun h => ?_)⟩
  · exact List.IsPrefix.trans ⟨[c!"astramain"], by simp⟩ hr
  · rcases hc with hc | hc
    · rw [h.1] at hc; cases hc
    · exact absurd h.2 hc

/-- Removing leaves nothing. -/
theorem removeAll_leaves_nothing {φ : Faults} {w : World Proc} {p : Str} {q : FPath} (ht : Tree w.fs) (hf : φ w.clock = .none)
    (hr : resolve w.cwd p = some q) (hq : q ≠ []) (hp : p ≠ c!".") :
    NothingAt (osRemoveAll p φ w).1.fs q ∧ ((osRemoveAll p φ w).2 = .ok () ∨ ∃ e, (osRemoveAll p φ w).2 = .err e) := by
  cases hl : w.fs.look q with
  | some n =>
    rw [osRemoveAll_ok hf hr hp hl]
    refine ⟨?_, Or.inl rfl⟩
    intro r hqr
    rw [FS.look_del, if_pos]
    refine ⟨hqr, ?_⟩
    rintro rfl
    exact hq (List.prefix_nil.mp hqr)
  | none =>
    have h0 : p ≠ [] := by rintro rfl; simp [resolve] at hr
    have h1 := ht.nothing hl
    unfold osRemoveAll
    simp only [h0, hp, if_false]
    unfold Run.call
    simp only [hr, hf, writing, FS.removeAll, FS.stat, hl]
    cases w.fs.absent q <;> exact ⟨h1, by simp⟩

/-- C36: without failures, teardown leaves nothing of .astra if there is neither cache nor CLI, and nothing of the temporary package
otherwise. -/
theorem teardown_removes (w : World Proc) (d : FPath) (hd : DirAt w.cwd w.st.svc.workDir d) (ht : Tree w.fs) :
    (teardown noFaults w).2 = .ok () ∧
    (w.st.svc.cacheEnabled = false → w.st.svc.cliMode = .none → NothingAt (teardown noFaults w).1.fs (d ++ [c!".astra"])) ∧
    NothingAt (teardown noFaults w).1.fs (d ++ [c!".astra", c!"astramain"]) := by
  have hd := dirAt_iff.mp hd
  subst hd
  unfold teardown
  rw [Run.bind_ok (logEvent_ok _ noFaults w), Run.bind_ok (getSvc_ok noFaults _)]
  have fin : ∀ (m : Prg Unit) (w1 : World Proc), ((m noFaults w1).2 = .ok () ∨ ∃ e, (m noFaults w1).2 = .err e) →
      ((Run.try_ m >>= fun _ => Pure.pure ()) noFaults w1).2 = .ok () ∧ ((Run.try_ m >>= fun _ => (Pure.pure () : Prg Unit)) noFaults w1).1.fs = (m noFaults w1).1.fs := by
    intro m w1 h
    cases hm : m noFaults w1 with
    | mk w2 x =>
      rw [hm] at h
      rcases h with h | ⟨e, h⟩
      · have h : x = .ok () := h
        subst h
        rw [Run.bind_ok (Run.try_ok hm)]; exact ⟨rfl, rfl⟩
      · have h : x = .err e := h
        subst h
        rw [Run.bind_ok (Run.try_err hm)]; exact ⟨rfl, rfl⟩
  let w1 : World Proc := { w with st := { w.st with log := w.st.log ++ [.teardown] } }
  show ((Run.try_ (if w.st.svc.cacheEnabled = false ∧ w.st.svc.cliMode = .none then cleanupAstraDir else cleanupTempMainPackage) >>=
    fun _ => (Pure.pure () : Prg Unit)) noFaults w1).2 = .ok () ∧ _ ∧ _
  by_cases hc : w.st.svc.cacheEnabled = false ∧ w.st.svc.cliMode = .none
  · rw [if_pos hc]
    have hx : cleanupAstraDir noFaults w1 = osRemoveAll (astraDirPath w.st.svc) noFaults w1 := by
      unfold cleanupAstraDir
      rw [Run.bind_ok (getSvc_ok noFaults _)]
    obtain ⟨h1, h2⟩ := removeAll_leaves_nothing (φ := noFaults) (w := w1) ht rfl (resolve_astra w.cwd w.st.svc) (by simp) (ne_dot_of_plain _ plain_astra)
    rw [← hx] at h1 h2
    obtain ⟨h3, h4⟩ := fin cleanupAstraDir w1 h2
    refine ⟨h3, fun _ _ => ?_, ?_⟩
    · show NothingAt ((Run.try_ cleanupAstraDir >>= fun _ => (Pure.pure () : Prg Unit)) noFaults w1).1.fs _
      rw [h4]; exact h1
    · show NothingAt ((Run.try_ cleanupAstraDir >>= fun _ => (Pure.pure () : Prg Unit)) noFaults w1).1.fs _
      rw [h4]
      exact fun r hr => h1 r (List.IsPrefix.trans ⟨[c!"astramain"], by simp⟩ hr)
  · rw [if_neg hc]
    have hx : NothingAt (cleanupTempMainPackage noFaults w1).1.fs (locOf w.cwd w.st.svc.workDir ++ [c!".astra", c!"astramain"]) ∧
        ((cleanupTempMainPackage noFaults w1).2 = .ok () ∨ ∃ e, (cleanupTempMainPackage noFaults w1).2 = .err e) := by
      unfold cleanupTempMainPackage
      rw [Run.bind_ok (getSvc_ok noFaults _)]
      have hr := resolve_in_astra w.cwd w.st.svc plain_main
      cases hl : w.fs.look (locOf w.cwd w.st.svc.workDir ++ [c!".astra", mainReplacement]) with
      | some n =>
        rw [Run.bind_ok (Run.try_ok (osStat_ok (w := w1) rfl hr hl))]
        exact removeAll_leaves_nothing (φ := noFaults) (w := { w1 with clock := w1.clock + 1 }) ht rfl hr (by simp) (ne_dot_of_plain _ plain_main)
      | none =>
        rw [Run.bind_ok (Run.try_err (osStat_err (w := w1) rfl hr hl))]
        exact ⟨ht.nothing hl, Or.inl rfl⟩
    obtain ⟨h3, h4⟩ := fin cleanupTempMainPackage w1 hx.2
    refine ⟨h3, fun h1 h2 => absurd ⟨h1, h2⟩ hc, ?_⟩
    show NothingAt ((Run.try_ cleanupTempMainPackage >>= fun _ => (Pure.pure () : Prg Unit)) noFaults w1).1.fs _
    rw [h4]; exact hx.1

/-- The functions of the user keep file trees, the current directory and the settings of the service. -/
def WellBehaved (L : Lib) : Prop :=
  ∀ id φ w, (Tree w.fs → Tree (L.custom id φ w).1.fs) ∧ (L.custom id φ w).1.cwd = w.cwd ∧
    (L.custom id φ w).1.st.svc.workDir = w.st.svc.workDir ∧ (L.custom id φ w).1.st.svc.cacheEnabled = w.st.svc.cacheEnabled ∧
    (L.custom id φ w).1.st.svc.cliMode = w.st.svc.cliMode

/-- The settings that decide about teardown. -/
def modeState (wd : Str) (b : Bool) (m : CLIMode) (p : Proc) : Prop := p.svc.workDir = wd ∧ p.svc.cacheEnabled = b ∧ p.svc.cliMode = m

theorem onSettings_mode (wd : Str) (b : Bool) (m : CLIMode) : OnSettings (modeState wd b m) := by
  refine ⟨?_, fun p e h => h⟩
  rintro p p' hp ⟨_, _, _, _, _, _, rfl⟩
  exact hp

theorem wellBehaved_keeps {L : Lib} (hL : WellBehaved L) (c : FPath) (wd : Str) (b : Bool) (m : CLIMode) (id : Nat) :
    Keeps (Inv c (modeState wd b m) Tree) anyVal (L.custom id) := by
  intro φ w hw
  obtain ⟨h1, h2, h3, h4, h5⟩ := hL id φ w
  exact ⟨⟨h2.trans hw.1, ⟨h3.trans hw.2.1.1, h4.trans hw.2.1.2.1, h5.trans hw.2.1.2.2⟩, h1 hw.2.2⟩, fun _ _ => trivial⟩

/-- The working directory of the service after setup. -/
def workDirAfter (getwd : Str) (s : Service) : Str := if s.workDir = [] then getwd else s.workDir

theorem setup_mode (L : Lib) (getwd : Str) (φ : Faults) (w w' : World Proc) (ht : Tree w.fs) (h : setup L getwd φ w = (w', .ok ())) :
    Inv w.cwd (modeState (workDirAfter getwd w.st.svc) w.st.svc.cacheEnabled w.st.svc.cliMode) Tree w' := by
  unfold setup at h
  rw [Run.bind_ok (logEvent_ok _ φ w)] at h
  obtain ⟨w1, _, h1, h⟩ := Run.bind_inv h
  have k1 := (keepsIO_setupAstraDir closed_tree (c := w.cwd) (S := modeState w.st.svc.workDir w.st.svc.cacheEnabled w.st.svc.cliMode) φ
    { w with st := { w.st with log := w.st.log ++ [.setup] } } ⟨rfl, ⟨rfl, rfl, rfl⟩, ht⟩).1
  rw [h1] at k1
  rw [Run.bind_ok (modifySvc_ok _ φ w1)] at h
  obtain ⟨hc, ⟨e1, e2, e3⟩, ht1⟩ := k1
  have k2 := (keepsIO_cacheIfEnabled closed_tree L (c := w.cwd)
    (S := modeState (workDirAfter getwd w.st.svc) w.st.svc.cacheEnabled w.st.svc.cliMode) φ
    { w1 with st := { w1.st with svc := if w1.st.svc.workDir = [] then { w1.st.svc with workDir := getwd } else w1.st.svc } } ⟨hc, by
      simp only [modeState, workDirAfter]
      rw [e1]
      split
      · exact ⟨rfl, e2, e3⟩
      · exact ⟨e1, e2, e3⟩, ht1⟩).1
  rw [h] at k2
  exact k2

theorem checkIO_inv {φ : Faults} {w w' : World Proc} {x : Exit Unit} (h : checkIO φ w = (w', x)) : w' = w := by
  have := checkIO_world φ w
  rw [h] at this
  exact this

/-- C36: after a successful run without failures, nothing of .astra is left if there is neither cache nor CLI, and nothing of the
temporary package otherwise. The directory is that of the service, or the one the process was started in. -/
theorem parse_leaves_nothing (L : Lib) (hL : WellBehaved L) (getwd : Str) (w : World Proc) (d : FPath) (ht : Tree w.fs)
    (hd : DirAt w.cwd (if w.st.svc.workDir = [] then getwd else w.st.svc.workDir) d) (hok : (parseAll L getwd noFaults w).2 = .ok ()) :
    (w.st.svc.cacheEnabled = false → w.st.svc.cliMode = .none → NothingAt (parseAll L getwd noFaults w).1.fs (d ++ [c!".astra"])) ∧
    NothingAt (parseAll L getwd noFaults w).1.fs (d ++ [c!".astra", c!"astramain"]) := by
  have hp : parseAll L getwd noFaults w = ((parseAll L getwd noFaults w).1, .ok ()) := Prod.ext rfl hok
  unfold parseAll at hp
  obtain ⟨w2, _, h1, hp⟩ := Run.bind_inv hp
  unfold setupParse at h1
  obtain ⟨w0, _, hc0, h1b⟩ := Run.bind_inv h1
  have e0 := checkIO_inv hc0
  subst e0
  obtain ⟨w1, _, h0, h1c⟩ := Run.bind_inv h1b
  have k1 := setup_mode L getwd noFaults w0 w1 ht h0
  have kk := onSettings_mode (workDirAfter getwd w0.st.svc) w0.st.svc.cacheEnabled w0.st.svc.cliMode
  have kL := wellBehaved_keeps hL w0.cwd (workDirAfter getwd w0.st.svc) w0.st.svc.cacheEnabled w0.st.svc.cliMode
  have k2 := (keepsIO_stepCreate closed_tree kk kL noFaults w1 k1).1
  rw [h1c] at k2
  generalize hfin : (parseAll L getwd noFaults w0).1 = wf
  have hq : completeParse L noFaults w2 = (wf, .ok ()) := by rw [← hfin]; exact hp
  unfold completeParse at hq
  obtain ⟨w3, _, hc, hq3⟩ := Run.bind_inv hq
  have e3 := checkIO_inv hc
  subst e3
  obtain ⟨w4, _, h4, hq4⟩ := Run.bind_inv hq3
  have k3 := (keepsIO_stepParse closed_tree kk kL noFaults _ k2).1
  rw [h4] at k3
  obtain ⟨w5, _, h5, hq5⟩ := Run.bind_inv hq4
  have k4 := (keepsIO_stepClean closed_tree kk L noFaults _ k3).1
  rw [h5] at k4
  obtain ⟨w6, _, h6, hq6⟩ := Run.bind_inv hq5
  have k5 := (keepsIO_stepGenerate closed_tree kk kL noFaults _ k4).1
  rw [h6] at k5
  obtain ⟨c1, ⟨c2, c3, c4⟩, c5⟩ := k5
  obtain ⟨_, t1, t2⟩ := teardown_removes w6 d (by rw [c1, c2]; exact hd) c5
  rw [hq6, c3, c4] at t1
  rw [hq6] at t2
  exact ⟨t1, t2⟩

/-- Non-vacuity: a run without cache; its .astra directory existed before teardown. -/
example : WellBehaved exampleLib ∧ Tree (stepsWorld [c!"a"]).fs ∧ DirAt (stepsWorld [c!"a"]).cwd c!"/w" [c!"w"] ∧
    (parseAll exampleLib [] noFaults (stepsWorld [c!"a"])).2 = .ok () ∧
    (parseAll exampleLib [] noFaults (stepsWorld [c!"a"])).1.fs.look [c!"w", c!"a.json"] ≠ none ∧
    (stepClean exampleLib noFaults (setup exampleLib [] noFaults (stepsWorld [c!"a"])).1).1.fs.look [c!"w", c!".astra", c!"astramain", c!"main.go"] ≠ none := by
  refine ⟨fun _ _ _ => ⟨id, rfl, rfl, rfl, rfl⟩, ?_, Or.inr (by decide), by decide +kernel, by decide +kernel, by decide +kernel⟩
  intro q hq hl
  rw [FS.look, if_neg hq, FS.get_mem_iff] at hl
  obtain ⟨e, he, rfl⟩ := hl
  have : ∀ e ∈ (stepsWorld [c!"a"]).fs, (stepsWorld [c!"a"]).fs.look e.1.dropLast = some .dir := by decide
  exact this e he

/-- A world where .astra contains a .gitignore with another text. -/
def ignoredWorld : World Proc :=
  { fs := [([c!"w"], .dir), ([c!"w", c!".astra"], .dir), ([c!"w", c!".astra", c!".gitignore"], .file c!"mine")], cwd := [c!"w"]
    st := { svc := newService [.workDir c!"/w"] } }

/-- A failure of the removal is not reported: teardown succeeds although .astra remains. -/
theorem teardown_failure_is_silent : let φ : Faults := fun _ => .fail 0 (fun _ => true)
    (teardown φ ignoredWorld).2 = .ok () ∧ (teardown φ ignoredWorld).1.fs.look [c!"w", c!".astra", c!".gitignore"] ≠ none := by
  decide +kernel

/-! ### C37 -/

/-- What setup may change: the missing directories down to .astra, and its .gitignore. -/
def setupPlaces (fs : FS) (a q : FPath) : Prop := (q <+: a ∧ fs.look q = none) ∨ q = a ++ [c!".gitignore"]

theorem foot_setupAstraDir {c : FPath} {s : Service} {T : FPath → Prop} {fs0 : FS}
    (h : ∀ r, setupPlaces fs0 (locOf c s.workDir ++ [c!".astra"]) r → T r) :
    Keeps (Inv c (isSvc s) (SameOutside T fs0)) anyVal setupAstraDir := by
  have hg : ∀ q, resolve c (pathJoin [astraDirPath s, c!".gitignore"]) = some q → T q := by
    intro q hr
    rw [resolve_in_astra c s plain_gitignore] at hr
    cases hr
    exact h _ (Or.inr (by simp))
  unfold setupAstraDir setupGitIgnore
  refine Keeps.bind keeps_isSvc (fun s' hs => ?_)
  subst hs
  refine Keeps.seq (foot_mkdirAll (fun q hr r h1 h2 => ?_)) (fun _ => Keeps.bind keeps_isSvc (fun s' hs => ?_))
  · rw [resolve_astra c s'] at hr
    cases hr
    exact h r (Or.inl ⟨h1, h2⟩)
  · subst hs
    refine Keeps.seq (Keeps.try' (keeps_stat (A := anyVal) (fun _ _ _ _ _ _ => trivial))) (fun r => ?_)
    cases r with
    | ok n => exact Keeps.pure trivial
    | error e => exact Keeps.seq (foot_create hg) (fun _ => foot_write hg)

/-- C37: whatever fails, the directory part of setup changes nothing but the missing directories down to .astra and the .gitignore. -/
theorem setup_dir_changes_only (φ : Faults) (w : World Proc) (d : FPath) (hd : DirAt w.cwd w.st.svc.workDir d) :
    ChangesOnly (fun q => (q <+: d ++ [c!".astra"] ∧ w.fs.look q = none) ∨ q = d ++ [c!".astra", c!".gitignore"]) w.fs
      (setupAstraDir φ w).1.fs := by
  have hd := dirAt_iff.mp hd
  subst hd
  exact ((foot_setupAstraDir (fun r hr => by simpa [setupPlaces] using hr)) φ w ⟨rfl, rfl, .refl _ _⟩).1.2.2

theorem foot_cache {c : FPath} {s : Service} {T : FPath → Prop} {fs0 : FS} (L : Lib)
    (h : ∀ q, resolve c (cachePathOf s) = some q → ∀ r, q <+: r → T r) : Keeps (Inv c (isSvc s) (SameOutside T fs0)) anyVal (cache L) := by
  have h' : ∀ q, resolve c (cachePathOf s) = some q → T q := fun q hq => h q hq q (List.prefix_refl q)
  unfold cache
  refine Keeps.bind keeps_isSvc (fun s' hs => ?_)
  subst hs
  have hrest : Keeps (Inv c (isSvc s') (SameOutside T fs0)) anyVal (do
      osCreate (cachePathOf s')
      match cacheText L (cachePathOf s') s' with
      | none => Run.panic
      | some text => osWrite (cachePathOf s') text) := by
    refine Keeps.seq (foot_create h') (fun _ => ?_)
    cases cacheText L (cachePathOf s') s' with
    | none => exact Keeps.panic
    | some t => exact foot_write h'
  refine Keeps.seq (Keeps.try' (keeps_stat (A := anyVal) (fun _ _ _ _ _ _ => trivial))) (fun r => ?_)
  cases r with
  | error e => exact hrest
  | ok n =>
    refine Keeps.seq (A := anyVal) ?_ (fun _ => hrest)
    unfold clearCache
    refine Keeps.bind keeps_isSvc (fun s'' hs => ?_)
    subst hs
    exact Keeps.seq (keeps_stat (A := anyVal) (fun _ _ _ _ _ _ => trivial)) (fun _ => foot_removeAll h)

theorem foot_cacheIfEnabled {c : FPath} {s : Service} {T : FPath → Prop} {fs0 : FS} (L : Lib)
    (h : s.cacheEnabled = true → ∀ q, resolve c (cachePathOf s) = some q → ∀ r, q <+: r → T r) :
    Keeps (Inv c (isSvc s) (SameOutside T fs0)) anyVal (cacheIfEnabled L) := by
  unfold cacheIfEnabled
  refine Keeps.bind keeps_isSvc (fun s' hs => ?_)
  subst hs
  split
  · rename_i hc; exact foot_cache L (h hc)
  · exact Keeps.pure trivial

theorem bind_split {φ : Faults} {w : World Proc} (m n : Prg Unit) :
    (∃ w1, m φ w = (w1, .ok ()) ∧ (m >>= fun _ => n) φ w = n φ w1) ∨ ((m φ w).2 ≠ .ok () ∧ (m >>= fun _ => n) φ w = m φ w) := by
  cases hm : m φ w with
  | mk w1 x =>
    cases x with
    | ok u => exact Or.inl ⟨w1, rfl, Run.bind_ok hm⟩
    | err e => exact Or.inr ⟨by simp, Run.bind_err hm⟩
    | panic => exact Or.inr ⟨by simp, Run.bind_panic hm⟩
    | crash => exact Or.inr ⟨by simp, Run.bind_crash hm⟩

/-- C37: whatever fails, setup changes nothing but the missing directories down to .astra, the .gitignore and, if caching is enabled, what
is at the place of the cache. -/
theorem setup_changes_only (L : Lib) (getwd : Str) (φ : Faults) (w : World Proc) (d : FPath) (hd : DirAt w.cwd w.st.svc.workDir d) :
    ChangesOnly (fun q => (q <+: d ++ [c!".astra"] ∧ w.fs.look q = none) ∨ q = d ++ [c!".astra", c!".gitignore"] ∨
      (w.st.svc.cacheEnabled = true ∧
        ∃ a, resolve w.cwd (cachePathOf { w.st.svc with workDir := if w.st.svc.workDir = [] then getwd else w.st.svc.workDir }) = some a ∧ a <+: q))
      w.fs (setup L getwd φ w).1.fs := by
  have hd := dirAt_iff.mp hd
  subst hd
  generalize hT : (fun q => (q <+: locOf w.cwd w.st.svc.workDir ++ [c!".astra"] ∧ w.fs.look q = none) ∨
    q = locOf w.cwd w.st.svc.workDir ++ [c!".astra", c!".gitignore"] ∨ (w.st.svc.cacheEnabled = true ∧
        ∃ a, resolve w.cwd (cachePathOf { w.st.svc with workDir := if w.st.svc.workDir = [] then getwd else w.st.svc.workDir }) = some a ∧ a <+: q)) = T
  let w0 : World Proc := { w with st := { w.st with log := w.st.log ++ [.setup] } }
  have k1 := (foot_setupAstraDir (c := w.cwd) (s := w.st.svc) (T := T) (fs0 := w.fs) (fun r hr => by
    rw [← hT]
    rcases hr with hr | rfl
    · exact Or.inl hr
    · exact Or.inr (Or.inl (by simp)))) φ w0 ⟨rfl, rfl, .refl _ _⟩
  have e : setup L getwd φ w = (setupAstraDir >>= fun _ => (modifySvc (fun s => if s.workDir = [] then { s with workDir := getwd } else s) >>= fun _ =>
      cacheIfEnabled L)) φ w0 := Run.bind_ok (logEvent_ok _ φ w)
  rw [e]
  rcases bind_split (φ := φ) (w := w0) setupAstraDir (modifySvc (fun s => if s.workDir = [] then { s with workDir := getwd } else s) >>= fun _ =>
      cacheIfEnabled L) with ⟨w1, h1, h2⟩ | ⟨_, h2⟩
  · rw [h2, Run.bind_ok (modifySvc_ok _ φ w1)]
    rw [h1] at k1
    obtain ⟨⟨hc, hs, hf⟩, _⟩ := k1
    have hs : w1.st.svc = w.st.svc := hs
    have es : (if w1.st.svc.workDir = [] then { w1.st.svc with workDir := getwd } else w1.st.svc) =
        { w.st.svc with workDir := if w.st.svc.workDir = [] then getwd else w.st.svc.workDir } := by
      rw [hs]; split <;> rfl
    have hc : w1.cwd = w.cwd := hc
    have hf : SameOutside T w.fs w1.fs := hf
    refine (foot_cacheIfEnabled (c := w.cwd) (s := { w.st.svc with workDir := if w.st.svc.workDir = [] then getwd else w.st.svc.workDir })
      (T := T) (fs0 := w.fs) L (fun he a ha r hr => ?_) φ
      { w1 with st := { w1.st with svc := if w1.st.svc.workDir = [] then { w1.st.svc with workDir := getwd } else w1.st.svc } } ⟨hc, es, hf⟩).1.2.2
    rw [← hT]
    exact Or.inr (Or.inr ⟨he, a, ha, hr⟩)
  · rw [h2]
    exact k1.1.2.2

/-- There is no outside failure, except that the process may die. -/
def NoFailures (φ : Faults) : Prop := ∀ n k f, φ n ≠ .fail k f

theorem osStat_present {φ : Faults} (hφ : NoFailures φ) {w : World Proc} {p : Str} {q : FPath} {n : FNode} (hr : resolve w.cwd p = some q)
    (hl : w.fs.look q = some n) :
    osStat p φ w = ({ w with clock := w.clock + 1 }, .ok n) ∨ osStat p φ w = ({ w with clock := w.clock + 1 }, .crash) := by
  unfold osStat Run.call
  simp only [hr, reading, FS.stat, hl]
  cases hf : φ w.clock with
  | none => exact Or.inl rfl
  | fail k f => exact absurd hf (hφ _ k f)
  | crash k f => exact Or.inr rfl

/-- C37: an existing .gitignore is never overwritten, even if the process dies, as long as no call fails
(and the place of an enabled cache is another one). -/
theorem setup_keeps_gitignore (L : Lib) (getwd : Str) (φ : Faults) (hφ : NoFailures φ) (w : World Proc) (d : FPath)
    (hd : DirAt w.cwd w.st.svc.workDir d) (h : w.fs.look (d ++ [c!".astra", c!".gitignore"]) ≠ none)
    (hc : w.st.svc.cacheEnabled = true → ∀ a, resolve w.cwd (cachePathOf { w.st.svc with workDir := if w.st.svc.workDir = [] then getwd else w.st.svc.workDir }) = some a →
      ¬ a <+: d ++ [c!".astra", c!".gitignore"]) :
    (setup L getwd φ w).1.fs.look (d ++ [c!".astra", c!".gitignore"]) = w.fs.look (d ++ [c!".astra", c!".gitignore"]) := by
  have hd := dirAt_iff.mp hd
  subst hd
  cases hl : w.fs.look (locOf w.cwd w.st.svc.workDir ++ [c!".astra", c!".gitignore"]) with
  | none => exact absurd hl h
  | some n =>
    generalize hg : locOf w.cwd w.st.svc.workDir ++ [c!".astra", c!".gitignore"] = g at hl hc
    let P : FS → Prop := fun fs => fs.look g = some n
    have hmk : Keeps (Inv w.cwd (isSvc w.st.svc) P) anyVal (osMkdirAll (astraDirPath w.st.svc) : Prg Unit) :=
      keeps_mkdirAll (fun fs q k hp _ _ => by
        show (fs.mkdirs _).look g = some n
        have hp : fs.look g = some n := hp
        rw [look_mkdirs, if_neg (by rw [hp]; simp)]; exact hp)
    have hgi : ∀ w1 : World Proc, Inv w.cwd (isSvc w.st.svc) P w1 →
        Inv w.cwd (isSvc w.st.svc) P (setupGitIgnore φ w1).1 := by
      rintro w1 ⟨h1, h2, h3⟩
      have h2' : w1.st.svc = w.st.svc := h2
      unfold setupGitIgnore
      rw [Run.bind_ok (getSvc_ok φ w1)]
      have hr := resolve_in_astra w.cwd w.st.svc plain_gitignore
      rw [hg, ← h1, ← h2'] at hr
      rcases osStat_present hφ hr h3 with hs | hs
      · rw [Run.bind_ok (Run.try_ok hs)]; exact ⟨h1, h2, h3⟩
      · rw [Run.bind_crash (show Run.try_ _ φ w1 = (_, .crash) by unfold Run.try_; rw [hs])]; exact ⟨h1, h2, h3⟩
    have hset : ∀ w1 : World Proc, Inv w.cwd (isSvc w.st.svc) P w1 →
        Inv w.cwd (isSvc w.st.svc) P (setupAstraDir φ w1).1 := by
      rintro w1 ⟨h1, h2, h3⟩
      unfold setupAstraDir
      rw [Run.bind_ok (getSvc_ok φ w1)]
      have h2' : w1.st.svc = w.st.svc := h2
      rw [h2']
      have hk := (hmk φ w1 ⟨h1, h2, h3⟩).1
      rcases bind_split (φ := φ) (w := w1) (osMkdirAll (astraDirPath w.st.svc)) setupGitIgnore with ⟨w2, e1, e2⟩ | ⟨_, e2⟩
      · rw [e1] at hk; rw [e2]; exact hgi w2 hk
      · rw [e2]; exact hk
    let w0 : World Proc := { w with st := { w.st with log := w.st.log ++ [.setup] } }
    have k := hset w0 ⟨rfl, rfl, hl⟩
    have e : setup L getwd φ w = (setupAstraDir >>= fun _ => (modifySvc (fun s => if s.workDir = [] then { s with workDir := getwd } else s) >>= fun _ =>
        cacheIfEnabled L)) φ w0 := Run.bind_ok (logEvent_ok _ φ w)
    rw [e]
    rcases bind_split (φ := φ) (w := w0) setupAstraDir (modifySvc (fun s => if s.workDir = [] then { s with workDir := getwd } else s) >>= fun _ =>
        cacheIfEnabled L) with ⟨w1, h1, h2⟩ | ⟨_, h2⟩
    · rw [h2, Run.bind_ok (modifySvc_ok _ φ w1)]
      rw [h1] at k
      have hs : w1.st.svc = w.st.svc := k.2.1
      have es : (if w1.st.svc.workDir = [] then { w1.st.svc with workDir := getwd } else w1.st.svc) =
          { w.st.svc with workDir := if w.st.svc.workDir = [] then getwd else w.st.svc.workDir } := by
        rw [hs]; split <;> rfl
      have := (foot_cacheIfEnabled (c := w.cwd) (s := { w.st.svc with workDir := if w.st.svc.workDir = [] then getwd else w.st.svc.workDir })
        (T := fun q => q ≠ g) (fs0 := w1.fs) L (fun he a ha r hr hrg => hc he a ha (hrg ▸ hr)) φ
        { w1 with st := { w1.st with svc := if w1.st.svc.workDir = [] then { w1.st.svc with workDir := getwd } else w1.st.svc } }
        ⟨k.1, es, .refl _ _⟩).1.2.2 g (by simp)
      exact this.trans k.2.2
    · rw [h2]; exact k.2.2

/-- In a file tree, the entries above a directory are directories. -/
theorem tree_above {fs : FS} (ht : Tree fs) {a : FPath} (ha : fs.look a = some .dir) {q : FPath} (h : q <+: a) : fs.look q = some .dir := by
  by_cases e : q = a
  · subst e; exact ha
  · by_cases hq : fs.look q = some .dir
    · exact hq
    · have := ht.none_below hq h e
      rw [ha] at this; cases this

theorem mkdirs_none {fs : FS} {qs : List FPath} (h : ∀ q ∈ qs, fs.look q ≠ none) : fs.mkdirs qs = fs := by
  induction qs with
  | nil => rfl
  | cons q qs ih =>
    cases hl : fs.look q with
    | none => exact absurd hl (h q (by simp))
    | some n => rw [mkdirs_present qs hl]; exact ih (fun r hr => h r (by simp [hr]))

/-- Where .astra and its .gitignore exist, the directory part of setup does nothing. -/
theorem setup_dir_again (w : World Proc) (ht : Tree w.fs) (d : FPath) (hd : DirAt w.cwd w.st.svc.workDir d)
    (ha : w.fs.look (d ++ [c!".astra"]) = some .dir) (hg : w.fs.look (d ++ [c!".astra", c!".gitignore"]) ≠ none) :
    setupAstraDir noFaults w = ({ w with clock := w.clock + 2 }, .ok ()) := by
  have hd := dirAt_iff.mp hd
  subst hd
  unfold setupAstraDir
  rw [Run.bind_ok (getSvc_ok noFaults w)]
  have hr := resolve_astra w.cwd w.st.svc
  have hm : osMkdirAll (astraDirPath w.st.svc) noFaults w = ({ w with clock := w.clock + 1 }, .ok ()) := by
    have : (ancestors (locOf w.cwd w.st.svc.workDir ++ [c!".astra"])).any w.fs.isFile = false := by
      rw [List.any_eq_false]
      intro q hq
      have := tree_above ht ha (mem_ancestors.mp hq)
      simp [FS.isFile, this]
    refine (Run.call_ok (fs' := w.fs) (a := ()) rfl hr ?_)
    simp only [writing, FS.mkdirAll, this, Bool.false_eq_true, if_false]
    rw [mkdirs_none]
    intro q hq
    rw [tree_above ht ha (mem_ancestors.mp hq)]; simp
  rw [Run.bind_ok hm]
  unfold setupGitIgnore
  rw [Run.bind_ok (getSvc_ok noFaults _)]
  cases hl : w.fs.look (locOf w.cwd w.st.svc.workDir ++ [c!".astra", c!".gitignore"]) with
  | none => exact absurd hl hg
  | some n =>
    rw [Run.bind_ok (Run.try_ok (osStat_ok (w := { w with clock := w.clock + 1 }) rfl (resolve_in_astra w.cwd w.st.svc plain_gitignore) hl))]
    rfl

/-- C37: without failures, if no file stands in the way, the directory part of setup succeeds; then .astra is a directory that contains a
.gitignore, which ignores everything if it is new. -/
theorem setup_dir_succeeds (w : World Proc) (_ht : Tree w.fs) (d : FPath) (hd : DirAt w.cwd w.st.svc.workDir d)
    (hf : ∀ q t, q <+: d ++ [c!".astra"] → w.fs.look q ≠ some (.file t)) :
    (setupAstraDir noFaults w).2 = .ok () ∧ (setupAstraDir noFaults w).1.fs.look (d ++ [c!".astra"]) = some .dir ∧
    (setupAstraDir noFaults w).1.fs.look (d ++ [c!".astra", c!".gitignore"]) =
      some ((w.fs.look (d ++ [c!".astra", c!".gitignore"])).getD (.file c!"*\n")) := by
  have hd := dirAt_iff.mp hd
  subst hd
  unfold setupAstraDir
  rw [Run.bind_ok (getSvc_ok noFaults w)]
  have hr := resolve_astra w.cwd w.st.svc
  generalize hA : locOf w.cwd w.st.svc.workDir ++ [c!".astra"] = A at *
  have hG : locOf w.cwd w.st.svc.workDir ++ [c!".astra", c!".gitignore"] = A ++ [c!".gitignore"] := by rw [← hA]; simp
  have hAne : A ≠ [] := by rw [← hA]; simp
  have hany : (ancestors A).any w.fs.isFile = false := by
    rw [List.any_eq_false]
    intro q hq h
    obtain ⟨t, ht⟩ := FS.isFile_iff.mp h
    exact hf q t (mem_ancestors.mp hq) ht
  let w1 : World Proc := { w with clock := w.clock + 1, fs := w.fs.mkdirs (ancestors A) }
  have hm : osMkdirAll (astraDirPath w.st.svc) noFaults w = (w1, .ok ()) :=
    Run.call_ok rfl hr (by simp only [writing, FS.mkdirAll, hany, Bool.false_eq_true, if_false])
  rw [Run.bind_ok hm]
  have hdir : w1.fs.look A = some .dir := by
    show (w.fs.mkdirs (ancestors A)).look A = _
    rw [look_mkdirs]
    split
    · rfl
    · rename_i hn
      cases hl : w.fs.look A with
      | none => exact absurd ⟨hl, mem_ancestors.mpr (List.prefix_refl A)⟩ hn
      | some n =>
        cases n with
        | dir => rfl
        | file t => exact absurd hl (hf A t (List.prefix_refl A))
  have hsame : w1.fs.look (A ++ [c!".gitignore"]) = w.fs.look (A ++ [c!".gitignore"]) := by
    show (w.fs.mkdirs (ancestors A)).look _ = _
    rw [look_mkdirs, if_neg]
    rintro ⟨_, h⟩
    have := (mem_ancestors.mp h).length_le
    simp at this
    omega
  have hgne : A ++ [c!".gitignore"] ≠ [] := by simp
  have hrg := resolve_in_astra w.cwd w.st.svc plain_gitignore
  rw [hG] at hrg ⊢
  unfold setupGitIgnore
  rw [Run.bind_ok (getSvc_ok noFaults _)]
  cases hl : w.fs.look (A ++ [c!".gitignore"]) with
  | some n =>
    rw [Run.bind_ok (Run.try_ok (osStat_ok (w := w1) rfl hrg (hsame.trans hl)))]
    exact ⟨rfl, hdir, hsame.trans hl⟩
  | none =>
    have hl1 := hsame.trans hl
    have hc := osCreate_ok (φ := noFaults) (w := { w1 with clock := w1.clock + 1 }) rfl hrg (by rw [List.dropLast_concat]; exact hdir) (by rw [hl1]; simp)
    rw [Run.bind_ok (Run.try_err (osStat_err (w := w1) rfl hrg hl1))]
    have hw := osWrite_ok (φ := noFaults) (c := c!"*\n")
      (w := { w1 with clock := w1.clock + 1 + 1, fs := w1.fs.put (A ++ [c!".gitignore"]) (.file []) }) rfl hrg (FS.isFile_put hgne [])
    have e := Run.bind_ok (f := fun _ => osWrite (pathJoin [astraDirPath w.st.svc, c!".gitignore"]) c!"*\n") hc
    rw [hw] at e
    simp only [FS.put_put] at e
    refine ⟨congrArg Prod.snd e, ?_, ?_⟩
    · refine (congrArg (fun r : World Proc × Exit Unit => r.1.fs.look A) e).trans ?_
      show (w1.fs.put _ _).look A = _
      rw [FS.look_put _ hgne, if_neg]
      · exact hdir
      · intro h
        have := congrArg List.length h
        simp at this
    · refine (congrArg (fun r : World Proc × Exit Unit => r.1.fs.look (A ++ [c!".gitignore"])) e).trans ?_
      show (w1.fs.put _ _).look (A ++ [c!".gitignore"]) = _
      rw [FS.look_put _ hgne, if_pos rfl]; rfl

/-- C37: repeating the directory part of setup changes nothing. -/
theorem setup_dir_idempotent (w : World Proc) (ht : Tree w.fs) (d : FPath) (hd : DirAt w.cwd w.st.svc.workDir d)
    (hf : ∀ q t, q <+: d ++ [c!".astra"] → w.fs.look q ≠ some (.file t)) :
    (setupAstraDir noFaults (setupAstraDir noFaults w).1).2 = .ok () ∧
    (setupAstraDir noFaults (setupAstraDir noFaults w).1).1.fs = (setupAstraDir noFaults w).1.fs := by
  obtain ⟨_, h2, h3⟩ := setup_dir_succeeds w ht d hd hf
  obtain ⟨⟨k1, k2, k3⟩, _⟩ := keepsIO_setupAstraDir closed_tree (c := w.cwd) (S := modeState w.st.svc.workDir w.st.svc.cacheEnabled w.st.svc.cliMode) noFaults w
    ⟨rfl, ⟨rfl, rfl, rfl⟩, ht⟩
  have := setup_dir_again _ k3 d (by rw [k1, k2.1]; exact hd) h2 (by rw [h3]; simp)
  rw [this]
  exact ⟨rfl, rfl⟩

/-- Non-vacuity: the hypotheses of the theorems on setup in a concrete world, where .astra does not exist. -/
example : DirAt (stepsWorld []).cwd (stepsWorld []).st.svc.workDir [c!"w"] ∧ (stepsWorld []).fs.look [c!"w", c!".astra"] = none ∧
    (∀ q t, q <+: [c!"w", c!".astra"] → (stepsWorld []).fs.look q ≠ some (.file t)) ∧ NoFailures noFaults ∧
    (setupAstraDir noFaults (stepsWorld [])).1.fs.look [c!"w", c!".astra", c!".gitignore"] = some (.file c!"*\n") := by
  refine ⟨Or.inr (by decide), by decide, ?_, fun _ _ _ h => (nomatch h), by decide +kernel⟩
  intro q t hq h
  have := mem_ancestors.mpr hq
  have key : ∀ q ∈ ancestors [c!"w", c!".astra"], (stepsWorld []).fs.isFile q = false := by decide
  have h1 := key q this
  rw [FS.isFile_iff.mpr ⟨t, h⟩] at h1
  cases h1

/-- If the check for the .gitignore fails for a reason other than its absence, it is overwritten. -/
theorem gitignore_overwritten_on_failure :
    let φ : Faults := fun n => if n = 1 then .fail 0 (fun _ => true) else .none
    (setupAstraDir φ ignoredWorld).2 = .ok () ∧
    (setupAstraDir φ ignoredWorld).1.fs.look [c!"w", c!".astra", c!".gitignore"] = some (.file c!"*\n") := by
  decide +kernel

/-- If the process dies between the creation and the writing of the .gitignore, the file is empty, and no later setup repairs it. -/
theorem gitignore_not_repaired :
    let φ : Faults := fun n => if n = 3 then .crash 0 (fun _ => true) else .none
    let w := (setupAstraDir φ (stepsWorld [])).1
    w.fs.look [c!"w", c!".astra", c!".gitignore"] = some (.file []) ∧
    (setupAstraDir noFaults w).2 = .ok () ∧ (setupAstraDir noFaults w).1.fs.look [c!"w", c!".astra", c!".gitignore"] = some (.file []) := by
  decide +kernel

end Astra.Props
