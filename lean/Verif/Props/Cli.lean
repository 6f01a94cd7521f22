/-
C40: a run in two processes (SetupParse with the CLI option, then the generate command) writes what a run in one process writes.
-/
import Verif.Spec.Cli
import Verif.Lemmas.Sim
import Verif.Props.Cache
import Verif.Props.Rebind
import Verif.Props.Options
import Verif.Props.MainPackage
import Verif.Props.OutputFile

namespace Astra.Props
open Spec Run

/-! ### Calls that depend on the names in a directory -/

theorem msorted_names (l : List Str) : ∀ acc : List (Str × Unit), MSorted acc → MSorted (l.foldl (fun acc n => mset acc n ()) acc) := by
  induction l with
  | nil => exact fun acc h => h
  | cons n l ih => exact fun acc h => ih _ (MSorted_mset h n ())

theorem MSorted_filter {V : Type} {m : List (Str × V)} (h : MSorted m) (f : Str × V → Bool) : MSorted (m.filter f) := by
  induction m with
  | nil => exact h
  | cons x m ih =>
    simp only [MSorted] at h
    by_cases hx : f x = true
    · rw [List.filter_cons_of_pos hx]
      exact ⟨fun q hq => h.1 q (List.mem_filter.mp hq).1, ih h.2⟩
    · rw [List.filter_cons_of_neg hx]
      exact ih h.2

theorem filter_names {a b : List (Str × Unit)} (ha : MSorted a) (hb : MSorted b) (f : Str → Bool)
    (h : ∀ n, f n = true → (n ∈ a.map (·.1) ↔ n ∈ b.map (·.1))) : (a.map (·.1)).filter f = (b.map (·.1)).filter f := by
  rw [List.filter_map, List.filter_map]
  refine congrArg (List.map (·.1)) (MSorted_ext (MSorted_filter ha _) (MSorted_filter hb _) (fun k => ?_))
  have mem : ∀ m : List (Str × Unit), k ∈ mkeys (m.filter (f ∘ (·.1))) ↔ f k = true ∧ k ∈ m.map (·.1) := by
    intro m
    unfold mkeys
    simp only [List.mem_map, List.mem_filter, Function.comp]
    constructor
    · rintro ⟨x, ⟨h1, h2⟩, rfl⟩; exact ⟨h2, x, h1, rfl⟩
    · rintro ⟨h1, x, h2, rfl⟩; exact ⟨x, ⟨h2, h1⟩, rfl⟩
  have h1 := mget_isSome_iff (m := a.filter (f ∘ (·.1))) (k := k)
  have h2 := mget_isSome_iff (m := b.filter (f ∘ (·.1))) (k := k)
  have e : k ∈ mkeys (a.filter (f ∘ (·.1))) ↔ k ∈ mkeys (b.filter (f ∘ (·.1))) := by
    rw [mem a, mem b]
    constructor
    · rintro ⟨h3, h4⟩; exact ⟨h3, (h k h3).mp h4⟩
    · rintro ⟨h3, h4⟩; exact ⟨h3, (h k h3).mpr h4⟩
  rw [e, ← h2] at h1
  cases e1 : mget (a.filter (f ∘ (·.1))) k with
  | none =>
    cases e2 : mget (b.filter (f ∘ (·.1))) k with
    | none => rfl
    | some v => rw [e1, e2] at h1; exact absurd (h1.mpr rfl) (by simp)
  | some u =>
    cases e2 : mget (b.filter (f ∘ (·.1))) k with
    | none => rw [e1, e2] at h1; exact absurd (h1.mp rfl) (by simp)
    | some v => rfl

section
variable {a c d : FPath} {b : Bool} {St : Proc → Proc → Prop}

/-- The names that matter in the directory of a main package. -/
def goOrMod (n : Str) : Bool := hasSuffix n c!".go" || hasSuffix n c!".mod"

theorem copy_filter (wd target : Str) (names : List Str) : ∀ pkg, copyMainFiles wd target names pkg = copyMainFiles wd target (names.filter goOrMod) pkg := by
  induction names with
  | nil => exact fun _ => rfl
  | cons n names ih =>
    intro pkg
    by_cases h : goOrMod n = true
    · rw [List.filter_cons_of_pos h]
      unfold copyMainFiles
      simp only [ih]
    · rw [List.filter_cons_of_neg h, ← ih]
      have h1 : ¬ hasSuffix n c!".go" = true := fun e => h (by simp [goOrMod, e])
      have h2 : ¬ hasSuffix n c!".mod" = true := fun e => h (by simp [goOrMod, e])
      rw [copyMainFiles, if_neg h1, if_neg h2]

theorem not_json_of_goOrMod {n : Str} (h : goOrMod n = true) : ¬ c!".json" <:+ n := by
  intro hj
  rw [goOrMod, Bool.or_eq_true] at h
  obtain ⟨u, rfl⟩ := hj
  rcases h with h | h
  all_goals
    obtain ⟨v, hv⟩ := hasSuffix_iff.mp h
    have := congrArg List.getLast? hv
    simp at this

/-- Names of a kind depend only on what has such names. -/
theorem filter_children_congr {fs fs' : FS} {d : FPath} {g : Str → Bool} (h : ∀ n, g n = true → fs'.look (d ++ [n]) = fs.look (d ++ [n])) :
    (fs'.children d).filter g = (fs.children d).filter g := by
  have hm : ∀ n, g n = true → (n ∈ fs'.children d ↔ n ∈ fs.children d) := fun n hg => by rw [mem_children, mem_children, h n hg]
  unfold FS.children at hm ⊢
  exact filter_names (msorted_names _ [] MSorted_nil) (msorted_names _ [] MSorted_nil) g hm

theorem sim_readDir (ap : Apart d a) {p : Str} (h : resolve c p = some d) {α : Type} {A : α → Prop} {b' : Bool} {St' : Proc → Proc → Prop} {f1 f2 : List Str → Prg α}
    (h1 : ∀ names, f1 names = f1 (names.filter goOrMod)) (h2 : ∀ names, f2 names = f2 (names.filter goOrMod))
    (hf : ∀ names, (∀ n ∈ names, '/' ∉ n) → (∀ n ∈ names, goOrMod n = true) → Sim a c d b St b' St' A (f1 names) (f2 names)) :
    Sim a c d b St b' St' A (osReadDir p >>= f1) (osReadDir p >>= f2) := by
  have split : ∀ f : List Str → Prg α, (∀ names, f names = f (names.filter goOrMod)) →
      (osReadDir p >>= f : Prg α) = ((osReadDir p >>= fun names => Pure.pure (names.filter goOrMod) : Prg (List Str)) >>= f) := by
    intro f hf
    rw [bind_assoc']
    congr 1
    funext names
    rw [hf names]
    rfl
  rw [split f1 h1, split f2 h2]
  refine Sim.bind (A := fun names => (∀ n ∈ names, '/' ∉ n) ∧ ∀ n ∈ names, goOrMod n = true) (b' := b) (St' := St) ?_ (fun names hn => hf names hn.1 hn.2)
  intro w1 w2 hl
  have hs : w2.fs.stat d = w1.fs.stat d := hl.twin.stat ap.off_d
  have hch : (w2.fs.children d).filter goOrMod = (w1.fs.children d).filter goOrMod :=
    filter_children_congr (fun n hn => hl.twin.look (ap.off_file (not_json_of_goOrMod hn)))
  have run : ∀ w : World Proc, w.cwd = c → (osReadDir p >>= fun names => Pure.pure (names.filter goOrMod) : Prg (List Str)) noFaults w =
      ({ w with clock := w.clock + 1 }, match w.fs.stat d with
        | .error e => .err (.errno e)
        | .ok (.file _) => .err (.errno .notdir)
        | .ok .dir => .ok ((w.fs.children d).filter goOrMod)) := by
    intro w hw
    have e : (osReadDir p : Prg (List Str)) noFaults w = ({ w with clock := w.clock + 1 }, match w.fs.stat d with
        | .error e => .err (.errno e)
        | .ok (.file _) => .err (.errno .notdir)
        | .ok .dir => .ok (w.fs.children d)) := by
      unfold osReadDir Run.call
      simp only [hw, h, noFaults, reading, FS.readDir]
      cases w.fs.stat d with
      | error e => rfl
      | ok n => cases n <;> rfl
    cases hst : w.fs.stat d with
    | error e' => rw [hst] at e; rw [Run.bind_err e]
    | ok n => cases n <;> (rw [hst] at e; first | rw [Run.bind_err e] | (rw [Run.bind_ok e]; rfl))
  rw [run w1 hl.cwd1, run w2 hl.cwd2, hs, hch]
  refine ⟨rfl, hl.twin.same, fun r hr => ⟨?_, hl.cwd1, hl.cwd2, hl.twin, hl.st⟩⟩
  simp only at hr
  split at hr
  · cases hr
  · cases hr
  · cases hr
    refine ⟨fun n hn => ?_, fun n hn => (List.mem_filter.mp hn).2⟩
    exact hl.twin.names n (mem_children.mp (List.mem_filter.mp hn).1)

/-! ### The state of the two processes -/

/-- What is different in the service of the other process. -/
structure Dress where
  inputs : List Input
  outputs : List Output
  cache : Bool
  mode : CLIMode
  log : Logger
  deny : List (Str → Bool)
  cachePath : Str

/-- The service of the other process. -/
def Dress.on (x : Dress) (s : Service) : Service :=
  { s with inputs := x.inputs, outputs := x.outputs, cacheEnabled := x.cache, cliMode := x.mode, log := x.log, denyList := x.deny, cachePath := x.cachePath }

/-- The process states side by side; `orig` are the paths of the outputs, of which those from `k` are still to be written. -/
structure Side (E : Proc → Prop) (x : Dress) (cp wd : Str) (ins : List Input) (outs : List Output) (orig : List Str) (k : Nat) (p1 p2 : Proc) : Prop where
  names : p2.names = p1.names
  svc : p2.svc = x.on p1.svc
  workDir : p1.svc.workDir = wd
  cachePath : p1.svc.cachePath = cp
  inputs : p1.svc.inputs = ins
  outputs : p1.svc.outputs = outs
  cells : ∀ j, k ≤ j → p1.svc.cells[j]? = orig[j]?
  extra : E p1

variable {E : Proc → Prop} {x : Dress} {cp wd : Str} {ins : List Input} {outs : List Output} {orig : List Str} {k : Nat}

theorem Side.later {p1 p2 : Proc} (h : Side E x cp wd ins outs orig k p1 p2) {k' : Nat} (hk : k ≤ k') : Side E x cp wd ins outs orig k' p1 p2 :=
  { h with cells := fun j hj => h.cells j (by omega) }

/-- A log line on both sides. -/
theorem sim_log (hE : ∀ p e, E p → E { p with log := p.log ++ [e] }) (e e' : Event) : Sim a c d b (Side E x cp wd ins outs orig k) b (Side E x cp wd ins outs orig k) (fun _ => True) (logEvent e) (logEvent e') :=
  Sim.modify (fun _ _ h => ⟨h.names, h.svc, h.workDir, h.cachePath, h.inputs, h.outputs, h.cells, hE _ _ h.extra⟩)

/-- A change of the service that does not concern what differs. -/
theorem sim_svc {wd' : Str} {k' : Nat} {f : Service → Service} (hx : ∀ s, f (x.on s) = x.on (f s))
    (hs : ∀ p1 p2, Side E x cp wd ins outs orig k p1 p2 → (f p1.svc).workDir = wd' ∧ (f p1.svc).cachePath = cp ∧ (f p1.svc).inputs = ins ∧
      (f p1.svc).outputs = outs ∧ (∀ j, k' ≤ j → (f p1.svc).cells[j]? = orig[j]?) ∧ E { p1 with svc := f p1.svc }) :
    Sim a c d b (Side E x cp wd ins outs orig k) b (Side E x cp wd' ins outs orig k') (fun _ => True) (modifySvc f) (modifySvc f) := by
  refine Sim.modify (fun p1 p2 h => ?_)
  obtain ⟨h1, h2, h3, h4, h5, h6⟩ := hs p1 p2 h
  exact ⟨h.names, by show f p2.svc = x.on (f p1.svc); rw [h.svc, hx], h1, h2, h3, h4, h5, h6⟩

/-! ### The temporary main package -/

theorem loc_off_plain {c : FPath} {s : Str} {n : Str} (hn : PlainName n) (hs : locOf c s = d) : ∀ q, resolve c (pathJoin [s, n]) = some q → q = d ++ [n] := by
  intro q hq
  obtain ⟨h1, h2⟩ := loc_join_plain c s hn
  rw [resolve_eq h1, h2, hs] at hq
  cases hq
  rfl

theorem plain_of_suffix {n : Str} (h : '/' ∉ n) (hs : hasSuffix n c!".go" = true ∨ hasSuffix n c!".mod" = true) : PlainName n := by
  refine ⟨?_, ?_, ?_, h⟩ <;> (rintro rfl; revert hs; decide)

theorem sim_copy (ap : Apart d a) {target : Str} (hc : ∀ y ∈ c, '/' ∉ y) (hwd : locOf c wd = d) (ht : locOf c target = d ++ [c!".astra", c!"astramain"]) (names : List Str) :
    ∀ pkg : Str, (∀ n ∈ names, '/' ∉ n) → Sim a c d b St b St (fun _ => True) (copyMainFiles wd target names pkg) (copyMainFiles wd target names pkg) := by
  induction names with
  | nil => exact fun _ _ => Sim.pure trivial
  | cons n names ih =>
    intro pkg hn
    have hn' := hn n (by simp)
    have hrest : ∀ n ∈ names, '/' ∉ n := fun m hm => hn m (by simp [hm])
    have hread : ∀ (_ : hasSuffix n c!".go" = true ∨ hasSuffix n c!".mod" = true) (q : FPath), resolve c (pathJoin [wd, n]) = some q → Off a q := by
      intro hs q hq
      rw [loc_off_plain (plain_of_suffix hn' hs) hwd q hq]
      exact ap.off_file (not_json_of_goOrMod (by rw [goOrMod, Bool.or_eq_true]; exact hs))
    unfold copyMainFiles
    split
    · rename_i hs
      refine Sim.bind (sim_readFile (hread (Or.inl hs))) (fun text _ => Sim.bind (sim_writeFile hc ?_) (fun _ _ => ih _ hrest))
      intro q hq
      rw [loc_off_plain (plain_of_suffix hn' (Or.inl hs)) ht q hq]
      exact ap.off_in_main n
    · split
      · rename_i hs
        exact Sim.bind (sim_readFile (hread (Or.inr hs))) (fun text _ => ih _ hrest)
      · exact ih _ hrest

theorem main_not_above : ¬ d ++ [c!".astra", c!"astramain"] <+: d ++ [c!".astra"] := by
  intro h
  have := h.length_le
  simp at this

theorem sim_removeMain (ap : Apart d a) {s : Service} (hs : locOf c s.workDir = d) :
    Sim a c d b St b St (fun _ => True) (osRemoveAll (pathJoin [astraDirPath s, mainReplacement]) : Prg Unit)
      (osRemoveAll (pathJoin [astraDirPath s, mainReplacement]) : Prg Unit) := by
  refine sim_removeAll (fun q hq => ?_)
  rw [resolve_in_astra c s plain_main, hs] at hq
  cases hq
  exact ⟨ap.off_main, main_not_above, ap.main_not_dir⟩

theorem off_of_main (ap : Apart d a) {s : Service} (hs : locOf c s.workDir = d) : ∀ q, resolve c (pathJoin [astraDirPath s, mainReplacement]) = some q → Off a q := by
  intro q hq
  rw [resolve_in_astra c s plain_main, hs] at hq
  cases hq
  exact ap.off_main

theorem sim_setupMain (ap : Apart d a) (hE : ∀ p, E p) (hc : ∀ y ∈ c, '/' ∉ y) (hne : wd ≠ []) (hwd : locOf c wd = d) :
    Sim a c d b (Side E x cp wd ins outs orig k) b (Side E x cp wd ins outs orig k) (fun _ => True) setupTempMainPackage setupTempMainPackage := by
  unfold setupTempMainPackage
  refine Sim.getSvc (fun p1 p2 h => ?_)
  have e : astraDirPath p2.svc = astraDirPath p1.svc := by rw [h.svc]; rfl
  have e' : p2.svc.workDir = p1.svc.workDir := by rw [h.svc]; rfl
  rw [e, e']
  have hw : locOf c p1.svc.workDir = d := by rw [h.workDir]; exact hwd
  refine Sim.bind (sim_stat (off_of_main ap hw)) (fun r _ => ?_)
  have rest : Sim a c d b (Side E x cp wd ins outs orig k) b (Side E x cp wd ins outs orig k) (fun _ => True) (do
      osMkdir (pathJoin [astraDirPath p1.svc, mainReplacement])
      let names ← osReadDir p1.svc.workDir
      let pkgName ← copyMainFiles p1.svc.workDir (pathJoin [astraDirPath p1.svc, mainReplacement]) names []
      modifySvc (fun s => { s with tempMain := pathJoin [pkgName, mainReplacementPath] }) : Prg Unit) (do
      osMkdir (pathJoin [astraDirPath p1.svc, mainReplacement])
      let names ← osReadDir p1.svc.workDir
      let pkgName ← copyMainFiles p1.svc.workDir (pathJoin [astraDirPath p1.svc, mainReplacement]) names []
      modifySvc (fun s => { s with tempMain := pathJoin [pkgName, mainReplacementPath] }) : Prg Unit) := by
    refine Sim.bind (sim_mkdir hc (off_of_main ap hw)) (fun _ _ => ?_)
    refine sim_readDir ap (by rw [resolve_eq (by rw [h.workDir]; exact hne), hw]) (fun names => by rw [copy_filter]) (fun names => by rw [copy_filter]) (fun names hn _ => ?_)
    refine Sim.bind (sim_copy ap hc hw ?_ names [] hn) (fun pkg _ => ?_)
    · rw [← Option.some.injEq, ← resolve_eq (loc_join_plain [] _ plain_main).1, resolve_in_astra c p1.svc plain_main, hw]
      rfl
    · exact sim_svc (fun _ => rfl) (fun p1 p2 h => ⟨h.workDir, h.cachePath, h.inputs, h.outputs, h.cells, hE _⟩)
  cases r with
  | ok n => exact Sim.bind (sim_removeMain ap hw) (fun _ _ => rest)
  | error e => exact rest

theorem sim_mainName (ap : Apart d a) (hE : ∀ p, E p) (hc : ∀ y ∈ c, '/' ∉ y) (hne : wd ≠ []) (hwd : locOf c wd = d) {α : Type} {A : α → Prop} {f1 f2 : Str → Prg α} {b' : Bool} {St' : Proc → Proc → Prop}
    (hf : ∀ m, Sim a c d b (Side E x cp wd ins outs orig k) b' St' A (f1 m) (f2 m)) :
    Sim a c d b (Side E x cp wd ins outs orig k) b' St' A (getMainPackageName >>= f1) (getMainPackageName >>= f2) := by
  refine Sim.bind (A := fun _ => True) ?_ (fun m _ => hf m)
  unfold getMainPackageName
  refine Sim.getSvc (fun p1 p2 h => ?_)
  have e : p2.svc.tempMain = p1.svc.tempMain := by rw [h.svc]; rfl
  rw [e]
  refine Sim.bind (A := fun _ => True) (b' := b) (St' := Side E x cp wd ins outs orig k) ?_ (fun _ _ => Sim.getSvc (fun p1 p2 h => ?_))
  · split
    · exact sim_setupMain ap hE hc hne hwd
    · exact Sim.pure trivial
  · have e : p2.svc.tempMain = p1.svc.tempMain := by rw [h.svc]; rfl
    rw [e]
    exact Sim.pure trivial

/-! ### The cache -/

theorem default_path_json (s : Service) : c!".json" <:+ pathJoin [astraDirPath s, cacheFileName] := by
  have e : pathJoin [astraDirPath s, cacheFileName] = pathClean (astraDirPath s ++ '/' :: cacheFileName) := by
    have h1 : (!(astraDirPath s).isEmpty) = true := by simp [astra_ne_nil]
    have h2 : (!cacheFileName.isEmpty) = true := rfl
    simp only [pathJoin, List.filter_cons, h1, h2, if_true, List.filter_nil]
    rw [if_neg (by simp)]
    simp [join]
  rw [e]
  refine pathClean_suffix (by decide) ?_ (fun x => long_suffix _ x)
  exact (show c!".json" <:+ '/' :: cacheFileName by decide).trans (List.suffix_append _ _)

theorem cache_quiet_at (L : Lib) (w : World Proc) {a : FPath} (hr : resolve w.cwd (cachePathOf w.st.svc) = some a)
    (hjson : c!".json" <:+ cachePathOf w.st.svc) (hne : a ≠ []) (ha : w.fs.look a.dropLast = some .dir) :
    ∃ w', cache L noFaults w = (w', .ok ()) ∧ w'.cwd = w.cwd ∧ w'.st = w.st ∧
      SameOutside (a <+: ·) w.fs w'.fs ∧ w'.fs.look a = some (.file (marshal (encService w.st.svc))) := by
  have hdot : cachePathOf w.st.svc ≠ c!"." := by
    intro e
    rw [e] at hjson
    exact absurd hjson (by decide)
  have htext : cacheText L (cachePathOf w.st.svc) w.st.svc = some (marshal (encService w.st.svc)) := cacheText_json hjson _
  have hoff : ¬ a <+: a.dropLast := by
    intro h
    have := h.length_le
    rw [List.length_dropLast] at this
    have := List.length_pos_iff.2 hne
    omega
  have fin : ∀ w2 : World Proc, w2.cwd = w.cwd → w2.st = w.st → SameOutside (a <+: ·) w.fs w2.fs →
      w2.fs.look a ≠ some .dir → ∃ w', (do
        osCreate (cachePathOf w.st.svc)
        match cacheText L (cachePathOf w.st.svc) w.st.svc with
        | none => Run.panic
        | some text => osWrite (cachePathOf w.st.svc) text : Prg Unit) noFaults w2 = (w', .ok ()) ∧ w'.cwd = w.cwd ∧ w'.st = w.st ∧
        SameOutside (a <+: ·) w.fs w'.fs ∧
        w'.fs.look a = some (.file (marshal (encService w.st.svc))) := by
    intro w2 h1 h2 h3 h4
    rw [Run.bind_ok (osCreate_ok rfl (by rw [h1]; exact hr) (by rw [h3 _ hoff]; exact ha) h4), htext]
    simp only
    rw [osWrite_ok rfl (by show resolve w2.cwd _ = _; rw [h1]; exact hr) (FS.isFile_put hne [])]
    refine ⟨_, rfl, h1, h2, ?_, ?_⟩
    · exact (h3.trans (.put hne _ (List.prefix_refl _))).trans (.put hne _ (List.prefix_refl _))
    · rw [FS.look_put _ hne, if_pos rfl]
  unfold cache
  rw [Run.bind_ok (getSvc_ok noFaults w)]
  cases hl : w.fs.look a with
  | none =>
    rw [Run.bind_ok (try_err (osStat_err rfl hr hl))]
    exact fin _ rfl rfl (SameOutside.refl _ _) (by show w.fs.look _ ≠ _; rw [hl]; simp)
  | some n =>
    rw [Run.bind_ok (try_ok (osStat_ok rfl hr hl))]
    have hclear : clearCache noFaults { w with clock := w.clock + 1 } =
        ({ w with clock := w.clock + 1 + 1 + 1, fs := w.fs.del a }, .ok ()) := by
      unfold clearCache
      rw [Run.bind_ok (getSvc_ok noFaults _)]
      refine (Run.bind_ok (osStat_ok (w := { w with clock := w.clock + 1 }) rfl hr hl)).trans ?_
      exact osRemoveAll_ok rfl hr hdot hl
    simp only
    rw [Run.bind_ok hclear]
    exact fin _ rfl rfl (SameOutside.del (fun _ h => h)) (by
      show (w.fs.del _).look _ ≠ _
      rw [FS.look_del, if_pos ⟨List.prefix_refl _, hne⟩]
      simp)

theorem cache_quiet (L : Lib) (w : World Proc) (hd : locOf w.cwd w.st.svc.workDir = d) (hp : w.st.svc.cachePath = [])
    (ha : w.fs.look (d ++ [c!".astra"]) = some .dir) :
    ∃ w', cache L noFaults w = (w', .ok ()) ∧ w'.cwd = w.cwd ∧ w'.st = w.st ∧
      SameOutside (d ++ [c!".astra", c!"cache.json"] <+: ·) w.fs w'.fs ∧
      w'.fs.look (d ++ [c!".astra", c!"cache.json"]) = some (.file (marshal (encService w.st.svc))) := by
  have hpath : cachePathOf w.st.svc = pathJoin [astraDirPath w.st.svc, cacheFileName] := by simp [cachePathOf, hp]
  refine cache_quiet_at L w (by rw [hpath, resolve_in_astra w.cwd w.st.svc plain_cacheFile, hd]; rfl) ?_ (by simp) ?_
  · rw [hpath]
    exact default_path_json w.st.svc
  · rw [show d ++ [c!".astra", c!"cache.json"] = (d ++ [c!".astra"]) ++ [c!"cache.json"] by simp, List.dropLast_concat]
    exact ha

/-- With this working directory and this cache path, the cache is the .json file at `a`. -/
def CacheAt (c : FPath) (wd cp : Str) (a : FPath) : Prop :=
  ∀ s : Service, s.workDir = wd → s.cachePath = cp → resolve c (cachePathOf s) = some a ∧ c!".json" <:+ cachePathOf s

/-- Caching, on each side if it is enabled there. -/
theorem sim_cache (L : Lib) (ap : Apart d a) (hat : CacheAt c wd cp a) (hx : x.cache = true → x.cachePath = cp) :
    Sim a c d true (Side E x cp wd ins outs orig k) true (Side E x cp wd ins outs orig k) (fun _ => True) (cacheIfEnabled L) (cacheIfEnabled L) := by
  have one : ∀ (w : World Proc), w.cwd = c → w.st.svc.workDir = wd → (w.st.svc.cacheEnabled = true → w.st.svc.cachePath = cp) → w.fs.look a.dropLast = some .dir →
      (cacheIfEnabled L noFaults w).2 = .ok () ∧ (cacheIfEnabled L noFaults w).1.cwd = w.cwd ∧ (cacheIfEnabled L noFaults w).1.st = w.st ∧
      SameOutside (a <+: ·) w.fs (cacheIfEnabled L noFaults w).1.fs := by
    intro w h1 h2 h3 h4
    unfold cacheIfEnabled
    rw [Run.bind_ok (getSvc_ok noFaults w)]
    split
    · rename_i he
      obtain ⟨g1, g2⟩ := hat w.st.svc h2 (h3 he)
      obtain ⟨w', e, r1, r2, r3, _⟩ := cache_quiet_at L w (by rw [h1]; exact g1) g2 ap.ne h4
      rw [e]
      exact ⟨rfl, r1, r2, r3⟩
    · exact ⟨rfl, rfl, rfl, SameOutside.refl _ _⟩
  intro w1 w2 h
  have hs1 : w1.fs.look a.dropLast = some .dir := by
    rcases h.twin.spot with hs | ⟨hs, _⟩
    · exact hs
    · cases hs
  have hs2 : w2.fs.look a.dropLast = some .dir := by rw [h.twin.look ap.off_dir]; exact hs1
  have ha1 := h.twin.astra rfl
  obtain ⟨l1, l2, l3, l4⟩ := one w1 h.cwd1 h.st.workDir (fun _ => h.st.cachePath) hs1
  obtain ⟨r1, r2, r3, r4⟩ := one w2 h.cwd2 (by rw [h.st.svc]; exact h.st.workDir) (by rw [h.st.svc]; exact hx) hs2
  have hsame : SameOutside (a <+: ·) (cacheIfEnabled L noFaults w1).1.fs (cacheIfEnabled L noFaults w2).1.fs := by
    intro q hq
    rw [r4 q hq, l4 q hq, h.twin.same q hq]
  refine ⟨by rw [l1, r1], hsame, fun _ _ => ⟨trivial, by rw [l2, h.cwd1], by rw [r2, h.cwd2], ⟨hsame, fun _ => ?_, ?_, Or.inl ?_⟩, by rw [l3, r3]; exact h.st⟩⟩
  · rw [l4 _ ap.above]; exact ha1
  · intro n hn
    by_cases hq : a <+: d ++ [n]
    · obtain ⟨dir, m, e, _, hm⟩ := ap.json
      rcases prefix_snoc hq with hq | hq
      · exact absurd hq ap.off_d
      · rw [hq] at e
        have := (List.append_inj' e rfl).2
        simp only [List.cons.injEq, and_true] at this
        rw [this]
        exact hm
    · rw [l4 _ hq] at hn
      exact h.twin.names n hn
  · rw [l4 _ ap.off_dir]; exact hs1

/-! ### The steps -/

theorem sim_checkIO (hi : x.inputs = [] ↔ ins = []) (ho : x.outputs = [] ↔ outs = []) :
    Sim a c d b (Side E x cp wd ins outs orig k) b (Side E x cp wd ins outs orig k) (fun _ => True) checkIO checkIO := by
  unfold checkIO
  refine Sim.getSvc (fun p1 p2 h => ?_)
  have e1 : (p2.svc.inputs = []) ↔ (p1.svc.inputs = []) := by rw [h.svc, h.inputs]; exact hi
  have e2 : p2.svc.outputs.isEmpty = p1.svc.outputs.isEmpty := by
    rw [h.svc, h.outputs, Bool.eq_iff_iff, List.isEmpty_iff, List.isEmpty_iff]; exact ho
  simp only [e1, e2]
  split
  · exact Sim.throw _
  · split
    · exact Sim.throw _
    · exact Sim.pure trivial

theorem sim_create (L : Lib) (hdeny : ∀ p, E p → p.svc.denyList = x.deny)
    (hE : ∀ p infos, E p → E { p with svc := { p.svc with routes := (createRoutes p.svc.denyList L.rel infos p.svc.routes).1 } })
    (router : Option (List RouteInfo)) :
    Sim a c d b (Side E x cp wd ins outs orig k) b (Side E x cp wd ins outs orig k) (fun _ => True) (ginCreateRoutes L router) (ginCreateRoutes L router) := by
  intro w1 w2 h
  have e1 : w2.st.svc.denyList = w1.st.svc.denyList := by rw [h.st.svc, hdeny _ h.st.extra]; rfl
  have e2 : w2.st.svc.routes = w1.st.svc.routes := by rw [h.st.svc]; rfl
  cases router with
  | none => exact ⟨rfl, h.twin.same, fun a ha => by cases ha⟩
  | some infos =>
    have run : ∀ w : World Proc, ginCreateRoutes L (some infos) noFaults w = (match (createRoutes w.st.svc.denyList L.rel infos w.st.svc.routes).2 with
      | none => ({ w with st := { w.st with svc := { w.st.svc with routes := (createRoutes w.st.svc.denyList L.rel infos w.st.svc.routes).1 } } }, .ok ())
      | some e => ({ w with st := { w.st with svc := { w.st.svc with routes := (createRoutes w.st.svc.denyList L.rel infos w.st.svc.routes).1 } } }, .err (.msg e))) := by
      intro w
      unfold ginCreateRoutes
      rw [Run.bind_ok (getSvc_ok noFaults w)]
      simp only
      rw [Run.bind_ok (modifySvc_ok _ noFaults w)]
      cases (createRoutes w.st.svc.denyList L.rel infos w.st.svc.routes).2 <;> rfl
    rw [run, run, e1, e2]
    cases (createRoutes w1.st.svc.denyList L.rel infos w1.st.svc.routes).2 with
    | some e => exact ⟨rfl, h.twin.same, fun a ha => by cases ha⟩
    | none =>
      refine ⟨rfl, h.twin.same, fun a _ => ⟨trivial, h.cwd1, h.cwd2, h.twin, h.st.names, ?_, h.st.workDir, h.st.cachePath, h.st.inputs, h.st.outputs, h.st.cells,
        hE _ _ h.st.extra⟩⟩
      simp only
      rw [h.st.svc]
      rfl

theorem sim_parseLoop (L : Lib) (ap : Apart d a) (hE : ∀ p, E p) (hc : ∀ y ∈ c, '/' ∉ y) (hne : wd ≠ []) (hwd : locOf c wd = d) (n : Nat) :
    ∀ i, Sim a c d b (Side E x cp wd ins outs orig k) b (Side E x cp wd ins outs orig k) (fun _ => True) (ginParseLoop L n i) (ginParseLoop L n i) := by
  induction n with
  | zero => exact fun i => Sim.pure trivial
  | succ n ih =>
    intro i
    unfold ginParseLoop
    refine Sim.getSvc (fun p1 p2 h => ?_)
    have e : p2.svc.routes = p1.svc.routes := by rw [h.svc]; rfl
    rw [e]
    cases p1.svc.routes[i]? with
    | none => exact Sim.pure trivial
    | some route =>
      refine Sim.bind (A := fun _ => True) (b' := b) (St' := Side E x cp wd ins outs orig k) ?_ (fun _ _ => ?_)
      · split
        · exact sim_mainName ap hE hc hne hwd (fun m => Sim.pure trivial)
        · exact Sim.pure trivial
      · refine Sim.getSvc (fun p1 p2 h => ?_)
        have e1 : p2.svc.workDir = p1.svc.workDir := by rw [h.svc]; rfl
        have e2 : p2.svc.tempMain = p1.svc.tempMain := by rw [h.svc]; rfl
        have e3 : p2.svc.customFuncs = p1.svc.customFuncs := by rw [h.svc]; rfl
        have e4 : p2.svc.components = p1.svc.components := by rw [h.svc]; rfl
        rw [e1, e2, e3, e4]
        refine Sim.bind (sim_svc (k' := k) (fun _ => rfl) (fun p1 p2 h => ⟨h.workDir, h.cachePath, h.inputs, h.outputs, h.cells, hE _⟩)) (fun _ _ => ?_)
        cases (L.parse { workDir := p1.svc.workDir, mainPkg := p1.svc.tempMain, customFuncs := p1.svc.customFuncs } p1.svc.components route).2 with
        | err e => exact Sim.throw _
        | panic m => exact Sim.panic
        | ok route' =>
          exact Sim.bind (sim_svc (k' := k) (fun _ => rfl) (fun p1 p2 h => ⟨h.workDir, h.cachePath, h.inputs, h.outputs, h.cells, hE _⟩)) (fun _ _ => ih (i + 1))

theorem sim_ginParse (L : Lib) (ap : Apart d a) (hE : ∀ p, E p) (hc : ∀ y ∈ c, '/' ∉ y) (hne : wd ≠ []) (hwd : locOf c wd = d) :
    Sim a c d b (Side E x cp wd ins outs orig k) b (Side E x cp wd ins outs orig k) (fun _ => True) (ginParseRoutesM L) (ginParseRoutesM L) := by
  unfold ginParseRoutesM
  refine Sim.getSvc (fun p1 p2 h => ?_)
  have e : p2.svc.routes = p1.svc.routes := by rw [h.svc]; rfl
  rw [e]
  exact sim_parseLoop L ap hE hc hne hwd _ 0

theorem sim_runAll (L : Lib) (hE : ∀ p e, E p → E { p with log := p.log ++ [e] }) (ev : Nat → Event) (as : List Action)
    (h : ∀ f ∈ as, Sim a c d b (Side E x cp wd ins outs orig k) b (Side E x cp wd ins outs orig k) (fun _ => True) (f.run L) (f.run L)) :
    ∀ i, Sim a c d b (Side E x cp wd ins outs orig k) b (Side E x cp wd ins outs orig k) (fun _ => True) (runAll L ev i as) (runAll L ev i as) := by
  induction as with
  | nil => exact fun i => Sim.pure trivial
  | cons f as ih =>
    intro i
    unfold runAll
    exact Sim.bind (sim_log hE _ _) (fun _ _ => Sim.bind (h f (by simp)) (fun _ _ => ih (fun a' ha' => h a' (by simp [ha'])) (i + 1)))

/-! ### The outputs -/

theorem sim_setCell {k : Nat} (hE : ∀ p, E p) (v : Str) :
    Sim a c d b (Side E x cp wd ins outs orig (k + 1)) b (Side E x cp wd ins outs orig (k + 1)) (fun _ => True) (setCell k v) (setCell k v) := by
  refine sim_svc (fun _ => rfl) (fun p1 p2 h => ⟨h.workDir, h.cachePath, h.inputs, h.outputs, fun j hj => ?_, hE _⟩)
  simp only [List.getElem?_set]
  rw [if_neg (by omega)]
  exact h.cells j hj

theorem getD_of {cells : List Str} {k : Nat} {v : Str} (h : cells[k]? = some v) : cells.getD k [] = v := by
  rw [List.getD_eq_getElem?_getD, h]; rfl

theorem sim_json {k : Nat} {v : Str} (hE : ∀ p, E p) (hc : ∀ y ∈ c, '/' ∉ y) (hv : orig[k]? = some v)
    (hoff : ∀ q, resolve c (pathJoin [wd, jsonExt v]) = some q → Off a q) :
    Sim a c d b (Side E x cp wd ins outs orig k) b (Side E x cp wd ins outs orig (k + 1)) (fun _ => True) (jsonGenerate k) (jsonGenerate k) := by
  unfold jsonGenerate
  refine Sim.getSvc (fun p1 p2 h => ?_)
  have e1 : p2.svc.routes = p1.svc.routes := by rw [h.svc]; rfl
  have e2 : p2.svc.components = p1.svc.components := by rw [h.svc]; rfl
  have e3 : p2.svc.workDir = p1.svc.workDir := by rw [h.svc]; rfl
  rw [e1, e2, e3, h.workDir]
  refine Sim.bind (A := fun u => u = v) (b' := b) (St' := Side E x cp wd ins outs orig (k + 1)) ?_ (fun p hp => ?_)
  · unfold getCell
    refine Sim.getSvc (fun p1 p2 h => ?_)
    have e4 : p2.svc.cells = p1.svc.cells := by rw [h.svc]; rfl
    rw [e4, getD_of ((h.cells k (Nat.le_refl k)).trans hv)]
    exact Sim.post (St' := Side E x cp wd ins outs orig k) (Sim.pure (A := fun u => u = v) rfl) (fun _ _ h => h.later (by omega))
  · subst hp
    exact Sim.bind (sim_setCell hE _) (fun _ _ => sim_writeFile hc hoff)

theorem sim_openapi (L : Lib) {k : Nat} {v : Str} (hE : ∀ p, E p) (hc : ∀ y ∈ c, '/' ∉ y) (hv : orig[k]? = some v)
    (hoff : ∀ q, resolve c (pathJoin [wd, openApiExt v]) = some q → Off a q) :
    Sim a c d b (Side E x cp wd ins outs orig k) b (Side E x cp wd ins outs orig (k + 1)) (fun _ => True) (openApiGenerate L k) (openApiGenerate L k) := by
  unfold openApiGenerate
  refine Sim.get (fun p1 p2 h => ?_)
  have e0 : p2.names = p1.names := h.names
  have e1 : p2.svc.routes = p1.svc.routes := by rw [h.svc]; rfl
  have e2 : p2.svc.components = p1.svc.components := by rw [h.svc]; rfl
  have e3 : p2.svc.workDir = p1.svc.workDir := by rw [h.svc]; rfl
  have e4 : p2.svc.config = p1.svc.config := by rw [h.svc]; rfl
  have e5 : p2.svc.maps = p1.svc.maps := by rw [h.svc]; rfl
  rw [e0]
  simp only [e1, e2, e3, e4, e5]
  cases generateDoc L.choices p1.names
      { config := p1.svc.config, routes := p1.svc.routes, components := p1.svc.components, types := p1.svc.maps.merged } with
  | err e => exact Sim.throw _
  | panic m => exact Sim.panic
  | ok doc =>
    simp only
    refine Sim.bind (A := fun _ => True) (b' := b) (St' := Side E x cp wd ins outs orig k) (Sim.modify (fun q1 q2 h' => ?_)) (fun _ _ => ?_)
    · refine ⟨?_, ?_, h'.workDir, h'.cachePath, h'.inputs, h'.outputs, h'.cells, hE _⟩
      · simp only [h'.names]
      · simp only [h'.svc]; rfl
    · refine Sim.bind (A := fun u => u = v) (b' := b) (St' := Side E x cp wd ins outs orig (k + 1)) ?_ (fun p hp => ?_)
      · unfold getCell
        refine Sim.getSvc (fun p1 p2 h => ?_)
        have e4 : p2.svc.cells = p1.svc.cells := by rw [h.svc]; rfl
        rw [e4, getD_of ((h.cells k (Nat.le_refl k)).trans hv)]
        exact Sim.post (St' := Side E x cp wd ins outs orig k) (Sim.pure (A := fun u => u = v) rfl) (fun _ _ h => h.later (by omega))
      · subst hp
        refine Sim.bind (sim_setCell hE _) (fun _ _ => ?_)
        cases L.render (isYaml (openApiExt p)) doc with
        | error e => exact Sim.throw _
        | ok text =>
          simp only [h.workDir]
          exact Sim.bind (sim_setCell hE _) (fun _ _ => sim_writeFile hc hoff)

/-- The outputs that the options ask for: OpenAPI (`true`) or JSON, and the path. -/
def mkOutputs : Nat → List (Bool × Str) → List Output
  | _, [] => []
  | n, (true, f) :: l => { mode := modeOpenApi, generate := .openapi n, configuration := [(keyFilePath, .str f)] } :: mkOutputs (n + 1) l
  | n, (false, f) :: l => { mode := modeJson, generate := .json n, configuration := [(keyFilePath, .str f)] } :: mkOutputs (n + 1) l

/-- The file of such an output. -/
def extOf (e : Bool × Str) : Str := if e.1 then openApiExt e.2 else jsonExt e.2

theorem sim_outputs (L : Lib) (hE : ∀ p, E p) (hc : ∀ y ∈ c, '/' ∉ y) (l : List (Bool × Str)) :
    ∀ n i, (∀ j, orig[n + j]? = l[j]?.map (·.2)) → (∀ e ∈ l, ∀ q, resolve c (pathJoin [wd, extOf e]) = some q → Off a q) →
      Sim a c d b (Side E x cp wd ins outs orig n) b (Side E x cp wd ins outs orig (n + l.length)) (fun _ => True)
        (runAll L .output i ((mkOutputs n l).map (·.generate))) (runAll L .output i ((mkOutputs n l).map (·.generate))) := by
  induction l with
  | nil => exact fun n i _ _ => Sim.pure trivial
  | cons e l ih =>
    intro n i ho hoff
    have h0 : orig[n]? = some e.2 := by have := ho 0; simpa using this
    have hrest : ∀ j, orig[n + 1 + j]? = l[j]?.map (·.2) := by
      intro j
      have := ho (j + 1)
      rw [show n + (j + 1) = n + 1 + j by omega] at this
      simpa using this
    have hoff' : ∀ e ∈ l, ∀ q, resolve c (pathJoin [wd, extOf e]) = some q → Off a q := fun e he => hoff e (by simp [he])
    have he := hoff e (by simp)
    have hlen : n + (e :: l).length = n + 1 + l.length := by simp; omega
    rw [hlen]
    obtain ⟨t, f⟩ := e
    cases t with
    | true =>
      unfold mkOutputs
      simp only [List.map_cons]
      unfold runAll
      exact Sim.bind (sim_log (fun _ _ _ => hE _) _ _) (fun _ _ => Sim.bind (sim_openapi L hE hc h0 he) (fun _ _ => ih _ _ hrest hoff'))
    | false =>
      unfold mkOutputs
      simp only [List.map_cons]
      unfold runAll
      exact Sim.bind (sim_log (fun _ _ _ => hE _) _ _) (fun _ _ => Sim.bind (sim_json hE hc h0 he) (fun _ _ => ih _ _ hrest hoff'))

/-! ### The end of a run -/

/-- Without failures from outside, the program returns a value or an error. -/
def Calm {α : Type} (m : Prg α) : Prop := ∀ w, (∃ a, (m noFaults w).2 = .ok a) ∨ ∃ e, (m noFaults w).2 = .err e

theorem calm_call {α : Type} (p : Str) (run : FS → FPath → Except Errno (FS × α)) (part : Nat → (FPath → Bool) → FS → FPath → FS) :
    Calm (Run.call p run part : Prg α) := by
  intro w
  unfold Run.call
  simp only [noFaults]
  cases resolve w.cwd p with
  | none => exact Or.inr ⟨_, rfl⟩
  | some q =>
    simp only
    cases run w.fs q with
    | error e => exact Or.inr ⟨_, rfl⟩
    | ok r => exact Or.inl ⟨_, rfl⟩

theorem calm_removeAll (p : Str) : Calm (osRemoveAll p : Prg Unit) := by
  unfold osRemoveAll
  split
  · exact fun w => Or.inl ⟨_, rfl⟩
  · split
    · exact fun w => Or.inr ⟨_, rfl⟩
    · exact calm_call _ _ _

theorem Calm.bind {α β : Type} {m : Prg α} {f : α → Prg β} (hm : Calm m) (hf : ∀ a, Calm (f a)) : Calm (m >>= f) := by
  intro w
  rcases hm w with ⟨a, h⟩ | ⟨e, h⟩
  · rw [Run.bind_ok (w' := (m noFaults w).1) (Prod.ext rfl h)]
    exact hf a _
  · rw [Run.bind_err (w' := (m noFaults w).1) (Prod.ext rfl h)]
    exact Or.inr ⟨e, rfl⟩

theorem Calm.try_ {α : Type} {m : Prg α} (hm : Calm m) (w : World Proc) : ∃ w' r, Run.try_ m noFaults w = (w', .ok r) := by
  rcases hm w with ⟨a, h⟩ | ⟨e, h⟩
  · exact ⟨_, _, try_ok (w' := (m noFaults w).1) (Prod.ext rfl h)⟩
  · exact ⟨_, _, try_err (w' := (m noFaults w).1) (Prod.ext rfl h)⟩

theorem teardown_ok (w : World Proc) : (teardown noFaults w).2 = .ok () := by
  unfold teardown
  rw [Run.bind_ok (logEvent_ok _ noFaults w), Run.bind_ok (getSvc_ok noFaults _)]
  simp only
  have hcalm : Calm (if w.st.svc.cacheEnabled = false ∧ w.st.svc.cliMode = .none then cleanupAstraDir else cleanupTempMainPackage) := by
    split
    · exact Calm.bind (fun w => Or.inl ⟨_, rfl⟩) (fun s => calm_removeAll _)
    · refine Calm.bind (fun w => Or.inl ⟨_, rfl⟩) (fun s => Calm.bind (m := Run.try_ _) (fun w => ?_) (fun r => ?_))
      · obtain ⟨w', r, h⟩ := (calm_call _ _ _).try_ w
        exact Or.inl ⟨r, congrArg Prod.snd h⟩
      · cases r with
        | ok n => exact calm_removeAll _
        | error e => exact fun w => Or.inl ⟨_, rfl⟩
  obtain ⟨w', r, h⟩ := hcalm.try_ { w with st := { w.st with log := w.st.log ++ [.teardown] } }
  rw [Run.bind_ok h]
  rfl

/-- The trees agree except in .astra and in the cache. -/
abbrev SameButAstra (a d : FPath) (fs1 fs2 : FS) : Prop := SameOutside (fun q => d ++ [c!".astra"] <+: q ∨ a <+: q) fs1 fs2

theorem same_of_cache {fs1 fs2 : FS} (h : SameOutside (a <+: ·) fs1 fs2) : SameButAstra a d fs1 fs2 :=
  h.mono (fun _ hq => Or.inr hq)

/-- The second half of a run. -/
theorem sim_complete (L : Lib) (ap : Apart d a) (hat : CacheAt c wd cp a) (hx : x.cache = true → x.cachePath = cp) (hE : ∀ p, E p) (hc : ∀ y ∈ c, '/' ∉ y) (hne : wd ≠ []) (hwd : locOf c wd = d) {l : List (Bool × Str)}
    (hi : x.inputs.map (·.parseRoutes) = ins.map (·.parseRoutes)) (hgin : ∀ a ∈ ins.map (·.parseRoutes), a = .ginParse)
    (ho : outs = mkOutputs 0 l) (ho' : x.outputs = outs) (horig : orig = l.map (·.2))
    (hoff : ∀ e ∈ l, ∀ q, resolve c (pathJoin [wd, extOf e]) = some q → Off a q)
    (w1 w2 : World Proc) (h : Linked a c d true (Side E x cp wd ins outs orig 0) w1 w2) :
    (completeParse L noFaults w2).2 = (completeParse L noFaults w1).2 ∧
    SameButAstra a d (completeParse L noFaults w1).1.fs (completeParse L noFaults w2).1.fs := by
  have hilen : x.inputs = [] ↔ ins = [] := by
    have := congrArg List.length hi
    simp only [List.length_map] at this
    rw [← List.length_eq_zero_iff, this, List.length_eq_zero_iff]
  have hsim : Sim a c d true (Side E x cp wd ins outs orig 0) true (Side E x cp wd ins outs orig l.length) (fun _ => True)
      (checkIO >>= fun _ => stepParse L >>= fun _ => stepClean L >>= fun _ => stepGenerate L)
      (checkIO >>= fun _ => stepParse L >>= fun _ => stepClean L >>= fun _ => stepGenerate L) := by
    refine Sim.bind (sim_checkIO hilen (by rw [ho'])) (fun _ _ => Sim.bind (A := fun _ => True) (b' := true) (St' := Side E x cp wd ins outs orig 0) ?_
      (fun _ _ => Sim.bind (A := fun _ => True) (b' := true) (St' := Side E x cp wd ins outs orig 0) ?_ (fun _ _ => ?_)))
    · unfold stepParse
      refine Sim.bind (sim_log (fun _ _ _ => hE _) _ _) (fun _ _ => Sim.getSvc (fun p1 p2 h => ?_))
      have e : p2.svc.inputs.map (·.parseRoutes) = p1.svc.inputs.map (·.parseRoutes) := by rw [h.svc, h.inputs]; exact hi
      rw [e, h.inputs]
      refine Sim.bind (sim_runAll L (fun _ _ _ => hE _) _ _ (fun a ha => ?_) 0) (fun _ _ => sim_cache L ap hat hx)
      rw [hgin a ha]
      exact sim_ginParse L ap hE hc hne hwd
    · unfold stepClean
      refine Sim.bind (sim_log (fun _ _ _ => hE _) _ _) (fun _ _ => sim_mainName ap hE hc hne hwd (fun m => ?_))
      exact Sim.bind (sim_svc (k' := 0) (fun _ => rfl) (fun p1 p2 h => ⟨h.workDir, h.cachePath, h.inputs, h.outputs, h.cells, hE _⟩)) (fun _ _ => sim_cache L ap hat hx)
    · unfold stepGenerate
      refine Sim.bind (sim_log (fun _ _ _ => hE _) _ _) (fun _ _ => Sim.getSvc (fun p1 p2 h => ?_))
      have e : p2.svc.outputs = p1.svc.outputs := by rw [h.svc, h.outputs]; exact ho'
      rw [e, h.outputs, ho]
      have := sim_outputs (a := a) (b := true) (x := x) (cp := cp) (wd := wd) (ins := ins) (outs := outs) (orig := orig) (E := E) (c := c) (d := d) L hE hc l 0 0
        (by intro j; rw [horig]; simp) hoff
      rw [Nat.zero_add, ho] at this
      exact Sim.bind this (fun _ _ => sim_cache L ap hat hx)
  have split : ∀ w : World Proc, completeParse L noFaults w =
      ((checkIO >>= fun _ => stepParse L >>= fun _ => stepClean L >>= fun _ => stepGenerate L) >>= fun _ => teardown : Prg Unit) noFaults w := by
    intro w
    unfold completeParse
    simp only [bind_assoc']
  rw [split, split]
  obtain ⟨h1, h2, h3⟩ := hsim w1 w2 h
  revert h1 h2 h3
  generalize (checkIO >>= fun _ => stepParse L >>= fun _ => stepClean L >>= fun _ => stepGenerate L : Prg Unit) = m
  intro h1 h2 h3
  rcases bind_split (φ := noFaults) (w := w1) m teardown with ⟨v1, e1, r1⟩ | ⟨e1, r1⟩
  · rcases bind_split (φ := noFaults) (w := w2) m teardown with ⟨v2, e2, r2⟩ | ⟨e2, r2⟩
    · rw [r1, r2, teardown_ok, teardown_ok]
      refine ⟨rfl, ?_⟩
      rw [e1] at h2 h3
      rw [e2] at h2 h3
      have hl := (h3 () rfl).2
      have t1 := (teardown_changes_only noFaults v1 d (dirAt_iff.mpr (by rw [hl.cwd1, hl.st.workDir]; exact hwd))).1
      have t2 := (teardown_changes_only noFaults v2 d (dirAt_iff.mpr (by rw [hl.cwd2, hl.st.svc]; show locOf c v1.st.svc.workDir = d; rw [hl.st.workDir]; exact hwd))).1
      intro q hq
      rw [t2 q (fun h => hq (Or.inl h)), t1 q (fun h => hq (Or.inl h))]
      exact same_of_cache h2 q hq
    · exact absurd (by rw [h1, e1]) e2
  · rcases bind_split (φ := noFaults) (w := w2) m teardown with ⟨v2, e2, r2⟩ | ⟨e2, r2⟩
    · exact absurd (by rw [← h1, e2]) e1
    · rw [r1, r2]
      exact ⟨h1, same_of_cache h2⟩

/-! ### The first half of a run -/

theorem sim_mkdirAll (ap : Apart d a) (St : Proc → Proc → Prop) {p : Str} (hr : resolve c p = some (d ++ [c!".astra"])) :
    Sim a c d false St true St (fun _ => True) (osMkdirAll p : Prg Unit) (osMkdirAll p : Prg Unit) := by
  refine Sim.call (fun q fs1 fs2 hq ht => ?_)
  rw [hr] at hq
  cases hq
  have hany : (ancestors (d ++ [c!".astra"])).any fs2.isFile = (ancestors (d ++ [c!".astra"])).any fs1.isFile :=
    any_congr' (fun q hq => ht.isFile (off_prefix ap.above (mem_ancestors.mp hq)))
  unfold writing FS.mkdirAll
  rw [hany]
  by_cases hno : (ancestors (d ++ [c!".astra"])).any fs1.isFile = true
  · simp only [if_pos hno]
    exact .error _
  · · simp only [if_neg hno]
      have dirs : ∀ q, q <+: d ++ [c!".astra"] → (fs1.mkdirs (ancestors (d ++ [c!".astra"]))).look q = some .dir := by
        intro q hq
        rw [look_mkdirs]
        cases hl : fs1.look q with
        | none => rw [if_pos ⟨rfl, mem_ancestors.mpr hq⟩]
        | some n =>
          rw [if_neg (by rintro ⟨h, _⟩; cases h)]
          cases n with
          | dir => rfl
          | file t =>
            exfalso
            apply hno
            rw [List.any_eq_true]
            exact ⟨_, mem_ancestors.mpr hq, FS.isFile_iff.mpr ⟨t, hl⟩⟩
      refine .ok ⟨?_, fun _ => dirs _ (List.prefix_refl _), ?_, Or.inl ?_⟩ trivial
      · intro q hq
        rw [look_mkdirs, look_mkdirs, ht.same q hq]
      · intro n hn
        rw [look_mkdirs] at hn
        split at hn
        · rename_i h
          have := mem_ancestors.mp h.2
          rw [List.prefix_append_right_inj] at this
          have : n = c!".astra" := by
            obtain ⟨t, ht⟩ := this
            simp at ht
            exact ht.1
          subst this
          decide
        · exact ht.names n hn
      · rcases ht.spot with hs | ⟨_, hs⟩
        · rw [look_mkdirs, if_neg (by rw [hs]; rintro ⟨h, _⟩; cases h)]
          exact hs
        · exact dirs _ hs

theorem sim_setupDir (ap : Apart d a) (hc : ∀ y ∈ c, '/' ∉ y) (hwd : locOf c wd = d) :
    Sim a c d false (Side E x cp wd ins outs orig k) true (Side E x cp wd ins outs orig k) (fun _ => True) setupAstraDir setupAstraDir := by
  unfold setupAstraDir
  refine Sim.getSvc (fun p1 p2 h => ?_)
  have e : astraDirPath p2.svc = astraDirPath p1.svc := by rw [h.svc]; rfl
  rw [e]
  refine Sim.bind (sim_mkdirAll ap _ (by rw [resolve_astra, h.workDir, hwd])) (fun _ _ => ?_)
  unfold setupGitIgnore
  refine Sim.getSvc (fun p1 p2 h => ?_)
  have e : astraDirPath p2.svc = astraDirPath p1.svc := by rw [h.svc]; rfl
  rw [e]
  have hoff : ∀ q, resolve c (pathJoin [astraDirPath p1.svc, c!".gitignore"]) = some q → Off a q := by
    intro q hq
    rw [resolve_in_astra c p1.svc plain_gitignore, h.workDir, hwd] at hq
    cases hq
    exact ap.off_in_astra (by decide)
  refine Sim.bind (sim_stat hoff) (fun r _ => ?_)
  cases r with
  | ok n => exact Sim.pure trivial
  | error e => exact Sim.bind (Astra.sim_create hc hoff) (fun _ _ => sim_write hc hoff)

/-- A route as the router gives it. -/
def BareRoute (r : Route) : Prop :=
  r.pathParams = [] ∧ r.queryParams = [] ∧ r.body = [] ∧ r.returnTypes = [] ∧ r.requestHeaders = [] ∧ r.responseHeaders = []

theorem bare_createRoutes (deny : List (Str → Bool)) (rel : Str → Except Str Str) (infos : List RouteInfo) :
    ∀ routes, (∀ r ∈ routes, BareRoute r) → ∀ r ∈ (createRoutes deny rel infos routes).1, BareRoute r := by
  induction infos with
  | nil => exact fun routes h => h
  | cons i infos ih =>
    intro routes h
    unfold createRoutes
    split
    · exact ih routes h
    · split
      · exact h
      · apply ih
        intro r hr
        rcases List.mem_append.mp hr with hr | hr
        · exact h r hr
        · simp only [List.mem_singleton] at hr
          subst hr
          exact ⟨rfl, rfl, rfl, rfl, rfl, rfl⟩

/-- What holds of the process before the routes are analysed. -/
structure Early (deny : List (Str → Bool)) (p : Proc) : Prop where
  names : p.names = []
  denyList : p.svc.denyList = deny
  routes : ∀ r ∈ p.svc.routes, BareRoute r
  components : p.svc.components = []
  maps : p.svc.maps = {}
  tempMain : p.svc.tempMain = []
  customFuncs : p.svc.customFuncs = []

theorem sim_first (L : Lib) (ap : Apart d a) (hat : CacheAt c wd cp a) (hx : x.cache = true → x.cachePath = cp) (getwd : Str) {wd0 : Str} (hc : ∀ y ∈ c, '/' ∉ y) (hwd0 : locOf c wd0 = d)
    (hset : wd = if wd0 = [] then getwd else wd0) (hi : x.inputs = ins) (ho : x.outputs = outs) (hgin : ∀ a ∈ ins.map (·.createRoutes), ∃ r, a = .ginCreate r) :
    Sim a c d false (Side (Early x.deny) x cp wd0 ins outs orig k) true (Side (Early x.deny) x cp wd ins outs orig k) (fun _ => True)
      (checkIO >>= fun _ => setup L getwd >>= fun _ => logEvent .createRoutes >>= fun _ => getSvc >>= fun s => runAll L .create 0 (s.inputs.map (·.createRoutes)))
      (checkIO >>= fun _ => setup L getwd >>= fun _ => logEvent .createRoutes >>= fun _ => getSvc >>= fun s => runAll L .create 0 (s.inputs.map (·.createRoutes))) := by
  have hE : ∀ p e, Early x.deny p → Early x.deny { p with log := p.log ++ [e] } := fun p e h => ⟨h.1, h.2, h.3, h.4, h.5, h.6, h.7⟩
  refine Sim.bind (sim_checkIO (by rw [hi]) (by rw [ho])) (fun _ _ => Sim.bind (A := fun _ => True) (b' := true) (St' := Side (Early x.deny) x cp wd ins outs orig k) ?_ (fun _ _ => ?_))
  · unfold setup
    refine Sim.bind (sim_log hE _ _) (fun _ _ => Sim.bind (sim_setupDir ap hc hwd0) (fun _ _ => Sim.bind (A := fun _ => True) (b' := true) (St' := Side (Early x.deny) x cp wd ins outs orig k) ?_ (fun _ _ => sim_cache L ap hat hx)))
    refine sim_svc (fun s => ?_) (fun p1 p2 h => ?_)
    · show (if s.workDir = [] then _ else _) = x.on (if s.workDir = [] then _ else _)
      split <;> rfl
    · have e := h.extra
      rw [hset]
      by_cases h0 : p1.svc.workDir = []
      · have : wd0 = [] := by rw [← h.workDir, h0]
        rw [if_pos this]
        simp only [h0, if_true]
        exact ⟨trivial, h.cachePath, h.inputs, h.outputs, h.cells, ⟨e.1, e.2, e.3, e.4, e.5, e.6, e.7⟩⟩
      · have : wd0 ≠ [] := by rw [← h.workDir]; exact h0
        rw [if_neg this]
        simp only [h0, if_false]
        exact ⟨h.workDir, h.cachePath, h.inputs, h.outputs, h.cells, ⟨e.1, e.2, e.3, e.4, e.5, e.6, e.7⟩⟩
  · refine Sim.bind (sim_log hE _ _) (fun _ _ => Sim.getSvc (fun p1 p2 h => ?_))
    have e : p2.svc.inputs = p1.svc.inputs := by rw [h.svc, h.inputs]; exact hi
    rw [e, h.inputs]
    refine sim_runAll L hE _ _ (fun a ha => ?_) 0
    obtain ⟨r, rfl⟩ := hgin a ha
    exact sim_create L (fun p h => h.denyList) (fun p infos h => ⟨h.1, h.2, bare_createRoutes _ _ _ _ h.3, h.4, h.5, h.6, h.7⟩) r

/-! ### Loading and rebinding -/

theorem each_nil {α β : Type} {R : α → β → Prop} {l : List α} {l' : List β} (h : Each R l l') (e : l = []) : l' = [] := by
  subst e
  cases h
  rfl

theorem restored_bare {f64 : Str → Str} {l l' : List Route} (h : Each (RestoredRoute f64) l l') (hb : ∀ r ∈ l, BareRoute r) : l' = l := by
  induction h with
  | nil => rfl
  | @cons r r' rs rs' h _ ih =>
    obtain ⟨b1, b2, b3, b4, b5, b6⟩ := hb r (by simp)
    have e : r' = r := by
      rw [h.rest, each_nil h.pathParams b1, each_nil h.queryParams b2, each_nil h.body b3, each_nil h.returnTypes b4, each_nil h.requestHeaders b5,
        each_nil h.responseHeaders b6]
      cases r
      simp only at b1 b2 b3 b4 b5 b6
      subst b1; subst b2; subst b3; subst b4; subst b5; subst b6
      rfl
    rw [e, ih (fun r hr => hb r (by simp [hr]))]

theorem rebind_made (l : List (Bool × Str)) (hl : ∀ e ∈ l, e.2 ≠ []) : ∀ (n : Nat) (os : List Output) (s : Service), Each SameOutput (mkOutputs n l) os →
    rebindOutputs os s = ({ s with outputs := s.outputs ++ mkOutputs s.cells.length l, cells := s.cells ++ l.map (·.2) }, none) := by
  induction l with
  | nil =>
    intro n os s h
    cases h
    simp [rebindOutputs, mkOutputs]
  | cons e l ih =>
    intro n os s h
    obtain ⟨t, f⟩ := e
    have hf : f ≠ [] := hl (t, f) (by simp)
    have hl' : ∀ e ∈ l, e.2 ≠ [] := fun e he => hl e (by simp [he])
    cases t with
    | true =>
      unfold mkOutputs at h
      cases h with
      | @cons _ o' _ os' h1 h2 =>
        obtain ⟨hm, hp⟩ := h1
        have hcfg : o'.configuration = [(keyFilePath, .str f)] := List.perm_singleton.mp hp.symm
        have hc : configStr o'.configuration keyFilePath = (f, true) := by rw [hcfg]; simp [configStr, aget]
        unfold rebindOutputs
        rw [hm, hc, if_neg (show ¬ modeOpenApi = modeAzure by decide), if_neg (show ¬ modeOpenApi = modeJson by decide), if_pos rfl, if_neg (by simp [hf]), ih hl' (n + 1) os' _ h2]
        simp [withOpenApiOutput, mkOutputs]
    | false =>
      unfold mkOutputs at h
      cases h with
      | @cons _ o' _ os' h1 h2 =>
        obtain ⟨hm, hp⟩ := h1
        have hcfg : o'.configuration = [(keyFilePath, .str f)] := List.perm_singleton.mp hp.symm
        have hc : configStr o'.configuration keyFilePath = (f, true) := by rw [hcfg]; simp [configStr, aget]
        unfold rebindOutputs
        rw [hm, hc, if_neg (show ¬ modeJson = modeAzure by decide), if_pos rfl, if_neg (by simp [hf]), ih hl' (n + 1) os' _ h2]
        simp [withJsonOutput, mkOutputs]

/-- Rebound gin inputs. -/
def ginInputs (n : Nat) : List Input := List.replicate n { mode := modeGin, createRoutes := .ginCreate none, parseRoutes := .ginParse }

theorem rebind_gin (is : List Input) (h : ∀ i ∈ is, i.mode = modeGin) : ∀ s, rebindInputs is s = ({ s with inputs := s.inputs ++ ginInputs is.length }, none) := by
  induction is with
  | nil => intro s; simp [rebindInputs, ginInputs]
  | cons i is ih =>
    intro s
    unfold rebindInputs
    rw [if_pos (h i (by simp)), ih (fun i hi => h i (by simp [hi]))]
    simp [withGinInput, ginInputs, List.replicate_succ]

/-! ### Options -/

/-- What portable options make of a service. -/
structure Made (opts : List Opt) (s : Service) (l : List (Bool × Str)) : Prop where
  outputs : s.outputs = mkOutputs 0 l
  cells : s.cells = l.map (·.2)
  inputs : ∀ i ∈ s.inputs, i.mode = modeGin ∧ (∃ r, i.createRoutes = .ginCreate r) ∧ i.parseRoutes = .ginParse
  routes : s.routes = []
  components : s.components = []
  maps : s.maps = {}
  tempMain : s.tempMain = []
  customFuncs : s.customFuncs = []
  paths : ∀ e ∈ l, e.2 ≠ [] ∧ ∃ o ∈ opts, requestedFile o = some (extOf e)

theorem mkOutputs_append (l : List (Bool × Str)) (e : Bool × Str) : ∀ n, mkOutputs n (l ++ [e]) = mkOutputs n l ++ mkOutputs (n + l.length) [e] := by
  induction l with
  | nil => intro n; simp [mkOutputs]
  | cons a l ih =>
    intro n
    obtain ⟨t, f⟩ := a
    have : n + 1 + l.length = n + (l.length + 1) := by omega
    cases t <;> simp [mkOutputs, ih, this]

theorem made_new (opts : List Opt) (hp : ∀ o ∈ opts, Portable o) : ∃ l, Made opts (newService opts) l := by
  have key : ∀ (done rest : List Opt) (s : Service), (∀ o ∈ rest, Portable o) → (∃ l, Made done s l) → ∃ l, Made (done ++ rest) (rest.foldl (fun s o => o.apply s) s) l := by
    intro done rest
    induction rest generalizing done with
    | nil => intro s _ h; simpa using h
    | cons o rest ih =>
      intro s hp h
      have hpo := hp o (by simp)
      have := ih (done ++ [o]) (o.apply s) (fun o ho => hp o (by simp [ho])) ?_
      · simpa using this
      · obtain ⟨l, h⟩ := h
        have mono : ∀ e ∈ l, e.2 ≠ [] ∧ ∃ o' ∈ done ++ [o], requestedFile o' = some (extOf e) := by
          intro e he
          obtain ⟨h1, o', ho', h2⟩ := h.paths e he
          exact ⟨h1, o', by simp [ho'], h2⟩
        cases o with
        | ginInput r =>
          refine ⟨l, h.outputs, h.cells, ?_, h.routes, h.components, h.maps, h.tempMain, h.customFuncs, mono⟩
          intro i hi
          rcases List.mem_append.mp hi with hi | hi
          · exact h.inputs i hi
          · simp only [List.mem_singleton] at hi
            subst hi
            exact ⟨rfl, ⟨r, rfl⟩, rfl⟩
        | openApiOutput f =>
          refine ⟨l ++ [(true, f)], ?_, ?_, h.inputs, h.routes, h.components, h.maps, h.tempMain, h.customFuncs, ?_⟩
          · rw [mkOutputs_append]
            simp [Opt.apply, withOpenApiOutput, h.outputs, h.cells, mkOutputs]
          · simp [Opt.apply, withOpenApiOutput, h.cells]
          · intro e he
            rcases List.mem_append.mp he with he | he
            · exact mono e he
            · simp only [List.mem_singleton] at he
              subst he
              exact ⟨hpo, .openApiOutput f, by simp, by simp [requestedFile, extOf, openApiExt_spec]⟩
        | jsonOutput f =>
          refine ⟨l ++ [(false, f)], ?_, ?_, h.inputs, h.routes, h.components, h.maps, h.tempMain, h.customFuncs, ?_⟩
          · rw [mkOutputs_append]
            simp [Opt.apply, withJsonOutput, h.outputs, h.cells, mkOutputs]
          · simp [Opt.apply, withJsonOutput, h.cells]
          · intro e he
            rcases List.mem_append.mp he with he | he
            · exact mono e he
            · simp only [List.mem_singleton] at he
              subst he
              exact ⟨hpo, .jsonOutput f, by simp, by simp [requestedFile, extOf, jsonExt_spec]⟩
        | azureOutput _ => exact absurd hpo (fun h => h)
        | cachePath _ => exact ⟨l, h.outputs, h.cells, h.inputs, h.routes, h.components, h.maps, h.tempMain, h.customFuncs, mono⟩
        | cli => exact absurd hpo (fun h => h)
        | cliBuilder => exact absurd hpo (fun h => h)
        | customFunc _ => exact absurd hpo (fun h => h)
        | typeMapping _ => exact absurd hpo (fun h => h)
        | customLogger _ => exact ⟨l, h.outputs, h.cells, h.inputs, h.routes, h.components, h.maps, h.tempMain, h.customFuncs, mono⟩
        | customLogLevel _ => exact ⟨l, h.outputs, h.cells, h.inputs, h.routes, h.components, h.maps, h.tempMain, h.customFuncs, mono⟩
        | config _ => exact ⟨l, h.outputs, h.cells, h.inputs, h.routes, h.components, h.maps, h.tempMain, h.customFuncs, mono⟩
        | workDir _ => exact ⟨l, h.outputs, h.cells, h.inputs, h.routes, h.components, h.maps, h.tempMain, h.customFuncs, mono⟩
        | cache => exact ⟨l, h.outputs, h.cells, h.inputs, h.routes, h.components, h.maps, h.tempMain, h.customFuncs, mono⟩
        | deny _ => exact ⟨l, h.outputs, h.cells, h.inputs, h.routes, h.components, h.maps, h.tempMain, h.customFuncs, mono⟩
  have := key [] opts {} hp ⟨[], rfl, rfl, fun _ h => (nomatch h), rfl, rfl, rfl, rfl, rfl, fun _ h => (nomatch h)⟩
  simpa [newService] using this

theorem made_conf (l : List (Bool × Str)) : ∀ n, ∀ o ∈ mkOutputs n l, ∃ f, o.configuration = [(keyFilePath, .str f)] := by
  induction l with
  | nil => intro n o ho; exact (nomatch ho)
  | cons e l ih =>
    intro n o ho
    obtain ⟨t, f⟩ := e
    cases t
    all_goals
      unfold mkOutputs at ho
      rcases List.mem_cons.mp ho with rfl | ho
      · exact ⟨f, rfl⟩
      · exact ih _ o ho

theorem each_input {l l' : List Input} (h : Each SameInput l l') (hm : ∀ i ∈ l, i.mode = modeGin) : (∀ i ∈ l', i.mode = modeGin) ∧ l'.length = l.length := by
  induction h with
  | nil => exact ⟨fun _ h => (nomatch h), rfl⟩
  | @cons i i' is is' h _ ih =>
    obtain ⟨h1, h2⟩ := ih (fun i hi => hm i (by simp [hi]))
    refine ⟨?_, by simp [h2]⟩
    intro j hj
    rcases List.mem_cons.mp hj with e | hj
    · have : i'.mode = i.mode := h
      rw [e, this]
      exact hm i (by simp)
    · exact h1 j hj

/-- What the CLI option changes. -/
def cliDress (opts : List Opt) : Dress :=
  ⟨(newService opts).inputs, (newService opts).outputs, true, .setup, (newService opts).log, (newService opts).denyList, (newService opts).cachePath⟩

/-- The second half: from the end of the first process on the one side and the same point of the run in one process on the other. -/
theorem second {L : Lib} {opts : List Opt} {l : List (Bool × Str)} {getwd cacheFile dir : Str} (made : Made opts (newService opts) l)
    (ap : Apart d a) (hat : CacheAt c wd (newService opts).cachePath a)
    (hc : ∀ n ∈ c, '/' ∉ n) (hne : wd ≠ []) (hloc : locOf c wd = d) (hdir : (if isAbs dir then dir else pathJoin [getwd, dir]) = wd)
    (hcache : resolve c cacheFile = some a) (hjson : c!".json" <:+ cacheFile)
    (hout : ∀ o ∈ opts, ∀ f, requestedFile o = some f → ∀ q, resolve c (pathJoin [wd, f]) = some q → ¬ a <+: q)
    {v1 v2 : World Proc}
    (h : Linked a c d true (Side (Early (newService opts).denyList) (cliDress opts) (newService opts).cachePath wd (newService opts).inputs (newService opts).outputs
      (newService opts).cells 0) v1 v2) :
    ((cacheIfEnabled L >>= fun _ => cliGenerate L getwd cacheFile dir : Prg Unit) noFaults v2).2 = ((cacheIfEnabled L >>= fun _ => completeParse L : Prg Unit) noFaults v1).2 ∧
    SameButAstra a d ((cacheIfEnabled L >>= fun _ => completeParse L : Prg Unit) noFaults v1).1.fs
      ((cacheIfEnabled L >>= fun _ => cliGenerate L getwd cacheFile dir : Prg Unit) noFaults v2).1.fs := by
  -- caching on the two sides
  have hs1 : v1.fs.look a.dropLast = some .dir := by
    rcases h.twin.spot with hs | ⟨hs, _⟩
    · exact hs
    · cases hs
  have hs2 : v2.fs.look a.dropLast = some .dir := by rw [h.twin.look ap.off_dir]; exact hs1
  have hsvc : v2.st.svc = Dress.on _ v1.st.svc := h.st.svc
  obtain ⟨g1, g2⟩ := hat v2.st.svc (by rw [hsvc]; exact h.st.workDir) (by rw [hsvc]; rfl)
  obtain ⟨u2, k1, k2, k3, k4, k5⟩ := cache_quiet_at L v2 (by rw [h.cwd2]; exact g1) g2 ap.ne hs2
  have hen : cacheIfEnabled L noFaults v2 = (u2, .ok ()) := by
    unfold cacheIfEnabled
    rw [Run.bind_ok (getSvc_ok noFaults v2), hsvc]
    exact k1
  obtain ⟨s1, s2, s3⟩ := sim_cache L ap hat (fun _ => rfl) v1 v2 h
  rw [hen] at s1 s2 s3
  cases hv : cacheIfEnabled L noFaults v1 with
  | mk u1 x1 =>
  rw [hv] at s1 s2 s3
  obtain rfl : x1 = .ok () := s1.symm
  have hl := (s3 () rfl).2
  rw [Run.bind_ok hv, Run.bind_ok hen]
  -- the cache
  have hE := hl.st.extra
  have hsv2 : u2.st.svc = Dress.on _ u1.st.svc := hl.st.svc
  have hok : Cacheable v2.st.svc := by
    rw [← k3, hsv2]
    have hf : serviceFields (Dress.on (cliDress opts) u1.st.svc) = [] := by
      show u1.st.svc.routes.flatMap routeFields ++ u1.st.svc.components = []
      rw [hE.components, List.append_nil, List.flatMap_eq_nil_iff]
      intro r hr
      obtain ⟨b1, b2, b3, b4, b5, b6⟩ := hE.routes r hr
      simp [routeFields, b1, b2, b3, b4, b5, b6]
    refine ⟨by rw [hf]; exact fun _ h => (nomatch h), by rw [hf]; exact fun _ h => (nomatch h), ?_, ?_, ?_⟩
    · intro o ho
      obtain ⟨f, e⟩ := made_conf l 0 o (by rw [← made.outputs]; exact ho)
      rw [e]
      simp
    · intro o ho e he
      obtain ⟨f, e'⟩ := made_conf l 0 o (by rw [← made.outputs]; exact ho)
      rw [e'] at he
      simp only [List.mem_singleton] at he
      subst he
      exact trivial
    · show (u1.st.svc.maps.custom.map (·.1)).Nodup
      rw [hE.maps]
      simp
  obtain ⟨dat, hdat, hfrom⟩ := decode_cached L hjson hok
  -- the command up to the second half
  let base : Service := newService [.cliBuilder, .workDir wd]
  have from_ := hfrom base
  have hins : (∀ i ∈ (dat.into base).inputs, i.mode = modeGin) ∧ (dat.into base).inputs.length = (newService opts).inputs.length := by
    refine each_input ?_ (fun i hi => (made.inputs i hi).1)
    have := from_.inputs
    rw [hsvc] at this
    exact this
  have houts : Each SameOutput (mkOutputs 0 l) (dat.into base).outputs := by
    have := from_.outputs
    rw [hsvc] at this
    rw [← made.outputs]
    exact this
  have hroutes : (dat.into base).routes = u1.st.svc.routes := by
    have := from_.routes
    rw [← k3, hsv2] at this
    exact restored_bare this hE.routes
  have hcomps : (dat.into base).components = [] := by
    have := from_.components
    rw [← k3, hsv2] at this
    exact each_nil this hE.components
  have hconf : (dat.into base).config = u1.st.svc.config := by
    rw [from_.config, ← k3, hsv2]
    rfl
  have hrest := from_.rest
  let x2 : Dress := ⟨ginInputs (newService opts).inputs.length, mkOutputs 0 l, false, .builder, {}, [], []⟩
  have hcells : u1.st.svc.cells = l.map (·.2) := by
    rw [← made.cells]
    exact List.ext_getElem? (fun j => hl.st.cells j (Nat.zero_le j))
  have hbind : rebindOptions (dat.into base) = (x2.on u1.st.svc, none) := by
    unfold rebindOptions
    rw [rebind_gin _ hins.1]
    simp only
    rw [rebind_made l (fun e he => (made.paths e he).1) 0 _ _ houts]
    refine Prod.ext ?_ rfl
    generalize hz : dat.into base = z at *
    rw [hrest]
    have w1 := hl.st.workDir
    have w3 := hE.denyList
    have w4 := hE.maps
    have w5 := hE.tempMain
    have w6 := hE.customFuncs
    have w7 := hE.components
    simp only [x2, Dress.on, base, newService, List.foldl, Opt.apply, hroutes, hcomps, hconf, hins.2, List.nil_append, List.length_nil]
    revert hcells w1 w3 w4 w5 w6 w7
    generalize u1.st.svc = s
    intro hcells w1 w3 w4 w5 w6 w7
    cases s
    simp only at hcells w1 w3 w4 w5 w6 w7
    subst hcells; subst w1; subst w4; subst w5; subst w6; subst w7
    rfl
  have hgen : cliGenerate L getwd cacheFile dir noFaults u2 = completeParse L noFaults { u2 with clock := u2.clock + 1, st := { svc := x2.on u1.st.svc } } := by
    unfold cliGenerate
    rw [hdir]
    have h1 : Run.modify (fun _ => { svc := newService [.cliBuilder, .workDir wd] }) noFaults u2 = ({ u2 with st := { svc := base } }, .ok ()) := rfl
    rw [Run.bind_ok h1]
    rw [Run.bind_ok (loadCacheFrom_ok (v := { u2 with st := { svc := base } }) rfl (by show resolve u2.cwd _ = _; rw [hl.cwd2]; exact hcache) k5 hdat)]
    rw [Run.bind_ok (getSvc_ok noFaults _)]
    show (modifySvc (fun _ => (rebindOptions (dat.into base)).1) >>= fun _ => (match (rebindOptions (dat.into base)).2 with
      | some e => Run.throw (.msg e)
      | none => completeParse L) : Prg Unit) noFaults _ = _
    rw [hbind]
    rfl
  rw [hgen]
  refine sim_complete (E := fun _ => True) (x := x2) (cp := (newService opts).cachePath) (ins := (newService opts).inputs) (outs := (newService opts).outputs) (orig := (newService opts).cells)
    (c := c) (l := l) L ap hat (fun h => (nomatch h)) (fun _ => trivial) hc hne hloc ?_ ?_ made.outputs made.outputs.symm made.cells ?_ _ _
    ⟨hl.cwd1, hl.cwd2, hl.twin, hE.names.symm, rfl, hl.st.workDir, hl.st.cachePath, hl.st.inputs, hl.st.outputs, hl.st.cells, trivial⟩
  · have key : ∀ is : List Input, (∀ i ∈ is, i.parseRoutes = .ginParse) → (ginInputs is.length).map (·.parseRoutes) = is.map (·.parseRoutes) := by
      intro is
      induction is with
      | nil => intro _; rfl
      | cons i is ih =>
        intro h
        have := ih (fun i hi => h i (by simp [hi]))
        simp only [ginInputs, List.length_cons, List.replicate_succ, List.map_cons] at this ⊢
        rw [this, h i (by simp)]
    exact key _ (fun i hi => (made.inputs i hi).2.2)
  · intro a ha
    obtain ⟨i, hi, rfl⟩ := List.mem_map.mp ha
    exact (made.inputs i hi).2.2
  · intro e he
    obtain ⟨_, o, ho, hf⟩ := made.paths e he
    exact hout o ho _ hf

theorem json_component {c : FPath} {p : Str} {q : FPath} (h : resolve c p = some q) (hj : c!".json" <:+ p) : ∃ dir n, q = dir ++ [n] ∧ c!".json" <:+ n := by
  obtain ⟨pre, rfl⟩ := hj
  unfold resolve at h
  split at h
  · cases h
  · cases h
    obtain ⟨l, y, hl⟩ := split_append_nosep (sep := '/') pre (suf := c!".json") (by decide)
    unfold segments
    rw [hl, walk_append]
    refine ⟨walk (if isAbs (pre ++ c!".json") then [] else c) l, y ++ c!".json", ?_, List.suffix_append _ _⟩
    show walkStep _ _ = _
    have hlen : (y ++ c!".json").length ≥ 5 := by simp
    unfold walkStep
    rw [if_neg (by rintro (h | h) <;> (rw [h] at hlen; simp at hlen)), if_neg (by rintro h; rw [h] at hlen; simp at hlen)]

/-- C40: a run in two processes, the first with the CLI option and the second the command, ends as a run in one process does and leaves the same
tree outside the .astra directory and the cache. -/
theorem cli_equals_parse_partial (L : Lib) (opts : List Opt) (fs : FS) (cwd d a : FPath) (getwd cacheFile dir : Str)
    (hp : ∀ o ∈ opts, Portable o) (hcwd : resolve cwd getwd = some cwd) (hc : ∀ n ∈ cwd, '/' ∉ n) (hn : ∀ n, fs.look (d ++ [n]) ≠ none → '/' ∉ n)
    (hdir : (if isAbs dir then dir else pathJoin [getwd, dir]) = if requestedDir opts = [] then getwd else requestedDir opts)
    (hd : resolve cwd (if requestedDir opts = [] then getwd else requestedDir opts) = some d)
    (ha : CachedAt cwd d opts a) (hexist : fs.look a.dropLast = some .dir ∨ a.dropLast <+: d ++ [c!".astra"])
    (habove : ¬ a <+: d ++ [c!".astra"]) (hmain : ¬ d ++ [c!".astra", c!"astramain"] <+: a)
    (hcache : resolve cwd cacheFile = some a) (hjson : c!".json" <:+ cacheFile)
    (hout : ∀ o ∈ opts, ∀ f, requestedFile o = some f → ∀ q, resolve cwd (pathJoin [if requestedDir opts = [] then getwd else requestedDir opts, f]) = some q →
      ¬ a <+: q) :
    let one := parseAll L getwd noFaults { fs := fs, clock := 0, cwd := cwd, st := { svc := newService opts } }
    let two := (setupParse L getwd >>= fun _ => cliGenerate L getwd cacheFile dir : Prg Unit) noFaults
      { fs := fs, clock := 0, cwd := cwd, st := { svc := newService (opts ++ [.cli]) } }
    two.2 = one.2 ∧ ∀ q, ¬ d ++ [c!".astra"] <+: q → ¬ a <+: q → two.1.fs.look q = one.1.fs.look q := by
  intro one two
  obtain ⟨l, made⟩ := made_new opts hp
  have hwd0 : (newService opts).workDir = requestedDir opts := (options_last_wins opts).2.1
  generalize hwd : (if requestedDir opts = [] then getwd else requestedDir opts) = wd at *
  have hne : wd ≠ [] := by
    rintro rfl
    simp [resolve] at hd
  have hloc : locOf cwd wd = d := by
    rw [resolve_eq hne] at hd
    exact Option.some.inj hd
  have hloc0 : locOf cwd (requestedDir opts) = d := by
    by_cases h0 : requestedDir opts = []
    · rw [if_pos h0] at hwd
      subst hwd
      rw [hcwd] at hd
      rw [h0, ← Option.some.inj hd]
      rfl
    · rw [if_neg h0] at hwd
      rw [hwd]
      exact hloc
  have hcp : (newService opts).cachePath = requestedCache opts := (options_last_wins opts).2.2.1
  have ap : Apart d a := by
    refine ⟨?_, habove, hmain⟩
    obtain ⟨dir, n, h1, h2⟩ := json_component hcache hjson
    exact ⟨dir, n, h1, h2, resolve_no_slash hc hcache n (by rw [h1]; simp)⟩
  have hat : CacheAt cwd wd (newService opts).cachePath a := by
    intro s hs1 hs2
    rw [hcp] at hs2
    by_cases h0 : requestedCache opts = []
    · have hpath : cachePathOf s = pathJoin [astraDirPath s, cacheFileName] := by simp [cachePathOf, hs2, h0]
      rw [hpath, resolve_in_astra cwd s plain_cacheFile, hs1, hloc, ha.1 h0]
      exact ⟨rfl, default_path_json s⟩
    · have hpath : cachePathOf s = requestedCache opts := by simp [cachePathOf, hs2, h0]
      rw [hpath]
      exact ha.2 h0
  let x : Dress := cliDress opts
  let cp : Str := (newService opts).cachePath
  have hnew : newService (opts ++ [.cli]) = x.on (newService opts) := by
    unfold newService
    rw [List.foldl_append]
    rfl
  let first : Prg Unit := checkIO >>= fun _ => setup L getwd >>= fun _ => logEvent .createRoutes >>= fun _ => getSvc >>= fun s => runAll L .create 0 (s.inputs.map (·.createRoutes))
  have hsim : Sim a cwd d false (Side (Early x.deny) x cp (requestedDir opts) (newService opts).inputs (newService opts).outputs (newService opts).cells 0) true
      (Side (Early x.deny) x cp wd (newService opts).inputs (newService opts).outputs (newService opts).cells 0) (fun _ => True) first first :=
    sim_first L ap hat (fun _ => rfl) getwd hc hloc0 hwd.symm rfl rfl (by
      intro a ha
      obtain ⟨i, hi, rfl⟩ := List.mem_map.mp ha
      exact (made.inputs i hi).2.1)
  have e1 : setupParse L getwd = (first >>= fun _ => cacheIfEnabled L : Prg Unit) := by
    unfold setupParse stepCreate
    simp only [first, bind_assoc']
  have hlink : Linked a cwd d false (Side (Early x.deny) x cp (requestedDir opts) (newService opts).inputs (newService opts).outputs (newService opts).cells 0)
      { fs := fs, clock := 0, cwd := cwd, st := { svc := newService opts } } { fs := fs, clock := 0, cwd := cwd, st := { svc := newService (opts ++ [.cli]) } } :=
    ⟨rfl, rfl, ⟨SameOutside.refl _ _, fun h => (nomatch h), hn, hexist.imp id (fun h => ⟨rfl, h⟩)⟩, rfl, hnew, hwd0, rfl, rfl, rfl, fun _ _ => rfl,
      ⟨rfl, rfl, by intro r hr; rw [show (({ svc := newService opts } : Proc).svc).routes = [] from made.routes] at hr; exact (nomatch hr), made.components, made.maps, made.tempMain, made.customFuncs⟩⟩
  obtain ⟨hx, hs, hl⟩ := hsim _ _ hlink
  have eone : one = (first >>= fun _ => (cacheIfEnabled L >>= fun _ => completeParse L) : Prg Unit) noFaults { fs := fs, clock := 0, cwd := cwd, st := { svc := newService opts } } := by
    show parseAll L getwd noFaults _ = _
    unfold parseAll
    rw [e1, bind_assoc']
  have etwo : two = (first >>= fun _ => (cacheIfEnabled L >>= fun _ => cliGenerate L getwd cacheFile dir) : Prg Unit) noFaults
      { fs := fs, clock := 0, cwd := cwd, st := { svc := newService (opts ++ [.cli]) } } := by
    show (setupParse L getwd >>= fun _ => cliGenerate L getwd cacheFile dir : Prg Unit) noFaults _ = _
    rw [e1, bind_assoc']
  rw [eone, etwo]
  revert hx hs hl
  generalize ({ fs := fs, clock := 0, cwd := cwd, st := { svc := newService opts } } : World Proc) = u1
  generalize ({ fs := fs, clock := 0, cwd := cwd, st := { svc := newService (opts ++ [.cli]) } } : World Proc) = u2
  generalize first = m
  intro hx hs hl
  rcases bind_split (φ := noFaults) (w := u1) m (cacheIfEnabled L >>= fun _ => completeParse L) with ⟨v1, f1, r1⟩ | ⟨f1, r1⟩
  · rcases bind_split (φ := noFaults) (w := u2) m (cacheIfEnabled L >>= fun _ => cliGenerate L getwd cacheFile dir) with ⟨v2, f2, r2⟩ | ⟨f2, r2⟩
    · rw [r1, r2]
      rw [f1, f2] at hl
      have := second (L := L) made ap hat hc hne hloc hdir hcache hjson hout (hl () rfl).2
      exact ⟨this.1, fun q h1 h2 => this.2 q (fun h => h.elim h1 h2)⟩
    · exact absurd (by rw [hx, f1]) f2
  · rcases bind_split (φ := noFaults) (w := u2) m (cacheIfEnabled L >>= fun _ => cliGenerate L getwd cacheFile dir) with ⟨v2, f2, r2⟩ | ⟨f2, r2⟩
    · exact absurd (by rw [← hx, f2]) f1
    · rw [r1, r2]
      exact ⟨hx, fun q _ h2 => hs q h2⟩

end

/-! ### Cases -/

/-- The project of the examples, in /w. -/
def cliTree : FS := (stepsWorld []).fs

/-- The run in one process. -/
def runOne (L : Lib) (opts : List Opt) : World Proc × Exit Unit :=
  parseAll L c!"/w" noFaults { fs := cliTree, cwd := [c!"w"], st := { svc := newService opts } }

/-- The run in two processes. -/
def runTwo (L : Lib) (opts : List Opt) (cacheFile : Str := c!"./.astra/cache.json") : World Proc × Exit Unit :=
  (setupParse L c!"/w" >>= fun _ => cliGenerate L c!"/w" cacheFile c!"." : Prg Unit) noFaults
    { fs := cliTree, cwd := [c!"w"], st := { svc := newService (opts ++ [.cli]) } }

/-- The options of the example. -/
def cliOpts : List Opt := [.ginInput (some [⟨c!"GET", c!"/x", c!"m.Handle", c!"/w/main.go", 3⟩]), .jsonOutput c!"out", .openApiOutput c!"api.yaml", .config (some {})]

theorem cliTree_names : ∀ n, cliTree.look ([c!"w"] ++ [n]) ≠ none → '/' ∉ n := by
  intro n hn
  have := mem_children.mpr hn
  exact (by decide +kernel : ∀ n ∈ cliTree.children [c!"w"], '/' ∉ n) n this

theorem cliOpts_portable : ∀ o ∈ cliOpts, Portable o := by
  intro o ho
  simp only [cliOpts, List.mem_cons, List.not_mem_nil, or_false] at ho
  rcases ho with rfl | rfl | rfl | rfl
  · trivial
  · exact (by decide : c!"out" ≠ [])
  · exact (by decide : c!"api.yaml" ≠ [])
  · trivial

theorem cliOpts_files {o : Opt} (ho : o ∈ cliOpts) {f : Str} (hf : requestedFile o = some f) {q : FPath} (hq : resolve [c!"w"] (pathJoin [c!"/w", f]) = some q) :
    q = [c!"w", c!"out.json"] ∨ q = [c!"w", c!"api.yaml"] := by
  simp only [cliOpts, List.mem_cons, List.not_mem_nil, or_false] at ho
  rcases ho with rfl | rfl | rfl | rfl
  · cases hf
  · cases hf
    have e : resolve [c!"w"] (pathJoin [c!"/w", withExtension [c!".json"] c!"out"]) = some [c!"w", c!"out.json"] := by decide
    rw [e] at hq
    cases hq
    exact Or.inl rfl
  · cases hf
    have e : resolve [c!"w"] (pathJoin [c!"/w", withExtension [c!".json", c!".yaml", c!".yml"] c!"api.yaml"]) = some [c!"w", c!"api.yaml"] := by decide
    rw [e] at hq
    cases hq
    exact Or.inr rfl
  · cases hf

/-- Non-vacuity: the hypotheses of `cli_equals_parse_partial` hold of a project in /w with the default cache, and the run succeeds. -/
example : (∀ o ∈ cliOpts, Portable o) ∧ resolve [c!"w"] c!"/w" = some [c!"w"] ∧ (∀ n, cliTree.look ([c!"w"] ++ [n]) ≠ none → '/' ∉ n) ∧
    (if isAbs c!"." then c!"." else pathJoin [c!"/w", c!"."]) = (if requestedDir cliOpts = [] then c!"/w" else requestedDir cliOpts) ∧
    CachedAt [c!"w"] [c!"w"] cliOpts [c!"w", c!".astra", c!"cache.json"] ∧ [c!"w", c!".astra", c!"cache.json"].dropLast <+: [c!"w"] ++ [c!".astra"] ∧
    ¬ [c!"w", c!".astra", c!"cache.json"] <+: [c!"w"] ++ [c!".astra"] ∧ ¬ [c!"w"] ++ [c!".astra", c!"astramain"] <+: [c!"w", c!".astra", c!"cache.json"] ∧
    resolve [c!"w"] c!"./.astra/cache.json" = some [c!"w", c!".astra", c!"cache.json"] ∧
    (∀ o ∈ cliOpts, ∀ f, requestedFile o = some f → ∀ q, resolve [c!"w"] (pathJoin [c!"/w", f]) = some q → ¬ [c!"w", c!".astra", c!"cache.json"] <+: q) ∧
    (runOne exampleLib cliOpts).2 = .ok () ∧ (runTwo exampleLib cliOpts).2 = .ok () ∧
    (∃ t, (runTwo exampleLib cliOpts).1.fs.look [c!"w", c!"out.json"] = some (.file t) ∧ c!"m.Handle" <:+: t) := by
  refine ⟨cliOpts_portable, by decide, cliTree_names, by decide, ⟨by decide, by decide⟩, by decide, by decide, by decide, by decide, ?_, by decide +kernel, by decide +kernel, ?_⟩
  · intro o ho f hf q hq
    rcases cliOpts_files ho hf hq with rfl | rfl <;> decide
  · cases h : (runTwo exampleLib cliOpts).1.fs.look [c!"w", c!"out.json"] with
    | none => exact absurd h (by decide +kernel)
    | some n =>
      cases n with
      | dir => exact absurd h (by decide +kernel)
      | file t =>
        refine ⟨t, rfl, ?_⟩
        have : ((match (runTwo exampleLib cliOpts).1.fs.look [c!"w", c!"out.json"] with | some (.file t) => contains t c!"m.Handle" | _ => false) = true) := by decide +kernel
        rw [h] at this
        exact contains_iff.mp this

/-- The options of the example with a cache in the directory of the project. -/
def cliCacheOpts : List Opt := cliOpts ++ [.cachePath c!"routes.json"]

/-- Non-vacuity: the same of the cache /w/routes.json; both runs write it. -/
example : (∀ o ∈ cliCacheOpts, Portable o) ∧ CachedAt [c!"w"] [c!"w"] cliCacheOpts [c!"w", c!"routes.json"] ∧ cliTree.look [c!"w", c!"routes.json"].dropLast = some .dir ∧
    ¬ [c!"w", c!"routes.json"] <+: [c!"w"] ++ [c!".astra"] ∧ ¬ [c!"w"] ++ [c!".astra", c!"astramain"] <+: [c!"w", c!"routes.json"] ∧
    resolve [c!"w"] c!"/w/routes.json" = some [c!"w", c!"routes.json"] ∧
    (∀ o ∈ cliCacheOpts, ∀ f, requestedFile o = some f → ∀ q, resolve [c!"w"] (pathJoin [c!"/w", f]) = some q → ¬ [c!"w", c!"routes.json"] <+: q) ∧
    (runOne exampleLib cliCacheOpts).2 = .ok () ∧ (runTwo exampleLib cliCacheOpts c!"/w/routes.json").2 = .ok () ∧
    (runOne exampleLib cliCacheOpts).1.fs.isFile [c!"w", c!"routes.json"] = true ∧
    (runTwo exampleLib cliCacheOpts c!"/w/routes.json").1.fs.isFile [c!"w", c!"routes.json"] = true := by
  refine ⟨?_, ⟨by decide, by decide⟩, by decide +kernel, by decide, by decide, by decide, ?_, by decide +kernel, by decide +kernel, by decide +kernel, by decide +kernel⟩
  · intro o ho
    rcases List.mem_append.mp ho with ho | ho
    · exact cliOpts_portable o ho
    · simp only [List.mem_singleton] at ho
      subst ho
      trivial
  · intro o ho f hf q hq
    rcases List.mem_append.mp ho with ho | ho
    · rcases cliOpts_files ho hf hq with rfl | rfl <;> decide
    · simp only [List.mem_singleton] at ho
      subst ho
      cases hf

/-- C40, negation: with a cache path of its own, the command finds no cache at the default place. -/
theorem not_cli_default_flag :
    (runOne exampleLib cliCacheOpts).2 = .ok () ∧ (runTwo exampleLib cliCacheOpts).2 ≠ .ok () := by
  decide +kernel

/-- A library in which the analysis of a route depends on the custom functions. -/
def customLib : Lib := { exampleLib with parse := fun ctx cs r => (cs, .ok { r with operationId := if ctx.customFuncs.isEmpty then c!"plain" else c!"custom" }) }

/-- C40, negation: custom functions are lost between the processes. -/
theorem not_cli_custom_functions :
    let opts := cliOpts ++ [.customFunc (fun _ _ _ b cs => ⟨{}, b, cs, .ok .nil⟩)]
    (runOne customLib opts).2 = .ok () ∧ (runTwo customLib opts).2 = .ok () ∧
    (runOne customLib opts).1.fs.look [c!"w", c!"out.json"] ≠ (runTwo customLib opts).1.fs.look [c!"w", c!"out.json"] := by
  decide +kernel

/-- A library that finds one component, and shows the type of the schemas. -/
def mappedLib : Lib := { exampleLib with
  parse := fun _ _ r => ([{ name := c!"Money", type := c!"struct", package := c!"m" }], .ok r)
  yamlText := fun j => .ok ((entriesAt j c!"components").flatMap fun e => match e.2 with | .obj ms => ms.flatMap (fun x => textAt x.2 c!"type") | _ => []) }

/-- C40, negation: custom type mappings are lost between the processes. -/
theorem not_cli_type_mapping :
    let opts := cliOpts ++ [.typeMapping [(c!"m.Money", { type := c!"string" })]]
    (runOne mappedLib opts).2 = .ok () ∧ (runTwo mappedLib opts).2 = .ok () ∧
    (runOne mappedLib opts).1.fs.look [c!"w", c!"api.yaml"] ≠ (runTwo mappedLib opts).1.fs.look [c!"w", c!"api.yaml"] := by
  decide +kernel

/-- C40, negation: with an Azure output the command fails where the run in one process succeeds. -/
theorem not_cli_azure :
    let opts : List Opt := [.ginInput (some []), .azureOutput c!"fn"]
    (runOne exampleLib opts).2 = .ok () ∧ (runTwo exampleLib opts).2 = .err (.msg c!"output directory path is required") := by
  decide +kernel

/-- C40, negation: with an empty output path the command fails where the run in one process succeeds. -/
theorem not_cli_empty_path :
    let opts : List Opt := [.ginInput (some []), .jsonOutput []]
    (runOne exampleLib opts).2 = .ok () ∧ (runTwo exampleLib opts).2 = .err (.msg c!"output file path is required") := by
  decide +kernel

end Astra.Props
