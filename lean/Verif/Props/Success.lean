/-
C77, C78, C79: runs that succeed, whatever an earlier run left behind.
-/
import Verif.Props.Orderly
import Verif.Props.Cli
import Verif.Props.NamesExact

namespace Astra.Props
open Astra.Spec Astra.Run

/-! ### The name of the main package depends on the module files only -/

/-- The names that count. -/
def isModule (n : Str) : Bool := !hasSuffix n c!".go" && hasSuffix n c!".mod"

theorem lastModule_filter (fs : FS) (d : FPath) (ns : List Str) (acc : Str) :
    lastModule fs d ns acc = lastModule fs d (ns.filter isModule) acc := by
  induction ns generalizing acc with
  | nil => rfl
  | cons n ns ih =>
    by_cases h : isModule n = true
    · rw [List.filter_cons_of_pos h]
      unfold lastModule
      split <;> exact ih _
    · rw [List.filter_cons_of_neg h, ← ih]
      unfold isModule at h
      conv => lhs; unfold lastModule
      split
      · rename_i h1 h2 h3; simp [h1, h2] at h
      · rfl

theorem lastModule_only {fs fs' : FS} {d : FPath} (ns : List Str) (acc : Str) (h : ∀ n ∈ ns, fs'.look (d ++ [n]) = fs.look (d ++ [n])) :
    lastModule fs' d ns acc = lastModule fs d ns acc := by
  induction ns generalizing acc with
  | nil => rfl
  | cons n ns ih =>
    unfold lastModule
    rw [h n (by simp)]
    split <;> exact ih _ (fun m hm => h m (by simp [hm]))

/-- The name of the main package in `d`. -/
def mainOf (fs : FS) (d : FPath) : Str := pathJoin [lastModule fs d (fs.children d) [], mainReplacementPath]

theorem main_of_modules {fs0 fs fs2 : FS} {d : FPath} (h : SameModules d fs0 fs) (hmem : ∀ n, n ∈ fs2.children d ↔ fs.look (d ++ [n]) ≠ none) :
    pathJoin [lastModule fs d (fs2.children d) [], mainReplacementPath] = mainOf fs0 d := by
  have hmod : ∀ n, isModule n = true → fs.look (d ++ [n]) = fs0.look (d ++ [n]) := fun n hn => by
    unfold isModule at hn
    rw [Bool.and_eq_true] at hn
    exact h n (hasSuffix_iff.mp hn.2)
  have hch : (fs2.children d).filter isModule = (fs0.children d).filter isModule := by
    have hm : ∀ n, isModule n = true → (n ∈ fs2.children d ↔ n ∈ fs0.children d) := fun n hn => by
      rw [hmem, mem_children, hmod n hn]
    unfold FS.children at hm ⊢
    exact filter_names (msorted_names _ [] MSorted_nil) (msorted_names _ [] MSorted_nil) isModule hm
  unfold mainOf
  rw [lastModule_filter, hch, lastModule_only _ _ (fun n hn => hmod n (List.mem_filter.mp hn).2), ← lastModule_filter]

/-! ### Programs that succeed, with a result that does not depend on the rest of the project -/

/-- An orderly project, set up, with the module files of `fs0`. -/
def Ready (d : FPath) (Q : Places) (fs0 fs : FS) : Prop :=
  Neat d Q fs0 fs ∧ fs.look (d ++ [c!".astra"]) = some .dir ∧ NoLeftover fs d Q

/-- A file of `Q`, or something in a directory of `Q`. -/
def Watched (Q : Places) (q : FPath) : Prop := Q.file q ∨ ∃ D, Q.dir D ∧ D <+: q

/-- From the state `p` the program succeeds with `a` and `p'`, in every project that is ready, and `W` is what it makes of the places `Q` other
than `K`. -/
def Does (c d : FPath) (Q : Places) (K : FPath → Prop) (fs0 : FS) {α : Type} (m : Prg α) (p p' : Proc) (a : α) (W : FPath → Option (Option FNode)) : Prop :=
  ∀ w : World Proc, w.cwd = c → w.st = p → Ready d Q fs0 w.fs → ∃ w', m noFaults w = (w', .ok a) ∧ w'.cwd = c ∧ w'.st = p' ∧ Ready d Q fs0 w'.fs ∧
    ∀ q, Watched Q q → ¬ K q → w'.fs.look q = (W q).getD (w.fs.look q)

/-- No output is written. -/
def nowhere : FPath → Option (Option FNode) := fun _ => none

section
variable {c d : FPath} {Q : Places} {K : FPath → Prop} {fs0 : FS} {α β : Type} {p p1 p2 : Proc}

theorem Does.bind {m : Prg α} {f : α → Prg β} {a : α} {b : β} {W1 W2 : FPath → Option (Option FNode)} (h1 : Does c d Q K fs0 m p p1 a W1)
    (h2 : Does c d Q K fs0 (f a) p1 p2 b W2) : Does c d Q K fs0 (m >>= f) p p2 b (fun q => (W2 q).or (W1 q)) := by
  intro w hc hp hr
  obtain ⟨w1, e1, c1, s1, r1, l1⟩ := h1 w hc hp hr
  obtain ⟨w2, e2, c2, s2, r2, l2⟩ := h2 w1 c1 s1 r1
  refine ⟨w2, by rw [Run.bind_ok e1]; exact e2, c2, s2, r2, fun q hq hk => ?_⟩
  rw [l2 q hq hk, l1 q hq hk]
  cases h : W2 q <;> simp [h]

/-- First a step that writes no output. -/
theorem Does.after {m : Prg α} {f : α → Prg β} {a : α} {b : β} {W : FPath → Option (Option FNode)} (h1 : Does c d Q K fs0 m p p1 a nowhere)
    (h2 : Does c d Q K fs0 (f a) p1 p2 b W) : Does c d Q K fs0 (m >>= f) p p2 b W := by
  have := Does.bind h1 h2
  have e : (fun q => (W q).or (nowhere q)) = W := by funext q; simp [nowhere]
  rwa [e] at this

theorem Does.then {m : Prg α} {f : α → Prg β} {a : α} {b : β} {W : FPath → Option (Option FNode)} (h1 : Does c d Q K fs0 m p p1 a W)
    (h2 : Does c d Q K fs0 (f a) p1 p2 b nowhere) : Does c d Q K fs0 (m >>= f) p p2 b W := by
  have := Does.bind h1 h2
  have e : (fun q => (nowhere q).or (W q)) = W := by funext q; simp [nowhere]
  rwa [e] at this

/-- Steps that only change the state. -/
theorem Does.state {m : Prg α} {a : α} (h : ∀ w : World Proc, w.st = p → m noFaults w = ({ w with st := p1 }, .ok a)) :
    Does c d Q K fs0 m p p1 a nowhere :=
  fun w hc hp hr => ⟨_, h w hp, hc, rfl, hr, fun _ _ _ => rfl⟩

theorem does_pure (a : α) : Does c d Q K fs0 (Pure.pure a : Prg α) p p a nowhere := Does.state (fun w h => by subst h; rfl)
theorem does_get : Does c d Q K fs0 (Run.get : Prg Proc) p p p nowhere := Does.state (fun w h => by subst h; rfl)
theorem does_svc : Does c d Q K fs0 getSvc p p p.svc nowhere := Does.state (fun w h => by subst h; rfl)
theorem does_modify (f : Service → Service) : Does c d Q K fs0 (modifySvc f) p { p with svc := f p.svc } () nowhere :=
  Does.state (fun w h => by subst h; rfl)
theorem does_modify' (f : Proc → Proc) : Does c d Q K fs0 (Run.modify f) p (f p) () nowhere := Does.state (fun w h => by subst h; rfl)
theorem does_log (e : Event) : Does c d Q K fs0 (logEvent e) p { p with log := p.log ++ [e] } () nowhere := Does.state (fun w h => by subst h; rfl)
theorem does_cell (loc : Nat) : Does c d Q K fs0 (getCell loc) p p (p.svc.cells.getD loc []) nowhere := Does.state (fun w h => by subst h; rfl)

/-- Steps that change the state, things in .astra other than the temporary directory of an Azure output, and the places `K`. -/
theorem Does.inAstra (hm : NotModules d Q) {m : Prg α} {a : α} {S : Proc → Prop} (hS : S p) (hkeep : Keeps (Inv c S (Neat d Q fs0)) anyVal m)
    (h : ∀ w : World Proc, w.cwd = c → w.st = p → Ready d Q fs0 w.fs → ∃ w', m noFaults w = (w', .ok a) ∧ w'.cwd = c ∧ w'.st = p1 ∧
      (Tree w'.fs → SameOutside (fun q => (InAstra d q ∧ q ≠ d ++ [c!".astra", c!"azure"]) ∨ (Q q ∧ K q)) w.fs w'.fs)) :
    Does c d Q K fs0 m p p1 a nowhere := by
  intro w hc hp hr
  obtain ⟨w', e, c1, s1, o1⟩ := h w hc hp hr
  have k := (hkeep noFaults w ⟨hc, by rw [hp]; exact hS, hr.1⟩).1
  rw [e] at k
  have o1 := o1 k.2.2.1.tree
  refine ⟨w', e, c1, s1, ⟨k.2.2, ?_, fun hD => ?_⟩, fun q hq hk => o1 q (fun hi => hi.elim (fun hi => ?_) (fun hi => hk hi.2))⟩
  · rw [o1 _ (fun hi => hi.elim (fun hi => hi.1.2 rfl) (fun hi => (hr.1.1.outputs _ hi.1).2.2 (List.prefix_refl _)))]
    exact hr.2.1
  · rw [o1 _ (fun hi => hi.elim (fun hi => hi.2 rfl) (fun hi => (hr.1.1.outputs _ hi.1).2.2 ⟨[c!"azure"], by simp⟩))]
    exact hr.2.2 hD
  · rcases hq with hq | ⟨D, hD, hq⟩
    · exact (hr.1.1.outputs q hq).2.2 hi.1.1
    · exact apart_not_both (hm.spaced.astra D hD) ⟨hi.1.1, hq⟩

end

/-! ### The steps -/

theorem in_astra_below {d q : FPath} {n : Str} (h : d ++ [c!".astra", n] <+: q) : InAstra d q := by
  refine ⟨List.IsPrefix.trans ⟨[n], by simp⟩ h, fun e => ?_⟩
  rw [e] at h
  have := h.length_le
  simp at this

theorem astra_other {d q : FPath} {n : Str} (hn : n ≠ c!"azure") (h : d ++ [c!".astra", n] <+: q) : InAstra d q ∧ q ≠ d ++ [c!".astra", c!"azure"] := by
  refine ⟨in_astra_below h, fun e => ?_⟩
  rw [e, List.prefix_append_right_inj] at h
  simp at h
  exact hn h

theorem fixed_refl (p : Proc) : fixedAll p.svc p := ⟨⟨rfl, rfl, rfl, rfl, rfl, rfl⟩, rfl⟩

/-- What the steps need to know of the state. -/
structure Placed (c d : FPath) (Q : Places) (K : FPath → Prop) (s : Service) : Prop where
  work : s.workDir ≠ []
  dir : locOf c s.workDir = d
  cache : ∀ q, CachePlace c s q → Q q ∧ K q
  json : JsonCache s

section
variable {c d : FPath} {Q : Places} {K : FPath → Prop} {fs0 : FS} {p : Proc} (hc : ∀ x ∈ c, '/' ∉ x) (hm : NotModules d Q)

include hc hm in
theorem does_cacheIfEnabled (hp : Placed c d Q K p.svc) (L : Lib) : Does c d Q K fs0 (cacheIfEnabled L) p p () nowhere := by
  refine Does.inAstra hm (fixed_refl p) (nt_cacheIfEnabled hc hm (lasting_all _) hp.dir (fun q hq => (hp.cache q hq).1) L) (fun w h1 h2 h3 => ?_)
  subst h2
  unfold cacheIfEnabled
  rw [Run.bind_ok (getSvc_ok noFaults w)]
  split
  · rename_i he
    by_cases h0 : w.st.svc.cachePath = []
    · obtain ⟨w', k1, k2, k3, k4, _⟩ := cache_quiet (d := d) L w (by rw [h1]; exact hp.dir) h0 h3.2.1
      exact ⟨w', k1, k2.trans h1, k3, fun _ q hq => k4 q (fun h => hq (Or.inl (astra_other (by decide) h)))⟩
    · have hcp : cachePathOf w.st.svc = w.st.svc.cachePath := by simp [cachePathOf, h0]
      have hr : resolve c w.st.svc.cachePath = some (locOf c w.st.svc.cachePath) := resolve_eq h0
      obtain ⟨hQ, hK⟩ := hp.cache _ ⟨he, h0, hr⟩
      obtain ⟨o1, o2, o3⟩ := h3.1.1.outputs _ hQ
      have hne : locOf c w.st.svc.cachePath ≠ [] := by intro e; rw [e] at o2; exact o2 (FS.look_nil _)
      obtain ⟨w', k1, k2, k3, k4, k5⟩ := cache_quiet_at L w (by rw [hcp, h1]; exact hr) (by rw [hcp]; exact hp.json he h0) hne o1
      refine ⟨w', k1, k2.trans h1, k3, fun ht q hq => ?_⟩
      by_cases hpre : locOf c w.st.svc.cachePath <+: q
      · have hneq : locOf c w.st.svc.cachePath ≠ q := by rintro rfl; exact hq (Or.inr ⟨hQ, hK⟩)
        rw [h3.1.1.tree.none_below o2 hpre hneq, ht.none_below (by rw [k5]; simp) hpre hneq]
      · exact k4 q hpre
  · exact ⟨w, rfl, h1, rfl, fun _ _ _ => rfl⟩

/-- The name of the main package, once it is asked for. -/
def mainName (fs0 : FS) (d : FPath) (s : Service) : Str := if s.tempMain = [] then mainOf fs0 d else s.tempMain

include hc hm in
theorem does_main (hp : Placed c d Q K p.svc) :
    Does c d Q K fs0 getMainPackageName p { p with svc := { p.svc with tempMain := mainName fs0 d p.svc } } (mainName fs0 d p.svc) nowhere := by
  refine Does.inAstra hm (fixed_refl p) (nt_getMainPackageName hc hm (lasting_all _) hp.dir) (fun w h1 h2 h3 => ?_)
  subst h2
  unfold getMainPackageName mainName
  rw [Run.bind_ok (getSvc_ok noFaults w)]
  by_cases h0 : w.st.svc.tempMain = []
  · rw [if_pos h0, if_pos h0]
    obtain ⟨w', fs2, k1, k2, k3, k4, k5, _⟩ := temp_package_ok w d hp.work (by rw [h1]; exact hp.dir) h3.1.1.tree h3.2.1 (fun n hn hl => by
      have hns := h3.1.1.names _ hl n (by simp)
      refine ⟨?_, ?_⟩
      · have := plain_of_suffix hns (hn.imp hasSuffix_iff.mpr hasSuffix_iff.mpr)
        exact ⟨this.ne_nil, this.ne_dot, this.ne_dots, this.no_slash⟩
      · have hs := h3.1.1.sources n hn
        cases hlk : w.fs.look (d ++ [n]) with
        | none => exact absurd hlk hl
        | some x =>
          cases x with
          | dir => exact absurd hlk hs
          | file t => exact ⟨t, rfl⟩)
    rw [main_of_modules h3.1.2 k3] at k4
    refine ⟨w', ?_, k2.trans h1, k4, fun _ q hq => k5 q (fun h => hq (Or.inl (astra_other (by decide) h)))⟩
    rw [Run.bind_ok k1, Run.bind_ok (getSvc_ok noFaults w'), k4]
    rfl
  · rw [if_neg h0, if_neg h0]
    refine ⟨w, ?_, h1, rfl, fun _ _ _ => rfl⟩
    rw [Run.bind_ok (show (Pure.pure () : Prg Unit) noFaults w = (w, .ok ()) from rfl), Run.bind_ok (getSvc_ok noFaults w)]
    rfl

theorem createRoutes_ok {deny : List (Str → Bool)} {rel : Str → Except Str Str} {infos : List RouteInfo} (before : List Route)
    (h : ∀ i ∈ allowed deny infos, ∃ file, rel i.file = .ok file) : ∃ rs, createRoutes deny rel infos before = (rs, none) := by
  induction infos generalizing before with
  | nil => exact ⟨_, rfl⟩
  | cons i infos ih =>
    simp only [createRoutes]
    by_cases hd : deny.any (fun f => f i.path) = true
    · rw [if_pos hd]
      refine ih before (fun j hj => h j ?_)
      unfold allowed at hj ⊢
      rw [List.filter_cons_of_neg]
      · exact hj
      · simpa using hd
    · rw [if_neg hd]
      have hpos : allowed deny (i :: infos) = i :: allowed deny infos := by
        unfold allowed
        rw [List.filter_cons_of_pos]
        simpa using hd
      rw [hpos] at h
      obtain ⟨file, hf⟩ := h i (by simp)
      rw [hf]
      exact ih _ (fun j hj => h j (by simp [hj]))

theorem does_runCreate {L : Lib} (ev : Nat → Event) {is : List Input} {routers : List (List RouteInfo)} (hin : Each GinInput is routers) (i : Nat) {p : Proc}
    (hrel : ∀ i ∈ allowed p.svc.denyList routers.flatten, ∃ file, L.rel i.file = .ok file) :
    ∃ found log, Each (Found L.rel) (allowed p.svc.denyList routers.flatten) found ∧
      Does c d Q K fs0 (runAll L ev i (is.map (·.createRoutes))) p { p with svc := { p.svc with routes := p.svc.routes ++ found }, log := log } () nowhere := by
  induction hin generalizing i p with
  | nil =>
    refine ⟨[], p.log, .nil, ?_⟩
    rw [List.append_nil]
    exact does_pure ()
  | @cons a infos is routers ha _ ih =>
    rw [List.flatten_cons, allowed_append] at hrel ⊢
    obtain ⟨rs, hrs⟩ := createRoutes_ok p.svc.routes (fun i hi => hrel i (List.mem_append_left _ hi))
    obtain ⟨found, h1, h2⟩ := createRoutes_inv hrs
    obtain ⟨found', log, j1, j2⟩ := ih (i + 1) (p := { p with svc := { p.svc with routes := p.svc.routes ++ found }, log := p.log ++ [ev i] })
      (fun i hi => hrel i (List.mem_append_right _ hi))
    refine ⟨found ++ found', log, each_append h1 j1, ?_⟩
    rw [← List.append_assoc, List.map_cons, ha.1]
    unfold runAll
    refine Does.after (does_log _) (Does.after (a := ()) ?_ j2)
    refine Does.state (fun w hw => ?_)
    show ginCreateRoutes L (some infos) noFaults w = _
    unfold ginCreateRoutes
    rw [Run.bind_ok (getSvc_ok noFaults w)]
    simp only
    rw [Run.bind_ok (modifySvc_ok _ noFaults w)]
    simp only [hw, hrs]
    rw [h2]
    rfl

include hc hm in
theorem does_create {L : Lib} {routers : List (List RouteInfo)} (hp : Placed c d Q K p.svc)
    (hin : Each GinInput p.svc.inputs routers) (hrel : ∀ i ∈ allowed p.svc.denyList routers.flatten, ∃ file, L.rel i.file = .ok file) :
    ∃ found log, Each (Found L.rel) (allowed p.svc.denyList routers.flatten) found ∧
      Does c d Q K fs0 (stepCreate L) p { p with svc := { p.svc with routes := p.svc.routes ++ found }, log := log } () nowhere := by
  obtain ⟨found, log, h1, h2⟩ := does_runCreate (c := c) (d := d) (Q := Q) (K := K) (fs0 := fs0) .create hin 0 (p := { p with log := p.log ++ [.createRoutes] }) hrel
  refine ⟨found, log, h1, ?_⟩
  unfold stepCreate
  refine Does.after (does_log _) (Does.after does_svc (Does.after (a := ()) h2 ?_))
  exact does_cacheIfEnabled hc hm (by exact ⟨hp.work, hp.dir, hp.cache, hp.json⟩) L

include hc hm in
theorem does_loop {L : Lib} (hkey : KeepsKeys L) (rest done : List Route) {p : Proc} (hp : Placed c d Q K p.svc)
    (hr : p.svc.routes = done ++ rest) (hnd : ((done ++ rest).map (fun r => (r.path, r.method))).Nodup)
    (hok : ∀ r ∈ rest, ∀ m cs, ∃ cs' r', L.parse { workDir := p.svc.workDir, mainPkg := m, customFuncs := p.svc.customFuncs } cs r = (cs', .ok r')) :
    ∃ m cs rs, AnalysedInOrder L p.svc.workDir p.svc.customFuncs p.svc.tempMain p.svc.components rest m cs rs ∧
      Does c d Q K fs0 (ginParseLoop L rest.length done.length) p
        { p with svc := { p.svc with tempMain := m, components := cs, routes := done ++ rs } } () nowhere := by
  induction rest generalizing done p with
  | nil =>
    refine ⟨_, _, _, .done _ _, ?_⟩
    rw [← hr]
    exact does_pure ()
  | cons r rest ih =>
    -- the name of the main package
    let m1 := if L.usesMain r then mainName fs0 d p.svc else p.svc.tempMain
    have hm1 : m1 = p.svc.tempMain ∨ (L.usesMain r = true ∧ p.svc.tempMain = []) := by
      show (if L.usesMain r then mainName fs0 d p.svc else p.svc.tempMain) = _ ∨ _
      split
      · rename_i hu
        unfold mainName
        split
        · rename_i h0; exact Or.inr ⟨hu, h0⟩
        · exact Or.inl rfl
      · exact Or.inl rfl
    obtain ⟨cs1, r', hparse⟩ := hok r (by simp) m1 p.svc.components
    have hk := hkey _ _ _ _ _ hparse
    have hrep : replaceRoute (done ++ r :: rest) r' = (done ++ [r']) ++ rest := by
      rw [replaceRoute_first done rest r r' ⟨hk.1.symm, hk.2.symm⟩]
      · simp
      · intro x hx hsx
        simp only [List.map_append, List.map_cons, List.nodup_append] at hnd
        exact hnd.2.2 (x.path, x.method) (List.mem_map.mpr ⟨x, hx, rfl⟩) (r.path, r.method) (by simp)
          (by rw [hsx.1, hsx.2, hk.1, hk.2])
    have hnd' : (((done ++ [r']) ++ rest).map (fun r => (r.path, r.method))).Nodup := by
      simp only [List.map_append, List.map_cons, List.append_assoc, List.singleton_append, hk.1, hk.2] at hnd ⊢
      exact hnd
    obtain ⟨m2, cs2, rs2, k1, k2⟩ := ih (done ++ [r'])
      (p := { p with svc := { p.svc with tempMain := m1, components := cs1, routes := (done ++ [r']) ++ rest } })
      ⟨hp.work, hp.dir, hp.cache, hp.json⟩ rfl hnd' (fun r hr => hok r (by simp [hr]))
    refine ⟨m2, cs2, r' :: rs2, .step hm1 hparse k1, ?_⟩
    simp only [List.length_cons, ginParseLoop]
    refine Does.after does_svc ?_
    have hget : p.svc.routes[done.length]? = some r := by rw [hr]; simp
    rw [hget]
    simp only
    refine Does.after (a := ()) (p1 := { p with svc := { p.svc with tempMain := m1 } }) ?_ (Does.after does_svc ?_)
    · show Does c d Q K fs0 _ p { p with svc := { p.svc with tempMain := if L.usesMain r then mainName fs0 d p.svc else p.svc.tempMain } } () nowhere
      split
      · exact Does.after (does_main hc hm hp) (does_pure ())
      · exact does_pure ()
    · simp only [hparse]
      refine Does.after (does_modify _) (Does.after (does_modify _) ?_)
      simp only [hr, hrep]
      rw [show done.length + 1 = (done ++ [r']).length by simp]
      have e : done ++ r' :: rs2 = (done ++ [r']) ++ rs2 := by simp
      rw [e]
      exact k2

theorem analysed_from {L : Lib} {wd : Str} {fs : List CustomFunc} {m m' : Str} {cs cs' : List Field} {rs rs' : List Route}
    (h : AnalysedInOrder L wd fs m cs rs m' cs' rs') :
    ∀ r' ∈ rs', ∃ r ∈ rs, ∃ m cs cs', L.parse { workDir := wd, mainPkg := m, customFuncs := fs } cs r = (cs', .ok r') := by
  induction h with
  | done => simp
  | step _ h1 _ ih =>
    intro r' hr
    rcases List.mem_cons.mp hr with rfl | hr
    · exact ⟨_, by simp, _, _, _, h1⟩
    · obtain ⟨r, hr, h⟩ := ih r' hr
      exact ⟨r, by simp [hr], h⟩

include hc hm in
theorem does_runParse {L : Lib} (hkey : KeepsKeys L) (ev : Nat → Event) {is : List Input} {routers : List (List RouteInfo)}
    (hin : Each GinInput is routers) (i : Nat) {P : Nat → Route → Prop} {wd : Str} {funcs : List CustomFunc} {N : Nat}
    (hok : ∀ n < N, ∀ r, P n r → ∀ m cs, ∃ cs' r', L.parse { workDir := wd, mainPkg := m, customFuncs := funcs } cs r = (cs', .ok r'))
    (hstep : ∀ n r m cs cs' r', P n r → L.parse { workDir := wd, mainPkg := m, customFuncs := funcs } cs r = (cs', .ok r') → P (n + 1) r')
    (n : Nat) (hN : n + routers.length ≤ N) {p : Proc} (hp : Placed c d Q K p.svc) (hwd : p.svc.workDir = wd) (hfs : p.svc.customFuncs = funcs)
    (hnd : (p.svc.routes.map (fun r => (r.path, r.method))).Nodup) (hP : ∀ r ∈ p.svc.routes, P n r) :
    ∃ m cs rs log, AnalysedPasses L p.svc.workDir p.svc.customFuncs routers.length p.svc.tempMain p.svc.components p.svc.routes m cs rs ∧
      Does c d Q K fs0 (runAll L ev i (is.map (·.parseRoutes))) p
        { p with svc := { p.svc with tempMain := m, components := cs, routes := rs }, log := log } () nowhere := by
  induction hin generalizing i n p with
  | nil => exact ⟨_, _, _, p.log, .done _ _ _, does_pure ()⟩
  | @cons a infos is routers ha _ ih =>
    rw [List.length_cons] at hN ⊢
    obtain ⟨m, cs, rs, k1, k2⟩ := does_loop (fs0 := fs0) hc hm hkey p.svc.routes [] (p := { p with log := p.log ++ [ev i] }) hp rfl hnd
      (fun r hr => by rw [hwd, hfs]; exact hok n (by omega) r (hP r hr))
    obtain ⟨m2, cs2, rs2, log, j1, j2⟩ := ih (i + 1) (n + 1) (by omega)
      (p := { p with svc := { p.svc with tempMain := m, components := cs, routes := rs }, log := p.log ++ [ev i] })
      ⟨hp.work, hp.dir, hp.cache, hp.json⟩ hwd hfs (by
        show (rs.map (fun r => (r.path, r.method))).Nodup
        rw [analysed_keys hkey k1]; exact hnd) (fun r' hr' => by
        obtain ⟨r, hr, m, cs, cs', h⟩ := analysed_from k1 r' hr'
        rw [hwd, hfs] at h
        exact hstep n r m cs cs' r' (hP r hr) h)
    refine ⟨m2, cs2, rs2, log, .pass k1 j1, ?_⟩
    rw [List.map_cons, ha.2]
    unfold runAll
    refine Does.after (does_log _) (Does.after (a := ()) ?_ j2)
    show Does c d Q K fs0 (ginParseRoutesM L) _ _ _ _
    unfold ginParseRoutesM
    exact Does.after does_svc k2

include hc hm in
theorem does_parse {L : Lib} (hkey : KeepsKeys L) {routers : List (List RouteInfo)} (hp : Placed c d Q K p.svc)
    (hin : Each GinInput p.svc.inputs routers) (hnd : (p.svc.routes.map (fun r => (r.path, r.method))).Nodup) {P : Nat → Route → Prop}
    (hok : ∀ n < routers.length, ∀ r, P n r → ∀ m cs, ∃ cs' r',
      L.parse { workDir := p.svc.workDir, mainPkg := m, customFuncs := p.svc.customFuncs } cs r = (cs', .ok r'))
    (hstep : ∀ n r m cs cs' r', P n r → L.parse { workDir := p.svc.workDir, mainPkg := m, customFuncs := p.svc.customFuncs } cs r = (cs', .ok r') → P (n + 1) r')
    (hP : ∀ r ∈ p.svc.routes, P 0 r) :
    ∃ m cs rs log, AnalysedPasses L p.svc.workDir p.svc.customFuncs routers.length p.svc.tempMain p.svc.components p.svc.routes m cs rs ∧
      Does c d Q K fs0 (stepParse L) p { p with svc := { p.svc with tempMain := m, components := cs, routes := rs }, log := log } () nowhere := by
  obtain ⟨m, cs, rs, log, k1, k2⟩ := does_runParse (fs0 := fs0) hc hm hkey .parse hin 0 hok hstep 0 (by omega)
    (p := { p with log := p.log ++ [.parseRoutes] }) hp rfl rfl hnd hP
  refine ⟨m, cs, rs, log, k1, ?_⟩
  unfold stepParse
  refine Does.after (does_log _) (Does.after does_svc (Does.after (a := ()) k2 ?_))
  exact does_cacheIfEnabled hc hm (by exact ⟨hp.work, hp.dir, hp.cache, hp.json⟩) L

include hc hm in
theorem does_clean {L : Lib} (hp : Placed c d Q K p.svc) : ∃ m log, (m = p.svc.tempMain ∨ p.svc.tempMain = []) ∧
    Does c d Q K fs0 (stepClean L) p { p with svc := { p.svc with tempMain := m, components := p.svc.components.map (cleanField m), routes := p.svc.routes.map (cleanRoute m) }, log := log } () nowhere := by
  refine ⟨mainName fs0 d p.svc, p.log ++ [.clean], ?_, ?_⟩
  · unfold mainName
    split
    · rename_i h; exact Or.inr h
    · exact Or.inl rfl
  unfold stepClean
  refine Does.after (does_log _) (Does.after (does_main hc hm ⟨hp.work, hp.dir, hp.cache, hp.json⟩) (Does.after (does_modify _) ?_))
  exact does_cacheIfEnabled hc hm (by exact ⟨hp.work, hp.dir, hp.cache, hp.json⟩) L

end


/-! ### Setting up -/

theorem setup_ready {c d : FPath} {Q : Places} {K : FPath → Prop} {fs0 : FS} (hc : ∀ x ∈ c, '/' ∉ x) (hm : NotModules d Q) (L : Lib) (getwd : Str)
    (w : World Proc) (hcwd : w.cwd = c) (hd : DirAt c w.st.svc.workDir d) (hg : resolve c getwd = some c)
    (hp : ∀ q, CachePlace c w.st.svc q → Q q ∧ K q) (hj : JsonCache w.st.svc) (hn : Neat d Q fs0 w.fs) (hlo : NoLeftover w.fs d Q) :
    ∃ w', setup L getwd noFaults w = (w', .ok ()) ∧ w'.cwd = c ∧
      w'.st = { w.st with svc := afterSetup getwd w.st.svc, log := w.st.log ++ [.setup] } ∧ Ready d Q fs0 w'.fs ∧
      ∀ q, Watched Q q → ¬ K q → w'.fs.look q = w.fs.look q := by
  subst hcwd
  obtain ⟨hw', hd'⟩ := workDir_after hd hg
  let w0 : World Proc := { w with st := { w.st with log := w.st.log ++ [.setup] } }
  obtain ⟨k1, k2, _⟩ := setup_dir_succeeds w0 hn.1.tree d hd (fun q t hq e => by
    rcases List.prefix_concat_iff.mp hq with rfl | hq
    · have e : w.fs.look (d ++ [c!".astra"]) = some (.file t) := e
      rcases hn.1.astra with h | h <;> rw [h] at e <;> cases e
    · have e : w.fs.look q = some (.file t) := e
      rw [dirs_above hn.1.tree hn.1.work hq] at e
      cases e)
  have k3 := (nt_setupAstraDir (fs0 := fs0) hc hm (dirAt_iff.mp hd) noFaults w0 ⟨rfl, rfl, hn⟩).1
  have k4 := (keepsIO_setupAstraDir (c := w.cwd) (S := fun p => p = w0.st) closed_anyFS noFaults w0 ⟨rfl, rfl, trivial⟩).1
  have k5 : SameOutside (setupPlaces w.fs (d ++ [c!".astra"])) w.fs (setupAstraDir noFaults w0).1.fs := by
    have hd := dirAt_iff.mp hd
    subst hd
    exact ((foot_setupAstraDir (c := w.cwd) (s := w.st.svc) (fun r hr => hr)) noFaults w0 ⟨rfl, rfl, .refl _ _⟩).1.2.2
  cases h1 : setupAstraDir noFaults w0 with
  | mk w1 x =>
    rw [h1] at k1 k2 k3 k4 k5
    simp only at k1
    subst k1
    have es : w1.st = w0.st := k4.2.1
    let p1 : Proc := { w.st with svc := afterSetup getwd w.st.svc, log := w.st.log ++ [.setup] }
    have e2 : ({ w1 with st := { w1.st with svc := if w1.st.svc.workDir = [] then { w1.st.svc with workDir := getwd } else w1.st.svc } } : World Proc).st = p1 := by
      rw [es]
      show Proc.mk _ _ _ = _
      have : (if w.st.svc.workDir = [] then { w.st.svc with workDir := getwd } else w.st.svc) = afterSetup getwd w.st.svc := by
        unfold afterSetup workDirAfter; split <;> rfl
      rw [show w0.st.svc = w.st.svc from rfl, this]
    obtain ⟨w', k6, k7, k8, k9, k10⟩ := does_cacheIfEnabled (p := p1) (fs0 := fs0) (K := K) hc hm ⟨hw', hd', hp, hj⟩ L
      { w1 with st := { w1.st with svc := if w1.st.svc.workDir = [] then { w1.st.svc with workDir := getwd } else w1.st.svc } } k4.1 e2 ⟨k3.2.2, k2, fun hD => by
        show w1.fs.look _ = none
        rw [k5 _ (fun h => ?_)]
        · exact hlo hD
        · rcases h with ⟨h, _⟩ | h
          · have := h.length_le
            simp at this
          · simp at h⟩
    refine ⟨w', ?_, k7, k8, k9, fun q hq hk => ?_⟩
    · unfold setup
      rw [Run.bind_ok (logEvent_ok _ noFaults w), Run.bind_ok h1, Run.bind_ok (modifySvc_ok _ noFaults w1)]
      exact k6
    · rw [k10 q hq hk]
      show w1.fs.look q = _
      refine k5 q ?_
      rcases hq with hq | ⟨D, hD, hq⟩
      · obtain ⟨o1, o2, o3⟩ := hn.1.outputs q hq
        rintro (⟨h2, h3⟩ | h2)
        · rcases List.prefix_concat_iff.mp h2 with rfl | h2
          · exact o3 (List.prefix_refl _)
          · exact o2 (dirs_above hn.1.tree hn.1.work h2)
        · rw [h2] at o3; exact o3 (List.prefix_append _ _)
      · have hap := hm.spaced.astra D hD
        rintro (⟨h2, _⟩ | h2)
        · exact hap.2 (hq.trans h2)
        · rw [h2] at hq
          exact apart_not_both hap ⟨List.prefix_append _ _, hq⟩

/-! ### The outputs -/

/-- One file. -/
def just (q0 : FPath) (t : Str) : FPath → Option (Option FNode) := fun q => if q = q0 then some (some (.file t)) else none

/-- What is at `rest` in a complete output for the routes. -/
def FunctionEntry (rs : List Route) (rest : FPath) (node : FNode) : Prop :=
  (rest = [] ∧ node = .dir) ∨ ∃ r ∈ rs, ∃ n, FunctionName r.handler n ∧
    ((rest = [n] ∧ node = .dir) ∨ (rest = [n, c!"function.json"] ∧ node = .file (functionText r)))

open Classical in
/-- What is to be found at `rest` in a complete output. -/
noncomputable def functionLook (rs : List Route) (rest : FPath) : Option FNode := if h : ∃ node, FunctionEntry rs rest node then some h.choose else none

theorem pairwise_same {α : Type} {R : α → α → Prop} {l : List α} (h : l.Pairwise R) {x y : α} (hx : x ∈ l) (hy : y ∈ l) (h1 : ¬ R x y) (h2 : ¬ R y x) : x = y := by
  induction h with
  | nil => cases hx
  | @cons a l ha _ ih =>
    rcases List.mem_cons.mp hx with ex | hx
    · rcases List.mem_cons.mp hy with ey | hy
      · rw [ex, ey]
      · exact absurd (ex ▸ ha y hy) h1
    · rcases List.mem_cons.mp hy with ey | hy
      · exact absurd (ey ▸ ha x hx) h2
      · exact ih hx hy

theorem functionEntry_unique {rs : List Route} (h : OwnFunctions rs) {rest : FPath} {a b : FNode} (ha : FunctionEntry rs rest a) (hb : FunctionEntry rs rest b) : a = b := by
  rcases ha with ⟨rfl, rfl⟩ | ⟨r, hr, n, hn, ⟨rfl, rfl⟩ | ⟨rfl, rfl⟩⟩
  · rcases hb with ⟨_, rfl⟩ | ⟨r', hr', n', hn', ⟨e, rfl⟩ | ⟨e, rfl⟩⟩
    · rfl
    · rfl
    · cases e
  · rcases hb with ⟨e, rfl⟩ | ⟨r', hr', n', hn', ⟨e, rfl⟩ | ⟨e, rfl⟩⟩
    · rfl
    · rfl
    · simp at e
  · rcases hb with ⟨e, rfl⟩ | ⟨r', hr', n', hn', ⟨e, rfl⟩ | ⟨e, rfl⟩⟩
    · cases e
    · simp at e
    · obtain rfl : n = n' := by simpa using e
      rw [pairwise_same h.2 hr hr' (fun hh => hh n hn hn') (fun hh => hh n hn' hn)]

theorem functionLook_iff {rs : List Route} (h : OwnFunctions rs) (rest : FPath) (node : FNode) : functionLook rs rest = some node ↔ FunctionEntry rs rest node := by
  unfold functionLook
  split
  · rename_i hex
    constructor
    · intro e
      rw [← Option.some.inj e]
      exact hex.choose_spec
    · intro hh
      rw [functionEntry_unique h hh hex.choose_spec]
  · rename_i hex
    exact ⟨fun e => (by cases e), fun hh => absurd ⟨_, hh⟩ hex⟩

theorem functionLook_of_tree {rs : List Route} (h : OwnFunctions rs) {fs : FS} {D : FPath} (ht : AzureTree functionText rs fs D) (rest : FPath) :
    fs.look (D ++ rest) = functionLook rs rest := by
  refine Option.ext (fun {node} => ?_)
  rw [functionLook_iff h]
  exact ht rest node

theorem tree_of_functionLook {rs : List Route} (h : OwnFunctions rs) {fs : FS} {D : FPath} (ht : ∀ q, D <+: q → fs.look q = functionLook rs (q.drop D.length)) :
    AzureTree functionText rs fs D := by
  intro rest node
  rw [ht _ (List.prefix_append _ _), List.drop_left]
  exact functionLook_iff h rest node

/-- Files at the places of files, and complete outputs in the directories. -/
def Good (Q : Places) (rs : List Route) (W : FPath → Option (Option FNode)) : Prop :=
  ∀ q n, W q = some n → (Q.file q → ∃ t, n = some (.file t)) ∧ ∀ D, Q.dir D → D <+: q → n = functionLook rs (q.drop D.length)

theorem just_good {d : FPath} {Q : Places} (hm : NotModules d Q) {q0 : FPath} (hq : Q q0) (t : Str) (rs : List Route) : Good Q rs (just q0 t) := by
  intro q n h
  unfold just at h
  split at h
  · rename_i e
    subst e
    cases h
    exact ⟨fun _ => ⟨t, rfl⟩, fun D hD hp => absurd hp (hm.spaced.files D hD _ hq)⟩
  · cases h

/-- A complete output in `D`. -/
noncomputable def deployed (D : FPath) (rs : List Route) : FPath → Option (Option FNode) := fun q => if D <+: q then some (functionLook rs (q.drop D.length)) else none

theorem deployed_good {d : FPath} {Q : Places} (hm : NotModules d Q) {D : FPath} (hD : Q.dir D) (rs : List Route) : Good Q rs (deployed D rs) := by
  intro q n h
  unfold deployed at h
  split at h
  · rename_i hp
    cases h
    refine ⟨fun hq => absurd hp (hm.spaced.files D hD q hq), fun D' hD' hp' => ?_⟩
    rcases hm.spaced.dirs D D' hD hD' with e | e
    · rw [e]
    · exact absurd ⟨hp, hp'⟩ (apart_not_both e)
  · cases h

section
variable {c d : FPath} {Q : Places} {K : FPath → Prop} {fs0 : FS} {p : Proc} (hc : ∀ x ∈ c, '/' ∉ x) (hm : NotModules d Q)

include hc hm in
theorem does_write {path : Str} {q0 : FPath} (hr : resolve c path = some q0) (hq : Q q0) (t : Str) :
    Does c d Q K fs0 (osWriteFile path t) p p () (just q0 t) := by
  intro w h1 h2 h3
  obtain ⟨o1, o2, o3⟩ := h3.1.1.outputs q0 hq
  have hne : q0 ≠ [] := by rintro rfl; exact o2 (FS.look_nil _)
  refine ⟨_, osWriteFile_ok (w := w) rfl rfl (by rw [h1]; exact hr) o1 o2, h1, h2, ⟨?_, ?_, fun hD => ?_⟩, fun q _ _ => ?_⟩
  · exact h3.1.output hm hq (resolve_no_slash hc hr) t
  · show (w.fs.put q0 _).look _ = _
    rw [FS.look_put _ hne, if_neg (by rintro rfl; exact o3 (List.prefix_refl _))]
    exact h3.2.1
  · show (w.fs.put q0 _).look _ = _
    rw [FS.look_put _ hne, if_neg (by rintro rfl; exact o3 ⟨[c!"azure"], by simp⟩)]
    exact h3.2.2 hD
  · show (w.fs.put q0 _).look _ = _
    rw [FS.look_put _ hne]
    unfold just
    split <;> simp

/-- What an OpenAPI output needs. -/
def Documentable (p : Proc) : Prop := p.svc.config ≠ none ∧ Nameable p.svc.components

variable {s : Service} (hw : s.workDir ≠ []) (hd : locOf c s.workDir = d) {L : Lib} (hord : AnyOrder L.choices.groups)
  (htext : ∀ yaml doc, ∃ text, L.render yaml doc = .ok text)

include hc hm hw hd in
theorem does_azure (dir : Str) (hD : Q.dir (walk d (segments dir))) (hwd : p.svc.workDir = s.workDir) (hown : OwnFunctions p.svc.routes)
    (hdot : pathJoin [s.workDir, dir] ≠ c!".") : Does c d Q K fs0 (azureGenerate dir) p p () (deployed (walk d (segments dir)) p.svc.routes) := by
  rintro w h1 rfl h3
  have hdw : locOf w.cwd w.st.svc.workDir = d := by rw [h1, hwd]; exact hd
  have hres : resolve w.cwd (pathJoin [w.st.svc.workDir, dir]) = some (walk d (segments dir)) := by
    rw [resolve_join _ (Or.inl (by rw [hwd]; exact hw)), hdw]
  have hap : Spec.Apart (d ++ [c!".astra", c!"azure"]) (walk d (segments dir)) := apart_below (hm.spaced.astra _ hD) _
  obtain ⟨k1, k2⟩ := azure_succeeds w dir d _ ⟨dirAt_iff.mpr hdw, hres, by rw [hwd]; exact hdot, hap, h3.1.1.tree, h3.2.1, h3.2.2 ⟨_, hD⟩,
    h3.1.1.parents _ hD, hown.1, hown.2⟩
  obtain ⟨t1, t2, t3⟩ := azure_tree noFaults w dir h3.1.1.tree
  obtain ⟨f1, f2⟩ := azure_footprint noFaults w dir d _ (dirAt_iff.mpr hdw) hres hap
  have hn := (wi_azureGenerate (T := fun _ => True) (fs0 := w.fs) hc (lasting_all w.st.svc) (fun _ _ => trivial) (by rw [hwd]; exact hw) dir
    (fun _ _ => trivial) noFaults w ⟨h1, fixed_of_isSvc rfl, .refl _ _, h3.1.1.names⟩).1.2.2.2
  obtain ⟨r1, r2⟩ := h3.1.replaced hm hD f1 t1 hn
  refine ⟨_, Prod.ext rfl k1, t2.trans h1, t3, ⟨r1, r2.trans h3.2.1, fun _ => f2 k1 _ (List.prefix_refl _)⟩, fun q hq _ => ?_⟩
  unfold deployed
  split
  · rename_i hp
    obtain ⟨rest, rfl⟩ := hp
    rw [List.drop_left]
    exact functionLook_of_tree hown k2 rest
  · rename_i hp
    refine f1 q (fun hh => hh.elim (fun hh => ?_) hp)
    rcases hq with hq | ⟨D, hD, hq⟩
    · exact (h3.1.1.outputs q hq).2.2 (List.IsPrefix.trans ⟨[c!"azure"], by simp⟩ hh)
    · exact apart_not_both (apart_below (hm.spaced.astra D hD) _) ⟨hh, hq⟩

include hc hm hw hd hord htext in
theorem does_action (a : Action) (as : List Action) (ha : Fits d s Q a) (hdoc : (∃ l, a = .openapi l) → Documentable p)
    (haz : ∀ dir, a = .azure dir → pathJoin [s.workDir, dir] ≠ c!"." ∧ OwnFunctions p.svc.routes)
    (hl : ∀ loc, Action.usesCell loc a → ∀ b ∈ as, ¬ Action.usesCell loc b) (hcell : cellsOf s (a :: as) p) :
    ∃ p' W, Does c d Q K fs0 (a.run L) p p' () W ∧ (∀ q, OutputPlace d s a q → W q ≠ none) ∧ Good Q p.svc.routes W ∧ cellsOf s as p' ∧
      (Documentable p → Documentable p') ∧ p'.svc.routes = p.svc.routes := by
  have hwd : p.svc.workDir = s.workDir := hcell.1.1
  have hcell' : cellsOf s as p := cellsOf_sub (fun b hb => by simp [hb]) hcell
  have hjust : ∀ q0 t q, q = q0 → just q0 t q ≠ none := by rintro q0 t q rfl; simp [just]
  rcases ha with ⟨⟨loc, rfl⟩ | ⟨loc, rfl⟩, hQ⟩ | ⟨dir, rfl, hD⟩
  rotate_right
  · refine ⟨p, _, does_azure hc hm hw hd dir hD hwd (haz dir rfl).2 (haz dir rfl).1, fun q hq => ?_, deployed_good hm hD _, hcell', id, rfl⟩
    have hq : walk d (segments dir) <+: q := hq
    simp [deployed, hq]
  · have hv := hcell.2 (.json loc) (by simp) loc rfl
    let q0 := walk d (segments (withExtension [c!".json"] (s.cells.getD loc [])))
    have hr : resolve c (pathJoin [s.workDir, jsonExt (s.cells.getD loc [])]) = some q0 := by
      rw [resolve_join c (Or.inl hw), jsonExt_spec, hd]
    refine ⟨{ p with svc := { p.svc with cells := p.svc.cells.set loc (pathJoin [s.workDir, jsonExt (s.cells.getD loc [])]) } },
      just q0 (marshalIndent (encJsonOutput p.svc.routes p.svc.components)), ?_, hjust _ _, just_good hm (hQ _ rfl) _ _, ?_, ?_, rfl⟩
    · show Does c d Q K fs0 (jsonGenerate loc) _ _ _ _
      unfold jsonGenerate
      refine Does.after does_svc (Does.after (does_cell loc) (Does.after (does_modify _) ?_))
      simp only [hv, hwd]
      exact does_write hc hm hr (hQ _ rfl) _
    · exact cellsOf_set hcell' (hl loc rfl) ⟨hwd ▸ rfl, rfl, rfl, rfl, rfl, rfl⟩ (fun l hne => getD_set_ne hne _)
    · exact fun h => h
  · have hdoc := hdoc ⟨loc, rfl⟩
    have hv := hcell.2 (.openapi loc) (by simp) loc rfl
    let q0 := walk d (segments (withExtension [c!".json", c!".yaml", c!".yml"] (s.cells.getD loc [])))
    have hr : resolve c (pathJoin [s.workDir, openApiExt (s.cells.getD loc [])]) = some q0 := by
      rw [resolve_join c (Or.inl hw), openApiExt_spec, hd]
    obtain ⟨names, hnames⟩ := (schema_naming_ok_iff p.svc.components L.choices.groups hord p.names).mpr hdoc.2
    have hgen : ∃ doc, generateDoc L.choices p.names { config := p.svc.config, routes := p.svc.routes, components := p.svc.components, types := p.svc.maps.merged } = .ok doc := by
      unfold generateDoc
      cases hcf : p.svc.config with
      | none => exact absurd hcf hdoc.1
      | some cfg => simp only [hnames]; exact ⟨_, rfl⟩
    obtain ⟨doc, hgen⟩ := hgen
    obtain ⟨text, htx⟩ := htext (isYaml (openApiExt (s.cells.getD loc []))) doc
    refine ⟨{ p with names := names, svc := { p.svc with
        config := p.svc.config.map (fun c => { c with description := doc.info.description })
        cells := (p.svc.cells.set loc (openApiExt (s.cells.getD loc []))).set loc (pathJoin [s.workDir, openApiExt (s.cells.getD loc [])]) } },
      just q0 text, ?_, hjust _ _, just_good hm (hQ _ rfl) _ _, ?_, ?_, rfl⟩
    · show Does c d Q K fs0 (openApiGenerate L loc) _ _ _ _
      unfold openApiGenerate
      refine Does.after does_get ?_
      simp only [hgen]
      refine Does.after (does_modify' _) (Does.after (does_cell loc) (Does.after (does_modify _) ?_))
      simp only [hv, hwd, htx, hnames]
      refine Does.after (does_modify _) ?_
      exact does_write hc hm hr (hQ _ rfl) _
    · exact cellsOf_set hcell' (hl loc rfl) ⟨hwd ▸ rfl, rfl, rfl, rfl, rfl, rfl⟩ (fun l hne => by
        show ((p.svc.cells.set loc _).set loc _).getD l [] = _
        rw [getD_set_ne hne, getD_set_ne hne])
    · rintro ⟨h1, h2⟩
      refine ⟨?_, h2⟩
      cases hcf : p.svc.config with
      | none => exact absurd hcf h1
      | some cfg => simp

include hc hm hw hd hord htext in
theorem does_outputs (ev : Nat → Event) (as : List Action) (i : Nat) {p : Proc} (ha : ∀ a ∈ as, Fits d s Q a)
    (hdoc : (∃ l, .openapi l ∈ as) → Documentable p) (haz : ∀ dir, .azure dir ∈ as → pathJoin [s.workDir, dir] ≠ c!"." ∧ OwnFunctions p.svc.routes)
    (hl : as.Pairwise (fun a b => ∀ loc, Action.usesCell loc a → ¬ Action.usesCell loc b)) (hcell : cellsOf s as p) :
    ∃ p' W, Does c d Q K fs0 (runAll L ev i as) p p' () W ∧ (∀ a ∈ as, ∀ q, OutputPlace d s a q → W q ≠ none) ∧ Good Q p.svc.routes W ∧ fixedSvc s p' := by
  induction as generalizing i p with
  | nil => exact ⟨p, nowhere, does_pure (), by simp, (fun q n h => by simp [nowhere] at h), hcell.1⟩
  | cons a as ih =>
    obtain ⟨p1, W1, k1, k2, k5, k3, k4, k6⟩ := does_action (fs0 := fs0) (p := { p with log := p.log ++ [ev i] }) hc hm hw hd hord htext a as (ha a (by simp))
      (by rintro ⟨l, rfl⟩; exact hdoc ⟨l, by simp⟩) (by rintro dir rfl; exact haz dir (by simp))
      (fun loc hu b hb => (List.pairwise_cons.mp hl).1 b hb loc hu) hcell
    have k6 : p1.svc.routes = p.svc.routes := k6
    obtain ⟨p2, W2, j1, j2, j4, j3⟩ := ih (i + 1) (p := p1) (fun b hb => ha b (by simp [hb])) (fun ⟨l, h⟩ => k4 (hdoc ⟨l, by simp [h]⟩))
      (fun dir h => by rw [k6]; exact haz dir (by simp [h])) (List.pairwise_cons.mp hl).2 k3
    rw [k6] at j4
    refine ⟨p2, fun q => (W2 q).or (W1 q), ?_, ?_, ?_, j3⟩
    · unfold runAll
      exact Does.after (does_log _) (Does.bind k1 j1)
    · intro b hb q hq
      rcases List.mem_cons.mp hb with rfl | hb
      · have := k2 q hq
        cases h2 : W2 q <;> simp [this]
      · have := j2 b hb q hq
        cases h2 : W2 q
        · exact absurd h2 this
        · simp [h2]
    · intro q n h
      cases h2 : W2 q with
      | none => exact k5 q n (by simpa [h2] using h)
      | some n' => exact j4 q n (by simpa [h2] using h)

end

/-! ### The whole run -/

theorem render_total {L : Lib} (h : ∀ j, ∃ text, L.yamlText j = .ok text) (yaml : Bool) (doc : Document) : ∃ text, L.render yaml doc = .ok text := by
  cases yaml with
  | false => exact ⟨_, rfl⟩
  | true => exact h _


/-- What a feasible run writes. It depends on the service, on where it runs and on the module files. -/
theorem run_outcome {L : Lib} {getwd : Str} {p : Proc} {routers : List (List RouteInfo)} (hF : Feasible L getwd p.svc routers)
    {c d : FPath} (hk : ∀ q, CachePlace c p.svc q → ¬ OutputPlaces d p.svc q) (hl : Spaced d (placesOf c d p.svc)) (hd : DirAt c p.svc.workDir d)
    (hg : resolve c getwd = some c) (hc : ∀ x ∈ c, '/' ∉ x) (fs0 : FS) :
    ∃ (W : FPath → Option FNode) (m : Str) (rs : List Route) (cs : List Field), RunResult L p.svc (workDirAfter getwd p.svc) routers m rs cs ∧
      (∀ q, OutputPlaces d p.svc q → ∃ t, W q = some (.file t)) ∧
      ∀ w : World Proc, w.cwd = c → w.st = p → Orderly w.fs d (placesOf c d p.svc) → SameModules d fs0 w.fs → NoLeftover w.fs d (placesOf c d p.svc) →
        (Astra.parseAll L getwd noFaults w).2 = .ok () ∧ (∀ q, OutputPlaces d p.svc q → (Astra.parseAll L getwd noFaults w).1.fs.look q = W q) ∧
        ∀ D, FunctionDirs d p.svc D → AzureTree functionText rs (Astra.parseAll L getwd noFaults w).1.fs D := by
  obtain ⟨hw', hd'⟩ := workDir_after hd hg
  have hm := places_not_modules c d p.svc hF.cache hl
  have hcp : ∀ q, CachePlace c p.svc q → (placesOf c d p.svc).file q ∧ CachePlace c p.svc q := fun q hq => ⟨Or.inr hq, hq⟩
  let s' := afterSetup getwd p.svc
  let p1 : Proc := { p with svc := s', log := p.log ++ [.setup] }
  have hplaced : Placed c d (placesOf c d p.svc) (CachePlace c p.svc) s' := ⟨hw', hd', hcp, hF.cache⟩
  obtain ⟨found, log2, a0, a1⟩ := does_create (Q := placesOf c d p.svc) (K := CachePlace c p.svc) (fs0 := fs0) (p := p1) (L := L) hc hm hplaced hF.input hF.located
  let p2 : Proc := { p1 with svc := { s' with routes := p.svc.routes ++ found }, log := log2 }
  have hfound : ∀ r ∈ found, ∃ i ∈ allowed p.svc.denyList routers.flatten, Found L.rel i r := by
    intro r hr
    have key : ∀ {is : List RouteInfo} {rs : List Route}, Each (Found L.rel) is rs → ∀ r ∈ rs, ∃ i ∈ is, Found L.rel i r := by
      intro is rs h
      induction h with
      | nil => simp
      | cons h _ ih =>
        intro r hr
        rcases List.mem_cons.mp hr with rfl | hr
        · exact ⟨_, by simp, h⟩
        · obtain ⟨i, hi, hf⟩ := ih r hr
          exact ⟨i, by simp [hi], hf⟩
    exact key a0 r hr
  have hroutes : p2.svc.routes = found := by
    show p.svc.routes ++ found = found
    rw [hF.fresh]; rfl
  obtain ⟨m3, cs3, rs3, log3, b0, b1⟩ := does_parse (Q := placesOf c d p.svc) (K := CachePlace c p.svc) (fs0 := fs0) (p := p2) (L := L) hc hm hF.keys ⟨hw', hd', hcp, hF.cache⟩ hF.input
    (by rw [hroutes, found_keys a0]; exact hF.distinct)
    (P := fun n r => ∃ i ∈ allowed p.svc.denyList routers.flatten, AfterPasses L (workDirAfter getwd p.svc) p.svc.customFuncs i n r)
    (fun n hn r ⟨i, hi, hr⟩ m cs => hF.analysed i hi n hn r hr m cs)
    (fun n r m cs cs' r' ⟨i, hi, hr⟩ h => ⟨i, hi, .again hr h⟩)
    (fun r hr => by
      rw [hroutes] at hr
      obtain ⟨i, hi, hf⟩ := hfound r hr
      exact ⟨i, hi, .found hf⟩)
  let p3 : Proc := { p2 with svc := { p2.svc with tempMain := m3, components := cs3, routes := rs3 }, log := log3 }
  obtain ⟨m4, log4, c0, c1⟩ := does_clean (Q := placesOf c d p.svc) (K := CachePlace c p.svc) (fs0 := fs0) (p := p3) (L := L) hc hm ⟨hw', hd', hcp, hF.cache⟩
  let p4 : Proc := { p3 with svc := { p3.svc with tempMain := m4, components := cs3.map (cleanField m4), routes := rs3.map (cleanRoute m4) }, log := log4 }
  have hres : RunResult L p.svc (workDirAfter getwd p.svc) routers m4 (rs3.map (cleanRoute m4)) (cs3.map (cleanField m4)) :=
    ⟨found, m3, cs3, rs3, a0, by rw [hroutes] at b0; exact b0, c0, rfl, rfl⟩
  have hdeep : (∃ o ∈ p.svc.outputs, ∃ loc, o.generate = .openapi loc) → Nameable p4.svc.components := fun ho => hF.named ho _ _ _ hres
  obtain ⟨p5, W, d1, d2, d3, d4⟩ := does_outputs (Q := placesOf c d p.svc) (K := CachePlace c p.svc) (fs0 := fs0) (s := s') (L := L) hc hm hw' hd' hF.order (render_total hF.texts) .output
    (p.svc.outputs.map (·.generate)) 0 (p := { p4 with log := p4.log ++ [.generate] })
    (by
      intro a ha
      obtain ⟨o, ho, rfl⟩ := List.mem_map.mp ha
      exact outputs_fit hF.kinds o ho)
    (by
      rintro ⟨l, h⟩
      obtain ⟨o, ho, e⟩ := List.mem_map.mp h
      exact ⟨hF.config ⟨o, ho, l, e⟩, hdeep ⟨o, ho, l, e⟩⟩)
    (by
      intro dir h
      obtain ⟨o, ho, e⟩ := List.mem_map.mp h
      exact ⟨hF.elsewhere o ho dir e, hF.functions ⟨o, ho, dir, e⟩ _ _ _ hres⟩)
    (by rw [List.pairwise_map]; exact hF.own)
    ⟨⟨rfl, rfl, rfl, rfl, rfl, rfl⟩, fun _ _ _ _ => rfl⟩
  have hfile : ∀ q, OutputPlaces d p.svc q → ∃ t, W q = some (some (.file t)) := by
    intro q hq
    have hq' : (placesOf c d p.svc).file q := Or.inl hq
    obtain ⟨o, ho, _, hq⟩ := outputPlaces_after (getwd := getwd).mpr hq
    cases hW : W q with
    | none => exact absurd hW (d2 o.generate (List.mem_map.mpr ⟨o, ho, rfl⟩) q hq)
    | some n =>
      obtain ⟨t, rfl⟩ := (d3 q n hW).1 hq'
      exact ⟨t, rfl⟩
  have hdir : ∀ D, FunctionDirs d p.svc D → ∀ q, D <+: q → W q = some (functionLook (rs3.map (cleanRoute m4)) (q.drop D.length)) := by
    intro D hD q hq
    have hD' : (placesOf c d p.svc).dir D := hD
    obtain ⟨o, ho, dir, e, rfl⟩ := hD
    cases hW : W q with
    | none => exact absurd hW (d2 o.generate (List.mem_map.mpr ⟨o, ho, rfl⟩) q (by rw [e]; exact hq))
    | some n => rw [(d3 q n hW).2 _ hD' hq]
  refine ⟨fun q => (W q).getD none, m4, _, _, hres, fun q hq => (hfile q hq).imp (fun t ht => by simp [ht]), ?_⟩
  intro w hcwd hst hord hmod hlo
  obtain ⟨w1, e1, f1, f2, f3, f4⟩ := setup_ready (fs0 := fs0) hc hm L getwd w hcwd (by rw [hst]; exact hd) hg (K := CachePlace c p.svc) (by rw [hst]; exact hcp) (by rw [hst]; exact hF.cache) ⟨hord, hmod⟩ hlo
  rw [hst] at f2
  obtain ⟨w2, e2, f5, f6, f7, f8⟩ := a1 w1 f1 f2 f3
  obtain ⟨w3, e3, f9, f10, f11, f12⟩ := b1 w2 f5 f6 f7
  obtain ⟨w4, e4, f13, f14, f15, f16⟩ := c1 w3 f9 f10 f11
  have hgen : Does c d (placesOf c d p.svc) (CachePlace c p.svc) fs0 (stepGenerate L) p4 p5 () W := by
    unfold stepGenerate
    refine Does.after (does_log _) (Does.after does_svc ?_)
    refine Does.then d1 ?_
    refine does_cacheIfEnabled hc hm ⟨by rw [d4.1]; exact hw', by rw [d4.1]; exact hd', fun q hq => ?_, ?_⟩ L
    · unfold CachePlace at hq
      rw [d4.2.1, d4.2.2.1] at hq
      exact hcp q hq
    · unfold JsonCache
      rw [d4.2.1, d4.2.2.1]
      exact hF.cache
  obtain ⟨w5, e5, f17, f18, f19, f20⟩ := hgen w4 f13 f14 f15
  have hio : ∀ w : World Proc, w.st.svc.inputs = p.svc.inputs → w.st.svc.outputs = p.svc.outputs → checkIO noFaults w = (w, .ok ()) := by
    intro w h1 h2
    unfold checkIO
    rw [Run.bind_ok (getSvc_ok noFaults w)]
    rw [if_neg (by rw [h1]; simpa using hF.some_input), if_neg (by rw [h2]; simpa using hF.some_output)]
    rfl
  have erun : Astra.parseAll L getwd noFaults w = teardown noFaults w5 := by
    unfold Astra.parseAll setupParse completeParse
    rw [bind_assoc', Run.bind_ok (hio w (by rw [hst]) (by rw [hst])), bind_assoc', Run.bind_ok e1, Run.bind_ok e2,
      Run.bind_ok (hio w2 (by rw [f6]; rfl) (by rw [f6]; rfl)), Run.bind_ok e3, Run.bind_ok e4, Run.bind_ok e5]
  rw [erun]
  have hfix : fixedSvc s' w5.st := by rw [f18]; exact d4
  have k := (wi_teardown (c := c) (s := s') (T := fun r => d ++ [c!".astra"] <+: r) (fs0 := w5.fs) (fun r hr => by rw [hd'] at hr; exact hr) noFaults w5
    ⟨f17, hfix, .refl _ _, f19.1.1.names⟩).1
  refine ⟨teardown_ok w5, fun q hq => ?_, fun D hD => ?_⟩
  · obtain ⟨o1, o2, o3⟩ := f19.1.1.outputs q (Or.inl hq)
    rw [k.2.2.1 q o3, f20 q (Or.inl (Or.inl hq)) (fun h => hk q h hq)]
    obtain ⟨t, ht⟩ := hfile q hq
    simp [ht]
  · have hD' : (placesOf c d p.svc).dir D := hD
    obtain ⟨o, ho, dir, e, _⟩ := hD
    refine tree_of_functionLook (hF.functions ⟨o, ho, dir, e⟩ _ _ _ hres) (fun q hq => ?_)
    rw [k.2.2.1 q (fun h => apart_not_both (hl.astra D hD') ⟨h, hq⟩), f20 q (Or.inr ⟨D, hD', hq⟩) (fun h => hl.files D hD' q (Or.inr h) hq),
      hdir D hD' q hq]
    rfl

end Astra.Props
