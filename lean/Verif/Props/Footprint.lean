/-
C64: what a whole run may change.
-/
import Verif.Spec.Footprint
import Verif.Props.AzureOutput
import Verif.Props.OutputFile
import Verif.Props.MainPackage
import Verif.Lemmas.Sim

namespace Astra.Props
open Spec Run

/-! ### Changes in a set of places, with proper names -/

/-- The tree differs from `fs0` at most in `T`, and has proper names. -/
def Within' (T : FPath → Prop) (fs0 fs : FS) : Prop := SameOutside T fs0 fs ∧ ProperNames fs

theorem ProperNames.put {fs : FS} (h : ProperNames fs) {q : FPath} (hq : q ≠ []) (n : FNode) (hs : ∀ x ∈ q, '/' ∉ x) : ProperNames (fs.put q n) := by
  intro r hr
  rw [FS.look_put _ hq] at hr
  split at hr
  · rename_i e; exact e ▸ hs
  · exact h r hr

theorem ProperNames.del {fs : FS} (h : ProperNames fs) (q : FPath) : ProperNames (fs.del q) := by
  intro r hr
  rw [FS.look_del] at hr
  split at hr
  · exact absurd rfl hr
  · exact h r hr

theorem ProperNames.delPart {fs : FS} (h : ProperNames fs) (k : FPath → Bool) (q : FPath) : ProperNames (fs.delPart k q) := by
  intro r hr
  rcases FS.look_delPart k fs q r with e | e
  · exact h r (e ▸ hr)
  · exact absurd e hr

theorem ProperNames.mkdirs {fs : FS} (h : ProperNames fs) (qs : List FPath) (hs : ∀ q ∈ qs, ∀ x ∈ q, '/' ∉ x) : ProperNames (fs.mkdirs qs) := by
  intro r hr
  rw [look_mkdirs] at hr
  split at hr
  · rename_i e; exact hs r e.2
  · exact h r hr

theorem ProperNames.move {fs : FS} (h : ProperNames fs) {a b : FPath} (ha : a ≠ []) (hb : b ≠ []) (hs : ∀ x ∈ b, '/' ∉ x) : ProperNames (fs.move a b) := by
  intro r hr
  rw [FS.look_move fs ha hb] at hr
  split at hr
  · rename_i e
    obtain ⟨t, rfl⟩ := e
    rw [List.drop_left] at hr
    intro x hx
    rcases List.mem_append.mp hx with hx | hx
    · exact hs x hx
    · exact h _ hr x (List.mem_append_right _ hx)
  · split at hr
    · exact absurd rfl hr
    · exact h r hr

section
variable {c : FPath} {S : Proc → Prop} {T : FPath → Prop} {fs0 : FS} {p : Str} (hc : ∀ x ∈ c, '/' ∉ x)
include hc

theorem wi_mkdir (h : ∀ q, resolve c p = some q → T q) : Keeps (Inv c S (Within' T fs0)) anyVal (osMkdir p : Prg Unit) :=
  keeps_mkdir (fun _ q hp hr h1 _ _ => ⟨hp.1.trans (.put h1 _ (h q hr)), ProperNames.put hp.2 h1 _ (resolve_no_slash hc hr)⟩)

theorem wi_create (h : ∀ q, resolve c p = some q → T q) : Keeps (Inv c S (Within' T fs0)) anyVal (osCreate p : Prg Unit) :=
  keeps_create (fun _ q hp hr h1 _ _ => ⟨hp.1.trans (.put h1 _ (h q hr)), ProperNames.put hp.2 h1 _ (resolve_no_slash hc hr)⟩)

theorem wi_write {t : Str} (h : ∀ q, resolve c p = some q → T q) : Keeps (Inv c S (Within' T fs0)) anyVal (osWrite p t : Prg Unit) :=
  keeps_write (fun _ q _ hp hr h1 => ⟨hp.1.trans (.put (FS.isFile_ne_nil h1) _ (h q hr)),
    ProperNames.put hp.2 (FS.isFile_ne_nil h1) _ (resolve_no_slash hc hr)⟩)

theorem wi_writeFile {t : Str} (h : ∀ q, resolve c p = some q → T q) : Keeps (Inv c S (Within' T fs0)) anyVal (osWriteFile p t : Prg Unit) :=
  Keeps.bind (m := osCreate p) (f := fun _ => osWrite p t) (wi_create hc h) (fun _ _ => wi_write hc h)

omit hc in
theorem wi_removeAll (h : ∀ q, resolve c p = some q → ∀ r, q <+: r → T r) : Keeps (Inv c S (Within' T fs0)) anyVal (osRemoveAll p : Prg Unit) :=
  keeps_removeAll (fun _ q hp hr => ⟨⟨hp.1.trans (.del (h q hr)), ProperNames.del hp.2 q⟩,
    fun k => ⟨hp.1.trans (.delPart k (h q hr)), ProperNames.delPart hp.2 k q⟩⟩)

theorem wi_rename {a b : Str} (ha : ∀ q, resolve c a = some q → ∀ r, q <+: r → T r) (hb : ∀ q, resolve c b = some q → ∀ r, q <+: r → T r) :
    Keeps (Inv c S (Within' T fs0)) anyVal (osRename a b : Prg Unit) :=
  keeps_rename (fun fs qa qb hp hra hrb _ h1 h2 _ => by
    have hne : qa ≠ [] := by rintro rfl; exact h2 List.nil_prefix
    refine ⟨hp.1.trans ?_, ProperNames.move hp.2 hne h1 (resolve_no_slash hc hrb)⟩
    intro r hr
    rw [FS.look_move fs hne h1, if_neg, if_neg]
    · exact fun hh => hr (ha qa hra r hh)
    · exact fun hh => hr (hb qb hrb r hh))

theorem wi_mkdirAll (h : ∀ q, resolve c p = some q → ∀ r, r <+: q → fs0.look r = none → T r) :
    Keeps (Inv c S (Within' T fs0)) anyVal (osMkdirAll p : Prg Unit) :=
  keeps_mkdirAll (fun fs q n hp hr _ => ⟨hp.1.trans (SameOutside.mkdirs (fun r hm => by
    by_cases ht : T r
    · exact Or.inr ht
    · left
      rw [hp.1 r ht]
      exact fun hn => ht (h q hr r (mem_take_ancestors.mp hm).1 hn))),
    ProperNames.mkdirs hp.2 _ (fun r hm x hx => resolve_no_slash hc hr x ((mem_take_ancestors.mp hm).1.subset hx))⟩)

end

theorem wi_stat {c : FPath} {S : Proc → Prop} {P : FS → Prop} {p : Str} : Keeps (Inv c S P) anyVal (osStat p : Prg FNode) :=
  keeps_stat (fun _ _ _ _ _ _ => trivial)

/-! ### The settings -/

/-- The settings of the process that do not change after setup. -/
def fixedSvc (s : Service) (p : Proc) : Prop :=
  p.svc.workDir = s.workDir ∧ p.svc.cachePath = s.cachePath ∧ p.svc.cacheEnabled = s.cacheEnabled ∧ p.svc.cliMode = s.cliMode ∧
  p.svc.inputs = s.inputs ∧ p.svc.outputs = s.outputs

/-- The settings and the captured variables. -/
def fixedAll (s : Service) (p : Proc) : Prop := fixedSvc s p ∧ p.svc.cells = s.cells

/-- A property of the process that depends on the settings, and perhaps on the captured variables, only. -/
structure Lasting (s : Service) (S : Proc → Prop) : Prop where
  fixed : ∀ p, S p → fixedSvc s p
  svc : ∀ p p' : Proc, S p → p'.svc.workDir = p.svc.workDir → p'.svc.cachePath = p.svc.cachePath → p'.svc.cacheEnabled = p.svc.cacheEnabled →
    p'.svc.cliMode = p.svc.cliMode → p'.svc.inputs = p.svc.inputs → p'.svc.outputs = p.svc.outputs → p'.svc.cells = p.svc.cells → S p'

theorem lasting_all (s : Service) : Lasting s (fixedAll s) :=
  ⟨fun _ h => h.1, fun _ _ h h1 h2 h3 h4 h5 h6 h7 => ⟨⟨h1.trans h.1.1, h2.trans h.1.2.1, h3.trans h.1.2.2.1, h4.trans h.1.2.2.2.1,
    h5.trans h.1.2.2.2.2.1, h6.trans h.1.2.2.2.2.2⟩, h7.trans h.2⟩⟩

theorem lasting_svc (s : Service) : Lasting s (fixedSvc s) :=
  ⟨fun _ h => h, fun _ _ h h1 h2 h3 h4 h5 h6 _ => ⟨h1.trans h.1, h2.trans h.2.1, h3.trans h.2.2.1, h4.trans h.2.2.2.1,
    h5.trans h.2.2.2.2.1, h6.trans h.2.2.2.2.2⟩⟩

theorem astraDirPath_fixed {s s' : Service} (h : s'.workDir = s.workDir) : astraDirPath s' = astraDirPath s := by unfold astraDirPath; rw [h]

theorem cachePathOf_fixed {s s' : Service} (h : s'.workDir = s.workDir) (h' : s'.cachePath = s.cachePath) : cachePathOf s' = cachePathOf s := by
  unfold cachePathOf; rw [astraDirPath_fixed h, h']

/-- What the process may read of the service. -/
def svcLike (s : Service) (s' : Service) : Prop :=
  s'.workDir = s.workDir ∧ s'.cachePath = s.cachePath ∧ s'.cacheEnabled = s.cacheEnabled ∧ s'.cliMode = s.cliMode ∧
  s'.inputs = s.inputs ∧ s'.outputs = s.outputs

section
variable {c : FPath} {S : Proc → Prop} {T : FPath → Prop} {fs0 : FS} {s : Service} (hc : ∀ x ∈ c, '/' ∉ x) (hS : Lasting s S)
  (hcache : s.cacheEnabled = true → ∀ q, resolve c (cachePathOf s) = some q → ∀ r, q <+: r → T r)
  (hastra : ∀ r, locOf c s.workDir ++ [c!".astra"] <+: r → T r)

include hS in
theorem wi_svc : Keeps (Inv c S (Within' T fs0)) (svcLike s) getSvc := keeps_getSvc (fun p hp => hS.fixed p hp)

include hS in
theorem wi_modifySvc {f : Service → Service}
    (h : ∀ s, (f s).workDir = s.workDir ∧ (f s).cachePath = s.cachePath ∧ (f s).cacheEnabled = s.cacheEnabled ∧ (f s).cliMode = s.cliMode ∧
      (f s).inputs = s.inputs ∧ (f s).outputs = s.outputs ∧ (f s).cells = s.cells) :
    Keeps (Inv c S (Within' T fs0)) anyVal (modifySvc f) :=
  keeps_modifySvc (fun p hp => by
    obtain ⟨h1, h2, h3, h4, h5, h6, h7⟩ := h p.svc
    exact hS.svc p _ hp h1 h2 h3 h4 h5 h6 h7)

include hS in
theorem wi_log (e : Event) : Keeps (Inv c S (Within' T fs0)) anyVal (logEvent e) :=
  keeps_logEvent (fun p hp => hS.svc p _ hp rfl rfl rfl rfl rfl rfl rfl)

include hc hS hcache in
theorem wi_cacheIfEnabled (L : Lib) : Keeps (Inv c S (Within' T fs0)) anyVal (cacheIfEnabled L) := by
  unfold cacheIfEnabled
  refine Keeps.bind (wi_svc hS) (fun s' hs => ?_)
  split
  · rename_i he
    rw [hs.2.2.1] at he
    have h := hcache he
    have h' : ∀ q, resolve c (cachePathOf s) = some q → T q := fun q hq => h q hq q (List.prefix_refl q)
    unfold cache
    refine Keeps.bind (wi_svc hS) (fun s' hs => ?_)
    simp only [cachePathOf_fixed hs.1 hs.2.1]
    have hrest : Keeps (Inv c S (Within' T fs0)) anyVal (do
        osCreate (cachePathOf s)
        match cacheText L (cachePathOf s) s' with
        | none => Run.panic
        | some text => osWrite (cachePathOf s) text) := by
      refine Keeps.seq (wi_create hc h') (fun _ => ?_)
      cases cacheText L (cachePathOf s) s' with
      | none => exact Keeps.panic
      | some t => exact wi_write hc h'
    refine Keeps.seq (Keeps.try' wi_stat) (fun r => ?_)
    cases r with
    | error e => exact hrest
    | ok n =>
      refine Keeps.seq (A := anyVal) ?_ (fun _ => hrest)
      unfold clearCache
      refine Keeps.bind (wi_svc hS) (fun s'' hs => ?_)
      simp only [cachePathOf_fixed hs.1 hs.2.1]
      exact Keeps.seq wi_stat (fun _ => wi_removeAll h)
  · exact Keeps.pure trivial

include hc in
theorem wi_copyMainFiles {target : Str} (htgt : target ≠ []) {wd : Str} (ht : ∀ n : Str, '/' ∉ n → hasSuffix n c!".go" = true → T (locOf c target ++ [n]))
    (names : List Str) (hn : ∀ n ∈ names, '/' ∉ n) (pkg : Str) :
    Keeps (Inv c S (Within' T fs0)) anyVal (copyMainFiles wd target names pkg) := by
  induction names generalizing pkg with
  | nil => exact Keeps.pure trivial
  | cons n names ih =>
    have ih := ih (fun m hm => hn m (by simp [hm]))
    unfold copyMainFiles
    split
    · rename_i hgo
      refine Keeps.seq (A := anyVal) (keeps_readFile (fun _ _ _ _ _ _ => trivial)) (fun t => Keeps.seq (wi_writeFile hc (fun q hr => ?_)) (fun _ => ih pkg))
      have hp : PlainName n := by
        refine ⟨?_, ?_, ?_, hn n (by simp)⟩ <;> (rintro rfl; exact absurd hgo (by decide))
      rw [resolve_join c (Or.inl htgt), walk_plain hp] at hr
      cases hr
      exact ht n (hn n (by simp)) hgo
    · split
      · exact Keeps.seq (A := anyVal) (keeps_readFile (fun _ _ _ _ _ _ => trivial)) (fun t => ih _)
      · exact ih pkg

include hc hS in
theorem wi_setupTemp (hT : ∀ r, locOf c s.workDir ++ [c!".astra", c!"astramain"] <+: r → T r) :
    Keeps (Inv c S (Within' T fs0)) anyVal setupTempMainPackage := by
  have hres : resolve c (pathJoin [astraDirPath s, mainReplacement]) = some (locOf c s.workDir ++ [c!".astra", c!"astramain"]) := by
    rw [resolve_in_astra c s plain_main]; simp [mainReplacement]
  have hne : pathJoin [astraDirPath s, mainReplacement] ≠ [] := (loc_join_plain [] _ plain_main).1
  unfold setupTempMainPackage
  refine Keeps.bind (wi_svc hS) (fun s' hs => ?_)
  simp only [astraDirPath_fixed hs.1]
  refine Keeps.seq (Keeps.try' wi_stat) (fun r => ?_)
  have hrest : Keeps (Inv c S (Within' T fs0)) anyVal (do
      osMkdir (pathJoin [astraDirPath s, mainReplacement])
      let names ← osReadDir s'.workDir
      let pkgName ← copyMainFiles s'.workDir (pathJoin [astraDirPath s, mainReplacement]) names []
      modifySvc (fun s => { s with tempMain := pathJoin [pkgName, mainReplacementPath] })) := by
    refine Keeps.seq (wi_mkdir hc (fun q hr => by rw [hres] at hr; cases hr; exact hT _ (List.prefix_refl _))) (fun _ => ?_)
    refine Keeps.bind (A := fun names => ∀ n ∈ names, '/' ∉ n) (keeps_readDir (fun fs q hp _ _ n hn => ?_)) (fun names hn => ?_)
    · exact hp.2 _ (mem_children.mp hn) n (by simp)
    · refine Keeps.seq (wi_copyMainFiles hc hne (fun n _ _ => ?_) names hn _) (fun pkg => wi_modifySvc hS (fun _ => ⟨rfl, rfl, rfl, rfl, rfl, rfl, rfl⟩))
      rw [resolve_eq hne] at hres
      rw [Option.some.inj hres]
      exact hT _ (List.prefix_append _ _)
  cases r with
  | ok n =>
    refine Keeps.seq (wi_removeAll (fun q hr => ?_)) (fun _ => hrest)
    rw [hres] at hr; cases hr; exact hT
  | error e => exact hrest

include hc hS hastra in
theorem wi_setupTempMainPackage : Keeps (Inv c S (Within' T fs0)) anyVal setupTempMainPackage :=
  wi_setupTemp hc hS (fun r hr => hastra r (List.IsPrefix.trans ⟨[c!"astramain"], by simp⟩ hr))

include hc hS hastra in
theorem wi_getMainPackageName : Keeps (Inv c S (Within' T fs0)) anyVal getMainPackageName := by
  unfold getMainPackageName
  refine Keeps.bind (wi_svc hS) (fun s' _ => Keeps.seq (A := anyVal) ?_ (fun _ => Keeps.bind (wi_svc hS) (fun _ _ => Keeps.pure trivial)))
  split
  · exact wi_setupTempMainPackage hc hS hastra
  · exact Keeps.pure trivial

include hS in
theorem wi_ginCreateRoutes (L : Lib) (r : Option (List RouteInfo)) : Keeps (Inv c S (Within' T fs0)) anyVal (ginCreateRoutes L r) := by
  unfold ginCreateRoutes
  refine Keeps.bind (wi_svc hS) (fun s' _ => ?_)
  cases r with
  | none => exact Keeps.panic
  | some infos =>
    refine Keeps.seq (wi_modifySvc hS (fun s => ⟨rfl, rfl, rfl, rfl, rfl, rfl, rfl⟩)) (fun _ => ?_)
    split
    · exact Keeps.pure trivial
    · exact Keeps.throw _

include hc hS hastra in
theorem wi_ginParseLoop (L : Lib) (n i : Nat) : Keeps (Inv c S (Within' T fs0)) anyVal (ginParseLoop L n i) := by
  induction n generalizing i with
  | zero => exact Keeps.pure trivial
  | succ n ih =>
    unfold ginParseLoop
    refine Keeps.bind (wi_svc hS) (fun s' _ => ?_)
    split
    · exact Keeps.pure trivial
    · rename_i route _
      refine Keeps.seq (A := anyVal) ?_ (fun _ => Keeps.bind (wi_svc hS) (fun s' _ => ?_))
      · split
        · exact Keeps.seq (wi_getMainPackageName hc hS hastra) (fun _ => Keeps.pure trivial)
        · exact Keeps.pure trivial
      · refine Keeps.seq (wi_modifySvc hS (fun s => ⟨rfl, rfl, rfl, rfl, rfl, rfl, rfl⟩)) (fun _ => ?_)
        split
        · exact Keeps.throw _
        · exact Keeps.panic
        · exact Keeps.seq (wi_modifySvc hS (fun s => ⟨rfl, rfl, rfl, rfl, rfl, rfl, rfl⟩)) (fun _ => ih _)

include hc in
theorem wi_azureFiles {temp : Str} (ht : temp ≠ []) (hT : ∀ q, locOf c temp <+: q → T q) (rs : List Route) :
    Keeps (Inv c S (Within' T fs0)) anyVal (azureFiles temp rs) := by
  induction rs with
  | nil => exact Keeps.pure trivial
  | cons r rs ih =>
    unfold azureFiles
    obtain ⟨l, _, h2, h3, _⟩ := resolve_function c ht r
    refine Keeps.seq (wi_mkdir hc (fun q hr => ?_)) (fun _ => Keeps.seq (wi_writeFile hc (fun q hr => ?_)) (fun _ => ih))
    · rw [h2] at hr; cases hr; exact hT _ (List.prefix_append _ _)
    · rw [h3] at hr; cases hr; exact hT _ (List.prefix_append _ _)

include hc hS hastra in
theorem wi_azureGenerate (hw : s.workDir ≠ []) (dir : Str) (hd : ∀ r, walk (locOf c s.workDir) (segments dir) <+: r → T r) :
    Keeps (Inv c S (Within' T fs0)) anyVal (azureGenerate dir) := by
  have hres : resolve c (pathJoin [astraDirPath s, azureTemp]) = some (locOf c s.workDir ++ [c!".astra", c!"azure"]) := by
    rw [resolve_in_astra c s plain_azure]; simp [azureTemp]
  have hne : pathJoin [astraDirPath s, azureTemp] ≠ [] := (loc_join_plain [] _ plain_azure).1
  have hT : ∀ r, locOf c s.workDir ++ [c!".astra", c!"azure"] <+: r → T r := fun r hr => hastra r (List.IsPrefix.trans ⟨[c!"azure"], by simp⟩ hr)
  have hdst : resolve c (pathJoin [s.workDir, dir]) = some (walk (locOf c s.workDir) (segments dir)) := resolve_join c (Or.inl hw)
  unfold azureGenerate setupTempOutputDir moveTempOutputDir
  refine Keeps.bind (A := fun t => t = pathJoin [astraDirPath s, azureTemp])
    (Keeps.bind (wi_svc hS) (fun s' hs => ?_)) (fun t ht => ?_)
  · simp only [astraDirPath_fixed hs.1]
    exact Keeps.seq (wi_mkdir hc (fun q hr => by rw [hres] at hr; cases hr; exact hT _ (List.prefix_refl _))) (fun _ => Keeps.pure rfl)
  · subst ht
    refine Keeps.bind (wi_svc hS) (fun s' _ => Keeps.seq (wi_azureFiles hc hne (fun q hq => ?_) _) (fun _ => Keeps.bind (wi_svc hS) (fun s' hs => ?_)))
    · rw [resolve_eq hne] at hres
      rw [Option.some.inj hres] at hq
      exact hT q hq
    · simp only [astraDirPath_fixed hs.1, hs.1]
      refine Keeps.seq (Keeps.try' wi_stat) (fun st => Keeps.seq (A := anyVal) ?_ (fun _ => wi_rename hc (fun q hr => ?_) (fun q hr => ?_)))
      · split
        · exact Keeps.pure trivial
        · exact wi_removeAll (fun q hr => by rw [hdst] at hr; cases hr; exact hd)
      · rw [hres] at hr; cases hr; exact hT
      · rw [hdst] at hr; cases hr; exact hd

end

/-! ### The outputs -/

/-- The settings are fixed and the captured variables of the given functions are as they were. -/
def cellsOf (s : Service) (as : List Action) (p : Proc) : Prop :=
  fixedSvc s p ∧ ∀ a ∈ as, ∀ loc, Action.usesCell loc a → p.svc.cells.getD loc [] = s.cells.getD loc []

theorem lasting_cells (s : Service) (as : List Action) : Lasting s (cellsOf s as) :=
  ⟨fun _ h => h.1, fun p p' h h1 h2 h3 h4 h5 h6 h7 => ⟨(lasting_svc s).svc p p' h.1 h1 h2 h3 h4 h5 h6 h7, by rw [h7]; exact h.2⟩⟩

theorem cellsOf_set {s : Service} {as : List Action} {p p' : Proc} (h : cellsOf s as p) {loc : Nat} (hl : ∀ a ∈ as, ¬ Action.usesCell loc a)
    (hf : fixedSvc p.svc p') (hcell : ∀ l, l ≠ loc → p'.svc.cells.getD l [] = p.svc.cells.getD l []) : cellsOf s as p' := by
  obtain ⟨⟨h1, h2, h3, h4, h5, h6⟩, h7⟩ := h
  obtain ⟨k1, k2, k3, k4, k5, k6⟩ := hf
  refine ⟨⟨k1.trans h1, k2.trans h2, k3.trans h3, k4.trans h4, k5.trans h5, k6.trans h6⟩, fun a ha l hu => ?_⟩
  have hne : l ≠ loc := by rintro rfl; exact hl a ha hu
  rw [hcell l hne, h7 a ha l hu]

theorem getD_set_ne {l : List Str} {i j : Nat} (h : j ≠ i) (v : Str) : (l.set i v).getD j [] = l.getD j [] := by
  simp [List.getD, List.getElem?_set_ne (Ne.symm h)]

section
variable {c : FPath} {T : FPath → Prop} {fs0 : FS} {s : Service} (hc : ∀ x ∈ c, '/' ∉ x) (hw : s.workDir ≠ [])
  (hastra : ∀ r, locOf c s.workDir ++ [c!".astra"] <+: r → T r)

/-- From the settings with the variables of `as`, the program stays within `T` and keeps the variables of `bs`. -/
def Outputs (c : FPath) (T : FPath → Prop) (fs0 : FS) (s : Service) (as bs : List Action) {α : Type} (m : Prg α) : Prop :=
  ∀ φ w, Inv c (cellsOf s as) (Within' T fs0) w → Inv c (cellsOf s bs) (Within' T fs0) (m φ w).1

theorem cellsOf_sub {s : Service} {as bs : List Action} (h : ∀ b ∈ bs, b ∈ as) {p : Proc} (hp : cellsOf s as p) : cellsOf s bs p :=
  ⟨hp.1, fun a ha => hp.2 a (h a ha)⟩

include hc hw in
theorem out_json (loc : Nat) (as : List Action) (hl : ∀ a ∈ as, ¬ Action.usesCell loc a)
    (hT : T (walk (locOf c s.workDir) (segments (withExtension [c!".json"] (s.cells.getD loc []))))) :
    Outputs c T fs0 s (.json loc :: as) as (jsonGenerate loc) := by
  rintro φ w ⟨h1, h2, h3⟩
  have hcell := h2.2 (.json loc) (by simp) loc rfl
  have hwd : w.st.svc.workDir = s.workDir := h2.1.1
  unfold jsonGenerate
  rw [Run.bind_ok (getSvc_ok φ w), Run.bind_ok (getCell_ok loc φ w)]
  unfold setCell
  rw [Run.bind_ok (modifySvc_ok _ φ w), hcell, hwd]
  refine ((wi_writeFile (S := cellsOf s as) hc (fun q hr => ?_)) φ _ ⟨?_, ?_, ?_⟩).1
  · rw [resolve_join c (Or.inl hw), jsonExt_spec] at hr
    cases hr
    exact hT
  · exact h1
  · exact cellsOf_set (cellsOf_sub (fun b hb => by simp [hb]) h2) hl ⟨hwd.symm, rfl, rfl, rfl, rfl, rfl⟩ (fun l hne => getD_set_ne hne _)
  · exact h3

include hc hw in
theorem out_openapi (L : Lib) (loc : Nat) (as : List Action) (hl : ∀ a ∈ as, ¬ Action.usesCell loc a)
    (hT : T (walk (locOf c s.workDir) (segments (withExtension [c!".json", c!".yaml", c!".yml"] (s.cells.getD loc []))))) :
    Outputs c T fs0 s (.openapi loc :: as) as (openApiGenerate L loc) := by
  rintro φ w ⟨h1, h2, h3⟩
  have hcell := h2.2 (.openapi loc) (by simp) loc rfl
  have hwd : w.st.svc.workDir = s.workDir := h2.1.1
  have h2' : cellsOf s as w.st := cellsOf_sub (fun b hb => by simp [hb]) h2
  unfold openApiGenerate
  rw [Run.bind_ok (show Run.get φ w = (w, .ok w.st) from rfl)]
  simp only
  cases hd : generateDoc L.choices w.st.names { config := w.st.svc.config, routes := w.st.svc.routes, components := w.st.svc.components, types := w.st.svc.maps.merged } with
  | err e => exact ⟨h1, h2', h3⟩
  | panic e => exact ⟨h1, h2', h3⟩
  | ok doc =>
    simp only
    have hm : ∀ f, Run.modify f φ w = ({ w with st := f w.st }, .ok ()) := fun _ => rfl
    rw [Run.bind_ok (hm _), Run.bind_ok (getCell_ok loc φ _)]
    unfold setCell
    rw [Run.bind_ok (modifySvc_ok _ φ _)]
    simp only [hcell, hwd]
    cases hr : L.render (isYaml (openApiExt (s.cells.getD loc []))) doc with
    | error e =>
      refine ⟨h1, ?_, h3⟩
      exact cellsOf_set h2' hl ⟨hwd.symm, rfl, rfl, rfl, rfl, rfl⟩ (fun l hne => getD_set_ne hne _)
    | ok text =>
      simp only
      rw [Run.bind_ok (modifySvc_ok _ φ _)]
      refine ((wi_writeFile (S := cellsOf s as) hc (fun q hr => ?_)) φ _ ⟨?_, ?_, ?_⟩).1
      · rw [resolve_join c (Or.inl hw), openApiExt_spec] at hr
        cases hr
        exact hT
      · exact h1
      · exact cellsOf_set h2' hl ⟨hwd.symm, rfl, rfl, rfl, rfl, rfl⟩ (fun l hne => by
          show ((w.st.svc.cells.set loc _).set loc _).getD l [] = _
          rw [getD_set_ne hne, getD_set_ne hne])
      · exact h3

end

section
variable {c : FPath} {T U : FPath → Prop} {fs0 : FS} {s : Service} (hc : ∀ x ∈ c, '/' ∉ x) (hw : s.workDir ≠ [])
  (hastra : ∀ r, locOf c s.workDir ++ [c!".astra"] <+: r → T r) {L : Lib} (hL : Tame L U) (hU : ∀ q, U q → T q)

include hL hU in
theorem wi_custom {S : Proc → Prop} (hS : Lasting s S) (id : Nat) : Keeps (Inv c S (Within' T fs0)) anyVal (L.custom id) := by
  rintro φ w ⟨h1, h2, h3⟩
  obtain ⟨k1, k2, k3, k4, k5, k6, k7, k8, k9, k10⟩ := hL id φ w
  refine ⟨⟨k3.trans h1, hS.svc _ _ h2 k4 k6 k5 k7 k8 k9 k10, h3.1.trans (fun q hq => k1 q (fun hu => hq (hU q hu))), k2 h3.2⟩, fun _ _ => trivial⟩

include hc hw hastra hL hU in
theorem out_action (a : Action) (as : List Action) (hl : ∀ loc, Action.usesCell loc a → ∀ b ∈ as, ¬ Action.usesCell loc b)
    (hT : ∀ q, OutputPlace (locOf c s.workDir) s a q → T q) : Outputs c T fs0 s (a :: as) as (a.run L) := by
  have keep : ∀ {m : Prg Unit}, Keeps (Inv c (cellsOf s (a :: as)) (Within' T fs0)) anyVal m → Outputs c T fs0 s (a :: as) as m := by
    intro m hm φ w hi
    obtain ⟨h1, h2, h3⟩ := (hm φ w hi).1
    exact ⟨h1, cellsOf_sub (fun b hb => by simp [hb]) h2, h3⟩
  have hS := lasting_cells s (a :: as)
  cases a with
  | ginCreate r => exact keep (wi_ginCreateRoutes hS L r)
  | ginParse => exact keep (Keeps.bind (wi_svc hS) (fun s' _ => wi_ginParseLoop hc hS hastra L _ _))
  | openapi loc => exact out_openapi hc hw L loc as (hl loc rfl) (hT _ rfl)
  | json loc => exact out_json hc hw loc as (hl loc rfl) (hT _ rfl)
  | azure dir => exact keep (wi_azureGenerate hc hS hastra hw dir hT)
  | custom id => exact keep (wi_custom hL hU hS id)
  | missing => exact keep Keeps.panic

include hc hw hastra hL hU in
theorem out_runAll (ev : Nat → Event) (as : List Action) (i : Nat)
    (hd : as.Pairwise (fun a b => ∀ loc, Action.usesCell loc a → ¬ Action.usesCell loc b))
    (hT : ∀ a ∈ as, ∀ q, OutputPlace (locOf c s.workDir) s a q → T q) : Outputs c T fs0 s as [] (runAll L ev i as) := by
  induction as generalizing i with
  | nil => intro φ w h; exact h
  | cons a as ih =>
    rintro φ w h
    have h := (wi_log (lasting_cells s (a :: as)) (ev i) φ w h).1
    unfold runAll
    rw [Run.bind_ok (logEvent_ok (ev i) φ w)]
    have h := out_action hc hw hastra hL hU a as (fun loc hu b hb => (List.pairwise_cons.mp hd).1 b hb loc hu) (hT a (by simp)) φ _ h
    rcases bind_split (φ := φ) (w := { w with st := { w.st with log := w.st.log ++ [ev i] } }) (a.run L) (runAll L ev (i + 1) as) with ⟨w1, h1, h2⟩ | ⟨_, h2⟩
    · rw [h2]
      have h1 : a.run L φ (logEvent (ev i) φ w).1 = (w1, .ok ()) := h1
      rw [h1] at h
      exact ih (i + 1) (List.pairwise_cons.mp hd).2 (fun b hb => hT b (by simp [hb])) φ w1 h
    · rw [h2]
      exact ⟨h.1, cellsOf_sub (by simp) h.2.1, h.2.2⟩

end

/-! ### The whole run -/

/-- The functions of the inputs are those of an input: they create or analyse routes, or are the user's own. -/
def InputFunction : Action → Prop
  | .ginCreate _ => True
  | .ginParse => True
  | .custom _ => True
  | .missing => True
  | _ => False

section
variable {c : FPath} {T U : FPath → Prop} {fs0 : FS} {s : Service} (hc : ∀ x ∈ c, '/' ∉ x) (hw : s.workDir ≠ [])
  (hastra : ∀ r, locOf c s.workDir ++ [c!".astra"] <+: r → T r) {L : Lib} (hL : Tame L U) (hU : ∀ q, U q → T q)
  (hcache : s.cacheEnabled = true → ∀ q, resolve c (cachePathOf s) = some q → ∀ r, q <+: r → T r)

include hc hastra hL hU in
theorem wi_inputs (ev : Nat → Event) (as : List Action) (i : Nat) (h : ∀ a ∈ as, InputFunction a) :
    Keeps (Inv c (fixedAll s) (Within' T fs0)) anyVal (runAll L ev i as) := by
  have hS := lasting_all s
  induction as generalizing i with
  | nil => exact Keeps.pure trivial
  | cons a as ih =>
    refine Keeps.seq (wi_log hS _) (fun _ => Keeps.seq (A := anyVal) ?_ (fun _ => ih (i + 1) (fun b hb => h b (by simp [hb]))))
    have ha := h a (by simp)
    cases a with
    | ginCreate r => exact wi_ginCreateRoutes hS L r
    | ginParse => exact Keeps.bind (wi_svc hS) (fun s' _ => wi_ginParseLoop hc hS hastra L _ _)
    | custom id => exact wi_custom hL hU hS id
    | missing => exact Keeps.panic
    | openapi loc => exact ha.elim
    | json loc => exact ha.elim
    | azure dir => exact ha.elim

include hc hastra hL hU hcache in
theorem wi_stepCreate (h : ∀ i ∈ s.inputs, InputFunction i.createRoutes) : Keeps (Inv c (fixedAll s) (Within' T fs0)) anyVal (stepCreate L) := by
  have hS := lasting_all s
  refine Keeps.seq (wi_log hS _) (fun _ => Keeps.bind (wi_svc hS) (fun s' hs => Keeps.seq (A := anyVal) ?_ (fun _ => wi_cacheIfEnabled hc hS hcache L)))
  refine wi_inputs hc hastra hL hU _ _ _ (fun a ha => ?_)
  rw [hs.2.2.2.2.1] at ha
  obtain ⟨i, hi, rfl⟩ := List.mem_map.mp ha
  exact h i hi

include hc hastra hL hU hcache in
theorem wi_stepParse (h : ∀ i ∈ s.inputs, InputFunction i.parseRoutes) : Keeps (Inv c (fixedAll s) (Within' T fs0)) anyVal (stepParse L) := by
  have hS := lasting_all s
  refine Keeps.seq (wi_log hS _) (fun _ => Keeps.bind (wi_svc hS) (fun s' hs => Keeps.seq (A := anyVal) ?_ (fun _ => wi_cacheIfEnabled hc hS hcache L)))
  refine wi_inputs hc hastra hL hU _ _ _ (fun a ha => ?_)
  rw [hs.2.2.2.2.1] at ha
  obtain ⟨i, hi, rfl⟩ := List.mem_map.mp ha
  exact h i hi

include hc hastra hcache in
theorem wi_stepClean : Keeps (Inv c (fixedAll s) (Within' T fs0)) anyVal (stepClean L) := by
  have hS := lasting_all s
  exact Keeps.seq (wi_log hS _) (fun _ => Keeps.seq (wi_getMainPackageName hc hS hastra) (fun m => Keeps.seq
    (wi_modifySvc hS (fun s => ⟨rfl, rfl, rfl, rfl, rfl, rfl, rfl⟩)) (fun _ => wi_cacheIfEnabled hc hS hcache L)))

include hc hw hastra hL hU hcache in
theorem wi_stepGenerate (hd : OwnCells s.outputs) (hT : ∀ o ∈ s.outputs, ∀ q, OutputPlace (locOf c s.workDir) s o.generate q → T q)
    (φ : Faults) (w : World Proc) (h : Inv c (fixedAll s) (Within' T fs0) w) :
    Inv c (fixedSvc s) (Within' T fs0) (stepGenerate L φ w).1 := by
  obtain ⟨h1, h2, h3⟩ := h
  unfold stepGenerate
  rw [Run.bind_ok (logEvent_ok .generate φ w), Run.bind_ok (getSvc_ok φ _)]
  have ho : w.st.svc.outputs = s.outputs := h2.1.2.2.2.2.2
  simp only [ho]
  have k := out_runAll (c := c) (T := T) (fs0 := fs0) hc hw hastra hL hU .output (s.outputs.map (·.generate)) 0
    (by rw [List.pairwise_map]; exact hd) (fun a ha => by obtain ⟨o, ho, rfl⟩ := List.mem_map.mp ha; exact hT o ho)
    φ { w with st := { w.st with log := w.st.log ++ [.generate] } } ⟨h1, ⟨h2.1, fun a _ l _ => by rw [← h2.2]⟩, h3⟩
  rcases bind_split (φ := φ) (w := { w with st := { w.st with log := w.st.log ++ [.generate] } }) (runAll L .output 0 (s.outputs.map (·.generate)))
    (cacheIfEnabled L) with ⟨w1, e1, e2⟩ | ⟨_, e2⟩
  · rw [e2]
    rw [e1] at k
    exact (wi_cacheIfEnabled hc (lasting_svc s) hcache L φ w1 ⟨k.1, k.2.1.1, k.2.2⟩).1
  · rw [e2]
    exact ⟨k.1, k.2.1.1, k.2.2⟩

include hastra in
theorem wi_teardown : Keeps (Inv c (fixedSvc s) (Within' T fs0)) anyVal teardown := by
  have hS := lasting_svc s
  refine Keeps.seq (wi_log hS _) (fun _ => Keeps.bind (wi_svc hS) (fun s' hs => Keeps.seq (Keeps.try' (A := anyVal) ?_) (fun _ => Keeps.pure trivial)))
  split
  · unfold cleanupAstraDir
    refine Keeps.bind (wi_svc hS) (fun s' hs => wi_removeAll (fun q hr => ?_))
    rw [astraDirPath_fixed hs.1, resolve_astra] at hr
    cases hr
    exact hastra
  · unfold cleanupTempMainPackage
    refine Keeps.bind (wi_svc hS) (fun s' hs => Keeps.seq (Keeps.try' wi_stat) (fun r => ?_))
    split
    · refine wi_removeAll (fun q hr r hp => ?_)
      rw [astraDirPath_fixed hs.1, resolve_in_astra c s plain_main] at hr
      cases hr
      exact hastra r (List.IsPrefix.trans ⟨[mainReplacement], by simp⟩ hp)
    · exact Keeps.pure trivial

include hc hw hastra hL hU hcache in
theorem wi_complete (hin : ∀ i ∈ s.inputs, InputFunction i.parseRoutes) (hd : OwnCells s.outputs)
    (hT : ∀ o ∈ s.outputs, ∀ q, OutputPlace (locOf c s.workDir) s o.generate q → T q)
    (φ : Faults) (w : World Proc) (h : Inv c (fixedAll s) (Within' T fs0) w) : Inv c (fixedSvc s) (Within' T fs0) (completeParse L φ w).1 := by
  have weak : ∀ {w : World Proc}, Inv c (fixedAll s) (Within' T fs0) w → Inv c (fixedSvc s) (Within' T fs0) w := fun h => ⟨h.1, h.2.1.1, h.2.2⟩
  unfold completeParse
  rcases bind_split (φ := φ) (w := w) checkIO (stepParse L >>= fun _ => stepClean L >>= fun _ => stepGenerate L >>= fun _ => teardown) with
    ⟨w1, e1, e2⟩ | ⟨_, e2⟩
  · rw [e2]
    have := checkIO_world φ w
    rw [e1] at this
    rw [show w1 = w from this]
    have k := (wi_stepParse hc hastra hL hU hcache hin φ w h).1
    rcases bind_split (φ := φ) (w := w) (stepParse L) (stepClean L >>= fun _ => stepGenerate L >>= fun _ => teardown) with ⟨w1, e1, e2⟩ | ⟨_, e2⟩
    · rw [e2]
      rw [e1] at k
      have k := (wi_stepClean (L := L) hc hastra hcache φ w1 k).1
      rcases bind_split (φ := φ) (w := w1) (stepClean L) (stepGenerate L >>= fun _ => teardown) with ⟨w2, e1, e2⟩ | ⟨_, e2⟩
      · rw [e2]
        rw [e1] at k
        have k := wi_stepGenerate hc hw hastra hL hU hcache hd hT φ w2 k
        rcases bind_split (φ := φ) (w := w2) (stepGenerate L) teardown with ⟨w3, e1, e2⟩ | ⟨_, e2⟩
        · rw [e2]
          rw [e1] at k
          exact (wi_teardown hastra φ w3 k).1
        · rw [e2]; exact k
      · rw [e2]; exact weak k
    · rw [e2]; exact weak k
  · rw [e2, checkIO_world]; exact weak h

end

/-- The service after setup. -/
def afterSetup (getwd : Str) (s : Service) : Service := { s with workDir := workDirAfter getwd s }

theorem wi_setup {c : FPath} {T : FPath → Prop} {fs0 : FS} {s : Service} (hc : ∀ x ∈ c, '/' ∉ x) (L : Lib) (getwd : Str)
    (h0 : ∀ r, setupPlaces fs0 (locOf c s.workDir ++ [c!".astra"]) r → T r)
    (hcache : s.cacheEnabled = true → ∀ q, resolve c (cachePathOf (afterSetup getwd s)) = some q → ∀ r, q <+: r → T r)
    (φ : Faults) (w : World Proc) (h : Inv c (isSvc s) (Within' T fs0) w) :
    (w.cwd = c ∧ Within' T fs0 (setup L getwd φ w).1.fs) ∧
    ∀ u, (setup L getwd φ w).2 = .ok u → Inv c (isSvc (afterSetup getwd s)) (Within' T fs0) (setup L getwd φ w).1 := by
  obtain ⟨h1, h2, h3⟩ := h
  have hg : ∀ q, resolve c (pathJoin [astraDirPath s, c!".gitignore"]) = some q → T q := by
    intro q hr
    rw [resolve_in_astra c s plain_gitignore] at hr
    cases hr
    exact h0 _ (Or.inr (by simp))
  have k0 : Keeps (Inv c (isSvc s) (Within' T fs0)) anyVal setupAstraDir := by
    unfold setupAstraDir setupGitIgnore
    refine Keeps.bind keeps_isSvc (fun s' hs => ?_)
    subst hs
    refine Keeps.seq (wi_mkdirAll hc (fun q hr r h1 h2 => ?_)) (fun _ => Keeps.bind keeps_isSvc (fun s' hs => ?_))
    · rw [resolve_astra c s'] at hr
      cases hr
      exact h0 r (Or.inl ⟨h1, h2⟩)
    · subst hs
      refine Keeps.seq (Keeps.try' wi_stat) (fun r => ?_)
      cases r with
      | ok n => exact Keeps.pure trivial
      | error e => exact Keeps.seq (wi_create hc hg) (fun _ => wi_write hc hg)
  have k1 : Keeps (Inv c (isSvc (afterSetup getwd s)) (Within' T fs0)) anyVal (cacheIfEnabled L) := by
    have hl : Lasting (afterSetup getwd s) (fun p => fixedSvc (afterSetup getwd s) p) := lasting_svc _
    intro φ w hi
    have hi' : Inv c (fixedSvc (afterSetup getwd s)) (Within' T fs0) w := ⟨hi.1, by
      have := hi.2.1; unfold isSvc at this; unfold fixedSvc; rw [this]; exact ⟨rfl, rfl, rfl, rfl, rfl, rfl⟩, hi.2.2⟩
    have a := (wi_cacheIfEnabled hc hl hcache L φ w hi').1
    have b := (foot_cacheIfEnabled (c := c) (s := afterSetup getwd s) (T := fun _ => True) (fs0 := w.fs) L (fun _ _ _ _ _ => trivial) φ w
      ⟨hi.1, hi.2.1, .refl _ _⟩).1
    exact ⟨⟨a.1, b.2.1, a.2.2⟩, fun _ _ => trivial⟩
  have e : setup L getwd φ w = (setupAstraDir >>= fun _ => (modifySvc (fun s => if s.workDir = [] then { s with workDir := getwd } else s) >>= fun _ =>
      cacheIfEnabled L)) φ { w with st := { w.st with log := w.st.log ++ [.setup] } } := Run.bind_ok (logEvent_ok _ φ w)
  rw [e]
  have k := (k0 φ { w with st := { w.st with log := w.st.log ++ [.setup] } } ⟨h1, h2, h3⟩).1
  rcases bind_split (φ := φ) (w := { w with st := { w.st with log := w.st.log ++ [.setup] } }) setupAstraDir
    (modifySvc (fun s => if s.workDir = [] then { s with workDir := getwd } else s) >>= fun _ => cacheIfEnabled L) with ⟨w1, e1, e2⟩ | ⟨hne, e2⟩
  · rw [e2, Run.bind_ok (modifySvc_ok _ φ w1)]
    rw [e1] at k
    have hs : w1.st.svc = s := k.2.1
    have es : (if w1.st.svc.workDir = [] then { w1.st.svc with workDir := getwd } else w1.st.svc) = afterSetup getwd s := by
      rw [hs]; unfold afterSetup workDirAfter; split <;> rfl
    have kk := (k1 φ { w1 with st := { w1.st with svc := if w1.st.svc.workDir = [] then { w1.st.svc with workDir := getwd } else w1.st.svc } } ⟨k.1, es, k.2.2⟩).1
    exact ⟨⟨h1, kk.2.2⟩, fun _ _ => kk⟩
  · rw [e2]
    exact ⟨⟨h1, k.2.2⟩, fun u hu => absurd hu hne⟩

/-- C64: whatever fails, and wherever the process dies, a whole run changes nothing but the missing directories down to .astra, what is in
.astra, the custom cache path if caching is enabled, the places of the outputs, and what the user's own functions change. The working
directory `d` is the one that was set, or else the current one. -/
theorem parse_changes_only (L : Lib) (U : FPath → Prop) (hL : Tame L U) (getwd : Str) (φ : Faults) (w : World Proc) (d : FPath)
    (hd : DirAt w.cwd w.st.svc.workDir d) (hg : resolve w.cwd getwd = some w.cwd) (hnames : ProperNames w.fs) (hc : ∀ x ∈ w.cwd, '/' ∉ x)
    (hin : ∀ i ∈ w.st.svc.inputs, InputFunction i.createRoutes ∧ InputFunction i.parseRoutes) (hout : OwnCells w.st.svc.outputs) :
    ChangesOnly (RunPlaces w.cwd d w.fs w.st.svc U) w.fs (parseAll L getwd φ w).1.fs := by
  have hd := dirAt_iff.mp hd
  let s := w.st.svc
  let s' := afterSetup getwd s
  have hgne : getwd ≠ [] := by rintro rfl; simp [resolve] at hg
  have hwd : s'.workDir ≠ [] ∧ locOf w.cwd s'.workDir = d := by
    show workDirAfter getwd s ≠ [] ∧ locOf w.cwd (workDirAfter getwd s) = d
    unfold workDirAfter
    split
    · rename_i h0
      refine ⟨hgne, ?_⟩
      rw [resolve_eq hgne] at hg
      rw [Option.some.inj hg, ← hd, show w.st.svc.workDir = [] from h0]
      simp [locOf, baseOf, segments, split, walk, walkStep, isAbs]
    · rename_i h0; exact ⟨h0, hd⟩
  generalize hT : RunPlaces w.cwd d w.fs w.st.svc U = T
  have hTU : ∀ q, U q → T q := fun q hq => by rw [← hT]; exact Or.inr (Or.inr (Or.inr (Or.inr hq)))
  have hTa : ∀ r, d ++ [c!".astra"] <+: r → T r := fun r hr => by rw [← hT]; exact Or.inr (Or.inl hr)
  have hT0 : ∀ r, setupPlaces w.fs (locOf w.cwd s.workDir ++ [c!".astra"]) r → T r := by
    intro r hr
    rw [show locOf w.cwd s.workDir = d from hd] at hr
    rcases hr with hr | rfl
    · rw [← hT]; exact Or.inl hr
    · exact hTa _ (List.prefix_append _ _)
  have hTo : ∀ o ∈ s'.outputs, ∀ q, OutputPlace (locOf w.cwd s'.workDir) s' o.generate q → T q := by
    intro o ho q hq
    rw [hwd.2] at hq
    rw [← hT]
    refine Or.inr (Or.inr (Or.inr (Or.inl ⟨o, ho, ?_⟩)))
    cases hgen : o.generate <;> rw [hgen] at hq <;> exact hq
  have hTc : s'.cacheEnabled = true → ∀ q, resolve w.cwd (cachePathOf s') = some q → ∀ r, q <+: r → T r := by
    intro he q hr r hp
    unfold cachePathOf at hr
    split at hr
    · rw [← hT]; exact Or.inr (Or.inr (Or.inl ⟨he, q, hr, hp⟩))
    · rw [resolve_in_astra w.cwd s' plain_cacheFile, hwd.2] at hr
      cases hr
      exact hTa r (List.IsPrefix.trans ⟨[cacheFileName], by simp⟩ hp)
  have hTa' : ∀ r, locOf w.cwd s'.workDir ++ [c!".astra"] <+: r → T r := by rw [hwd.2]; exact hTa
  have h0 : Within' T w.fs w.fs := ⟨.refl _ _, hnames⟩
  show SameOutside T w.fs _
  have ks := wi_setup (c := w.cwd) (T := T) (fs0 := w.fs) (s := s) hc L getwd hT0 hTc φ w ⟨rfl, rfl, h0⟩
  unfold parseAll setupParse
  rw [bind_assoc']
  rcases bind_split (φ := φ) (w := w) checkIO ((setup L getwd >>= fun _ => stepCreate L) >>= fun _ => completeParse L) with ⟨w1, e1, e2⟩ | ⟨_, e2⟩
  · rw [e2, bind_assoc']
    have := checkIO_world φ w
    rw [e1] at this
    rw [show w1 = w from this]
    rcases bind_split (φ := φ) (w := w) (setup L getwd) (stepCreate L >>= fun _ => completeParse L) with ⟨w1, e1, e2⟩ | ⟨_, e2⟩
    · rw [e2]
      rw [e1] at ks
      have k1 := ks.2 () rfl
      have k1 : Inv w.cwd (fixedAll s') (Within' T w.fs) w1 := ⟨k1.1, by
        have := k1.2.1; unfold isSvc at this; unfold fixedAll fixedSvc; rw [this]; exact ⟨⟨rfl, rfl, rfl, rfl, rfl, rfl⟩, rfl⟩, k1.2.2⟩
      have k2 := (wi_stepCreate hc hTa' hL hTU hTc (fun i hi => (hin i hi).1) φ w1 k1).1
      rcases bind_split (φ := φ) (w := w1) (stepCreate L) (completeParse L) with ⟨w2, e1, e2⟩ | ⟨_, e2⟩
      · rw [e2]
        rw [e1] at k2
        exact (wi_complete hc hwd.1 hTa' hL hTU hTc (fun i hi => (hin i hi).2) hout hTo φ w2 k2).2.2.1
      · rw [e2]; exact k2.2.2.1
    · rw [e2]; exact ks.1.2.1
  · rw [e2, checkIO_world]; exact h0.1

/-- Whatever options a service is made with, its inputs have the functions of inputs and its outputs have variables of their own. -/
theorem options_shape (opts : List Opt) :
    (∀ i ∈ (newService opts).inputs, InputFunction i.createRoutes ∧ InputFunction i.parseRoutes) ∧ OwnCells (newService opts).outputs := by
  have key : ∀ (opts : List Opt) (s : Service),
      (∀ i ∈ s.inputs, InputFunction i.createRoutes ∧ InputFunction i.parseRoutes) →
      (∀ o ∈ s.outputs, ∀ loc, Action.usesCell loc o.generate → loc < s.cells.length) → OwnCells s.outputs →
      (∀ i ∈ (opts.foldl (fun s o => o.apply s) s).inputs, InputFunction i.createRoutes ∧ InputFunction i.parseRoutes) ∧
        OwnCells (opts.foldl (fun s o => o.apply s) s).outputs := by
    intro opts
    induction opts with
    | nil => exact fun s h1 _ h3 => ⟨h1, h3⟩
    | cons o opts ih =>
      intro s h1 h2 h3
      refine ih (o.apply s) ?_ ?_ ?_
      · cases o with
        | ginInput r =>
          intro i hi
          rcases List.mem_append.mp hi with hi | hi
          · exact h1 i hi
          · rw [List.mem_singleton] at hi; subst hi; exact ⟨trivial, trivial⟩
        | _ => exact h1
      · have app : ∀ (x : Output) (n : Nat), (∀ loc, Action.usesCell loc x.generate → loc < n) → s.cells.length ≤ n →
            ∀ o ∈ s.outputs ++ [x], ∀ loc, Action.usesCell loc o.generate → loc < n := by
          intro x n hx hn o ho loc hu
          rcases List.mem_append.mp ho with ho | ho
          · exact Nat.lt_of_lt_of_le (h2 o ho loc hu) hn
          · rw [List.mem_singleton] at ho; subst ho; exact hx loc hu
        cases o with
        | azureOutput d => exact app _ _ (fun loc hu => hu.elim) (Nat.le_refl _)
        | openApiOutput f =>
          show ∀ o ∈ _, ∀ loc, _ → loc < (s.cells ++ [f]).length
          refine app _ _ (fun loc hu => ?_) (by simp)
          have hu : s.cells.length = loc := hu
          simp [← hu]
        | jsonOutput f =>
          show ∀ o ∈ _, ∀ loc, _ → loc < (s.cells ++ [f]).length
          refine app _ _ (fun loc hu => ?_) (by simp)
          have hu : s.cells.length = loc := hu
          simp [← hu]
        | _ => exact h2
      · have app : ∀ x : Output, (∀ loc, Action.usesCell loc x.generate → s.cells.length ≤ loc) → OwnCells (s.outputs ++ [x]) := by
          intro x hx
          refine List.pairwise_append.mpr ⟨h3, List.pairwise_singleton _ _, fun a ha b hb loc hu hu' => ?_⟩
          rw [List.mem_singleton] at hb
          subst hb
          have := h2 a ha loc hu
          have := hx loc hu'
          omega
        cases o with
        | azureOutput d => exact app _ (fun loc hu => hu.elim)
        | openApiOutput f => exact app _ (fun loc hu => Nat.le_of_eq hu)
        | jsonOutput f => exact app _ (fun loc hu => Nat.le_of_eq hu)
        | _ => exact h3
  exact key opts {} (fun i hi => (nomatch hi)) (fun o ho => (nomatch ho)) .nil

/-- C64, for a new service: a run of a service made with any options stays within these places. -/
theorem new_service_changes_only (L : Lib) (U : FPath → Prop) (hL : Tame L U) (opts : List Opt) (getwd : Str) (φ : Faults) (w : World Proc)
    (hw : w.st.svc = newService opts) (d : FPath) (hd : DirAt w.cwd w.st.svc.workDir d) (hg : resolve w.cwd getwd = some w.cwd)
    (hnames : ProperNames w.fs) (hc : ∀ x ∈ w.cwd, '/' ∉ x) :
    ChangesOnly (RunPlaces w.cwd d w.fs (newService opts) U) w.fs (parseAll L getwd φ w).1.fs := by
  have := options_shape opts
  rw [← hw] at this ⊢
  exact parse_changes_only L U hL getwd φ w d hd hg hnames hc this.1 this.2

/-- Non-vacuity: the example process with two outputs meets the hypotheses. -/
example : Tame exampleLib (fun _ => False) ∧ DirAt (stepsWorld [c!"a", c!"b"]).cwd (stepsWorld [c!"a", c!"b"]).st.svc.workDir [c!"w"] ∧
    resolve (stepsWorld [c!"a", c!"b"]).cwd c!"/w" = some (stepsWorld [c!"a", c!"b"]).cwd ∧ ProperNames (stepsWorld [c!"a", c!"b"]).fs ∧
    (∀ x ∈ (stepsWorld [c!"a", c!"b"]).cwd, '/' ∉ x) := by
  refine ⟨fun _ _ _ => ⟨fun _ _ => rfl, id, rfl, rfl, rfl, rfl, rfl, rfl, rfl, rfl⟩, Or.inr (by decide), by decide, ?_, by decide⟩
  · intro q hq x hx
    unfold FS.look at hq
    split at hq
    · rename_i h; subst h; cases hx
    · obtain ⟨e, he, rfl⟩ := FS.get_mem_iff.mp hq
      have : ∀ e ∈ (stepsWorld [c!"a", c!"b"]).fs, ∀ x ∈ e.1, '/' ∉ x := by decide
      exact this e he x hx

/-- The run of the example changes the tree: the output is there afterwards. -/
example : (parseAll exampleLib c!"/w" noFaults (stepsWorld [c!"a"])).1.fs.look [c!"w", c!"a.json"] ≠ none ∧
    (stepsWorld [c!"a"]).fs.look [c!"w", c!"a.json"] = none := by decide +kernel

end Astra.Props
