/-
C77, C78: what a failed or interrupted run leaves behind.
-/
import Verif.Spec.Recovery
import Verif.Props.EndToEnd
import Verif.Props.MainPackage

namespace Astra.Props
open Astra.Spec Astra.Run

/-! ### Changes that keep a project orderly -/

theorem astra_not_source {n : Str} (h : GoFile n ∨ ModFile n) : n ≠ c!".astra" := by
  rintro rfl
  rcases h with h | h <;> exact absurd (hasSuffix_iff.mpr h) (by decide)

theorem not_astra_prefix {d : FPath} {n : Str} (h : n ≠ c!".astra") : ¬ d ++ [c!".astra"] <+: d ++ [n] := by
  intro hp
  rw [List.prefix_append_right_inj] at hp
  simp at hp
  exact h hp.symm

theorem not_astra_work (d : FPath) : ¬ d ++ [c!".astra"] <+: d := by
  intro h
  have := h.length_le
  simp at this
  omega

/-- Whatever happens in .astra. -/
theorem Orderly.inside {fs fs' : FS} {d : FPath} {Q : Places} (h : Orderly fs d Q) (hl : Spaced d Q) (hs : SameOutside (d ++ [c!".astra"] <+: ·) fs fs')
    (ha : fs'.look (d ++ [c!".astra"]) = none ∨ fs'.look (d ++ [c!".astra"]) = some .dir) (ht : Tree fs') (hn : ProperNames fs') : Orderly fs' d Q where
  tree := ht
  names := hn
  work := by rw [hs d (not_astra_work d)]; exact h.work
  astra := ha
  sources := fun n hn => by rw [hs _ (not_astra_prefix (astra_not_source hn))]; exact h.sources n hn
  outputs := fun q hq => by
    obtain ⟨h1, h2, h3⟩ := h.outputs q hq
    have h4 : ¬ d ++ [c!".astra"] <+: q.dropLast := fun hp => h3 (hp.trans (List.dropLast_prefix q))
    exact ⟨by rw [hs _ h4]; exact h1, by rw [hs _ h3]; exact h2, h3⟩
  parents := fun D hD => by
    rw [hs _ (fun hp => (hl.astra D hD).1 (hp.trans (List.dropLast_prefix D)))]
    exact h.parents D hD

/-- An output is written. -/
theorem Orderly.output {fs : FS} {d : FPath} {Q : Places} (h : Orderly fs d Q) {q : FPath} (hq : Q q)
    (hns : ∀ x ∈ q, '/' ∉ x) (t : Str) : Orderly (fs.put q (.file t)) d Q := by
  obtain ⟨h1, h2, h3⟩ := h.outputs q hq
  have hne : q ≠ [] := by rintro rfl; exact h2 (FS.look_nil fs)
  have other : ∀ r, fs.look r = some .dir → (fs.put q (.file t)).look r = some .dir := by
    intro r hr
    rw [FS.look_put _ hne, if_neg (by rintro rfl; exact h2 hr)]
    exact hr
  have nodir : ∀ r, fs.look r ≠ some .dir → (fs.put q (.file t)).look r ≠ some .dir := by
    intro r hr
    rw [FS.look_put _ hne]
    split
    · simp
    · exact hr
  exact {
    tree := h.tree.put hne h1 (Or.inr h2)
    names := ProperNames.put h.names hne _ hns
    work := other d h.work
    astra := by
      rw [FS.look_put _ hne, if_neg (by rintro rfl; exact h3 (List.prefix_refl _))]
      exact h.astra
    sources := fun n hn => nodir _ (h.sources n hn)
    outputs := fun r hr => ⟨other _ (h.outputs r hr).1, nodir _ (h.outputs r hr).2.1, (h.outputs r hr).2.2⟩
    parents := fun D hD => other _ (h.parents D hD) }

/-- The place of an output is not that of a module file, and nothing is in the way of the directories. -/
structure NotModules (d : FPath) (Q : Places) : Prop where
  files : ∀ q, Q q → ∀ n, ModFile n → q ≠ d ++ [n]
  spaced : Spaced d Q

/-- An orderly project with the module files of `fs0`. -/
def Neat (d : FPath) (Q : Places) (fs0 fs : FS) : Prop := Orderly fs d Q ∧ SameModules d fs0 fs

theorem Neat.inside {fs0 fs fs' : FS} {d : FPath} {Q : Places} (h : Neat d Q fs0 fs) (hm : NotModules d Q) (hs : SameOutside (d ++ [c!".astra"] <+: ·) fs fs')
    (ha : fs'.look (d ++ [c!".astra"]) = none ∨ fs'.look (d ++ [c!".astra"]) = some .dir) (ht : Tree fs') (hn : ProperNames fs') : Neat d Q fs0 fs' :=
  ⟨Orderly.inside h.1 hm.spaced hs ha ht hn, fun n hn => (hs _ (not_astra_prefix (astra_not_source (Or.inr hn)))).trans (h.2 n hn)⟩

theorem Neat.output {fs0 fs : FS} {d : FPath} {Q : Places} (h : Neat d Q fs0 fs) (hm : NotModules d Q) {q : FPath} (hq : Q q)
    (hns : ∀ x ∈ q, '/' ∉ x) (t : Str) : Neat d Q fs0 (fs.put q (.file t)) := by
  refine ⟨Orderly.output h.1 hq hns t, fun n hn => ?_⟩
  have hne : q ≠ [] := by rintro rfl; exact (h.1.outputs _ hq).2.1 (FS.look_nil fs)
  rw [FS.look_put _ hne, if_neg (fun e => hm.files q hq n hn e.symm)]
  exact h.2 n hn

/-- A place in .astra, or that of an output. -/
def InAstra (d q : FPath) : Prop := d ++ [c!".astra"] <+: q ∧ q ≠ d ++ [c!".astra"]

theorem Neat.file {fs0 fs : FS} {d : FPath} {Q : Places} (h : Neat d Q fs0 fs) (hm : NotModules d Q) {q : FPath} (hq : InAstra d q ∨ Q q)
    (hne : q ≠ []) (hp : fs.look q.dropLast = some .dir) (hd : fs.look q ≠ some .dir) (hns : ∀ x ∈ q, '/' ∉ x) (t : Str) :
    Neat d Q fs0 (fs.put q (.file t)) := by
  rcases hq with hq | hq
  · refine h.inside hm (fun r hr => ?_) ?_ (h.1.tree.put hne hp (Or.inr hd)) (ProperNames.put h.1.names hne _ hns)
    · rw [FS.look_put _ hne, if_neg (by rintro rfl; exact hr hq.1)]
    · rw [FS.look_put _ hne, if_neg (Ne.symm hq.2)]
      exact h.1.astra
  · exact h.output hm hq hns t

/-- A file of Astra is removed. -/
theorem Neat.gone {fs0 fs fs' : FS} {d : FPath} {Q : Places} (h : Neat d Q fs0 fs) (hm : NotModules d Q) {q : FPath} (hq : Q q)
    (hs : SameOutside (q <+: ·) fs fs') (hg : fs'.look q = fs.look q ∨ fs'.look q = none) (ht : Tree fs') (hn : ProperNames fs') : Neat d Q fs0 fs' := by
  obtain ⟨h1, h2, h3⟩ := h.1.outputs q hq
  have other : ∀ r, r ≠ q → fs'.look r = fs.look r := by
    intro r hr
    by_cases hp : q <+: r
    · have h2' : fs'.look q ≠ some .dir := by
        rcases hg with e | e <;> rw [e]
        · exact h2
        · simp
      rw [h.1.tree.none_below h2 hp (Ne.symm hr), ht.none_below h2' hp (Ne.symm hr)]
    · exact hs r hp
  have nodir : ∀ r, fs.look r ≠ some .dir → fs'.look r ≠ some .dir := by
    intro r hr
    by_cases e : r = q
    · subst e
      rcases hg with e | e <;> rw [e]
      · exact hr
      · simp
    · rw [other r e]; exact hr
  have dir : ∀ r, fs.look r = some .dir → fs'.look r = some .dir := by
    intro r hr
    rw [other r (by rintro rfl; exact h2 hr)]
    exact hr
  refine ⟨⟨ht, hn, dir d h.1.work, ?_, fun n hn => nodir _ (h.1.sources n hn), fun r hr => ?_, fun D hD => dir _ (h.1.parents D hD)⟩, fun n hn => ?_⟩
  · rw [other _ (by rintro rfl; exact h3 (List.prefix_refl _))]
    exact h.1.astra
  · exact ⟨dir _ (h.1.outputs r hr).1, nodir _ (h.1.outputs r hr).2.1, (h.1.outputs r hr).2.2⟩
  · rw [other _ (fun e => hm.files q hq n hn e.symm)]
    exact h.2 n hn

theorem not_in_dropLast {D : FPath} (h : D ≠ []) : ¬ D <+: D.dropLast := by
  intro hp
  have := hp.length_le
  rw [List.length_dropLast] at this
  have := List.length_pos_iff.mpr h
  omega

theorem spaced_ne_nil {d : FPath} {Q : Places} (h : Spaced d Q) {D : FPath} (hD : Q.dir D) : D ≠ [] := by
  rintro rfl
  exact (h.astra _ hD).2 List.nil_prefix

/-- A directory of Astra is replaced. -/
theorem Neat.replaced {fs0 fs fs' : FS} {d : FPath} {Q : Places} (h : Neat d Q fs0 fs) (hm : NotModules d Q) {D : FPath} (hD : Q.dir D)
    (hs : SameOutside (fun q => d ++ [c!".astra", c!"azure"] <+: q ∨ D <+: q) fs fs') (ht : Tree fs') (hn : ProperNames fs') :
    Neat d Q fs0 fs' ∧ fs'.look (d ++ [c!".astra"]) = fs.look (d ++ [c!".astra"]) := by
  have hl := hm.spaced
  have hap := hl.astra D hD
  have hDd : ∀ r, r <+: d → ¬ D <+: r := fun r hr h => hap.2 (h.trans (hr.trans (List.prefix_append _ _)))
  have hTa : ∀ q, ¬ d ++ [c!".astra"] <+: q → ¬ d ++ [c!".astra", c!"azure"] <+: q := fun q h1 h2 => h1 (List.IsPrefix.trans ⟨[c!"azure"], by simp⟩ h2)
  have ea : fs'.look (d ++ [c!".astra"]) = fs.look (d ++ [c!".astra"]) := by
    refine hs _ (fun h => h.elim (fun h => ?_) hap.2)
    have := h.length_le
    simp at this
  have hsrc : ∀ n, GoFile n ∨ ModFile n → fs'.look (d ++ [n]) = fs.look (d ++ [n]) := by
    intro n hn
    refine hs _ (fun h => h.elim (hTa _ (not_astra_prefix (astra_not_source hn))) (fun h => ?_))
    rcases List.prefix_concat_iff.mp h with e | h
    · exact hl.sources D hD n hn e
    · exact hDd d (List.prefix_refl _) h
  refine ⟨⟨⟨ht, hn, ?_, ?_, fun n hn => ?_, fun q hq => ?_, fun D' hD' => ?_⟩, fun n hn => ?_⟩, ea⟩
  · rw [hs d (fun h => h.elim (hTa _ (not_astra_work d)) (hDd d (List.prefix_refl _)))]
    exact h.1.work
  · rw [ea]; exact h.1.astra
  · rw [hsrc n hn]; exact h.1.sources n hn
  · obtain ⟨h1, h2, h3⟩ := h.1.outputs q hq
    have h4 := hl.files D hD q hq
    refine ⟨?_, ?_, h3⟩
    · rw [hs _ (fun h => h.elim (hTa _ (fun hp => h3 (hp.trans (List.dropLast_prefix q)))) (fun hp => h4 (hp.trans (List.dropLast_prefix q))))]
      exact h1
    · rw [hs _ (fun h => h.elim (hTa _ h3) h4)]
      exact h2
  · rw [hs _ (fun hh => hh.elim (hTa _ (fun hp => (hl.astra D' hD').1 (hp.trans (List.dropLast_prefix D')))) (fun hp => ?_))]
    · exact h.1.parents D' hD'
    · rcases hl.dirs D D' hD hD' with e | e
      · subst e; exact not_in_dropLast (spaced_ne_nil hl hD) hp
      · exact e.1 (hp.trans (List.dropLast_prefix D'))
  · rw [hsrc n (Or.inr hn)]; exact h.2 n hn

section
variable {c d : FPath} {Q : Places} {fs0 : FS} {S : Proc → Prop} (hc : ∀ x ∈ c, '/' ∉ x) (hm : NotModules d Q) {p : Str}

include hc hm in
theorem nt_mkdir (h : ∀ q, resolve c p = some q → InAstra d q) : Keeps (Inv c S (Neat d Q fs0)) anyVal (osMkdir p : Prg Unit) :=
  keeps_mkdir (fun fs q hp hr h1 h2 h3 => hp.inside hm (fun r hr' => by
      rw [FS.look_put _ h1, if_neg (by rintro rfl; exact hr' (h r hr).1)])
    (by rw [FS.look_put _ h1, if_neg (Ne.symm (h q hr).2)]; exact hp.1.astra)
    (hp.1.tree.put h1 h3 (Or.inl rfl)) (ProperNames.put hp.1.names h1 _ (resolve_no_slash hc hr)))

include hc hm in
theorem nt_create (h : ∀ q, resolve c p = some q → InAstra d q ∨ Q q) : Keeps (Inv c S (Neat d Q fs0)) anyVal (osCreate p : Prg Unit) :=
  keeps_create (fun _ q hp hr h1 h2 h3 => hp.file hm (h q hr) h1 h2 h3 (resolve_no_slash hc hr) [])

include hc hm in
theorem nt_write {t : Str} (h : ∀ q, resolve c p = some q → InAstra d q ∨ Q q) : Keeps (Inv c S (Neat d Q fs0)) anyVal (osWrite p t : Prg Unit) :=
  keeps_write (fun fs q n hp hr h1 => by
    have hne := FS.isFile_ne_nil h1
    have hl : ∃ u, fs.look q = some (.file u) := by
      unfold FS.isFile at h1
      split at h1
      · rename_i u e; exact ⟨u, e⟩
      · cases h1
    obtain ⟨u, hl⟩ := hl
    exact hp.file hm (h q hr) hne (hp.1.tree q hne (by rw [hl]; simp)) (by rw [hl]; simp) (resolve_no_slash hc hr) _)

include hc hm in
theorem nt_writeFile {t : Str} (h : ∀ q, resolve c p = some q → InAstra d q ∨ Q q) : Keeps (Inv c S (Neat d Q fs0)) anyVal (osWriteFile p t : Prg Unit) :=
  Keeps.bind (m := osCreate p) (f := fun _ => osWrite p t) (nt_create hc hm h) (fun _ _ => nt_write hc hm h)

include hm in
theorem nt_removeAll (h : ∀ q, resolve c p = some q → d ++ [c!".astra"] <+: q ∨ Q q) : Keeps (Inv c S (Neat d Q fs0)) anyVal (osRemoveAll p : Prg Unit) :=
  keeps_removeAll (fun fs q hp hr => by
    rcases h q hr with h | h
    · refine ⟨hp.inside hm (.del (fun r h1 => h.trans h1)) ?_ (hp.1.tree.del q) (ProperNames.del hp.1.names q), fun k =>
        hp.inside hm (.delPart k (fun r h1 => h.trans h1)) ?_ (hp.1.tree.delPart k q) (ProperNames.delPart hp.1.names k q)⟩
      · rw [FS.look_del]
        split
        · exact Or.inl rfl
        · exact hp.1.astra
      · rcases FS.look_delPart k fs q (d ++ [c!".astra"]) with e | e
        · rw [e]; exact hp.1.astra
        · exact Or.inl e
    · refine ⟨hp.gone hm h (.del (fun _ h1 => h1)) ?_ (hp.1.tree.del q) (ProperNames.del hp.1.names q), fun k =>
        hp.gone hm h (.delPart k (fun _ h1 => h1)) ?_ (hp.1.tree.delPart k q) (ProperNames.delPart hp.1.names k q)⟩
      · rw [FS.look_del]
        split
        · exact Or.inr rfl
        · exact Or.inl rfl
      · exact FS.look_delPart k fs q q)

theorem dirs_above {fs : FS} (ht : Tree fs) {d : FPath} (hd : fs.look d = some .dir) {r : FPath} (hr : r <+: d) : fs.look r = some .dir := by
  by_cases e : r = d
  · rw [e]; exact hd
  · by_cases h : fs.look r = some .dir
    · exact h
    · have := ht.none_below h hr e
      rw [hd] at this
      cases this

include hc hm in
theorem nt_mkdirAll (h : ∀ q, resolve c p = some q → q = d ++ [c!".astra"]) : Keeps (Inv c S (Neat d Q fs0)) anyVal (osMkdirAll p : Prg Unit) :=
  keeps_mkdirAll (fun fs q n hp hr hf => by
    have e := h q hr
    refine hp.inside hm (fun r hr' => ?_) ?_ (hp.1.tree.mkdirs q n hf) (ProperNames.mkdirs hp.1.names _ (fun r h1 x hx => ?_))
    · rw [look_mkdirs, if_neg]
      rintro ⟨h1, h2⟩
      have h3 := (mem_take_ancestors.mp h2).1
      rw [e] at h3
      rcases List.prefix_concat_iff.mp h3 with h3 | h3
      · exact hr' (h3 ▸ List.prefix_refl _)
      · rw [dirs_above hp.1.tree hp.1.work h3] at h1; cases h1
    · rw [look_mkdirs]
      split
      · exact Or.inr rfl
      · exact hp.1.astra
    · exact resolve_no_slash hc hr x ((mem_take_ancestors.mp h1).1.subset hx))

end

/-! ### The steps, whatever fails -/

section
variable {c d : FPath} {Q : Places} {fs0 : FS} {s : Service} {S : Proc → Prop} (hc : ∀ x ∈ c, '/' ∉ x) (hm : NotModules d Q)
  (hS : Lasting s S) (hd : locOf c s.workDir = d)

include hS in
theorem nt_svc : Keeps (Inv c S (Neat d Q fs0)) (svcLike s) getSvc := keeps_getSvc (fun p hp => hS.fixed p hp)

include hS in
theorem nt_modifySvc {f : Service → Service}
    (h : ∀ s, (f s).workDir = s.workDir ∧ (f s).cachePath = s.cachePath ∧ (f s).cacheEnabled = s.cacheEnabled ∧ (f s).cliMode = s.cliMode ∧
      (f s).inputs = s.inputs ∧ (f s).outputs = s.outputs ∧ (f s).cells = s.cells) :
    Keeps (Inv c S (Neat d Q fs0)) anyVal (modifySvc f) :=
  keeps_modifySvc (fun p hp => by
    obtain ⟨h1, h2, h3, h4, h5, h6, h7⟩ := h p.svc
    exact hS.svc p _ hp h1 h2 h3 h4 h5 h6 h7)

include hS in
theorem nt_log (e : Event) : Keeps (Inv c S (Neat d Q fs0)) anyVal (logEvent e) :=
  keeps_logEvent (fun p hp => hS.svc p _ hp rfl rfl rfl rfl rfl rfl rfl)

theorem in_astra (d : FPath) (n : Str) : InAstra d (d ++ [c!".astra", n]) :=
  ⟨⟨[n], by simp⟩, fun e => by have := congrArg List.length e; simp at this⟩

theorem in_astra_append {d q : FPath} (h : InAstra d q) (n : Str) : InAstra d (q ++ [n]) := by
  refine ⟨h.1.trans (List.prefix_append _ _), fun e => ?_⟩
  have h1 := h.1.length_le
  have h2 := congrArg List.length e
  simp at h1 h2
  omega

include hc hm hS hd in
theorem nt_cacheIfEnabled (hp : ∀ q, CachePlace c s q → Q q) (L : Lib) : Keeps (Inv c S (Neat d Q fs0)) anyVal (cacheIfEnabled L) := by
  have hin : s.cacheEnabled = true → ∀ q, resolve c (cachePathOf s) = some q → InAstra d q ∨ Q q := by
    intro he q hq
    by_cases h0 : s.cachePath = []
    · rw [show cachePathOf s = pathJoin [astraDirPath s, cacheFileName] by simp [cachePathOf, h0], resolve_in_astra c s plain_cacheFile, hd] at hq
      cases hq
      exact Or.inl (in_astra d _)
    · rw [show cachePathOf s = s.cachePath by simp [cachePathOf, h0]] at hq
      exact Or.inr (hp q ⟨he, h0, hq⟩)
  unfold cacheIfEnabled
  refine Keeps.bind (nt_svc hS) (fun s' hs => ?_)
  split
  · rename_i he
    replace hin := hin (hs.2.2.1 ▸ he)
    unfold cache
    refine Keeps.bind (nt_svc hS) (fun s' hs => ?_)
    simp only [cachePathOf_fixed hs.1 hs.2.1]
    have hrest : Keeps (Inv c S (Neat d Q fs0)) anyVal (do
        osCreate (cachePathOf s)
        match cacheText L (cachePathOf s) s' with
        | none => Run.panic
        | some text => osWrite (cachePathOf s) text) := by
      refine Keeps.seq (nt_create hc hm hin) (fun _ => ?_)
      cases cacheText L (cachePathOf s) s' with
      | none => exact Keeps.panic
      | some t => exact nt_write hc hm hin
    refine Keeps.seq (Keeps.try' wi_stat) (fun r => ?_)
    cases r with
    | error e => exact hrest
    | ok n =>
      refine Keeps.seq (A := anyVal) ?_ (fun _ => hrest)
      unfold clearCache
      refine Keeps.bind (nt_svc hS) (fun s'' hs => ?_)
      simp only [cachePathOf_fixed hs.1 hs.2.1]
      exact Keeps.seq wi_stat (fun _ => nt_removeAll hm (fun q hq => (hin q hq).imp And.left id))
  · exact Keeps.pure trivial

include hc hm in
theorem nt_copyMainFiles {target : Str} (htgt : target ≠ []) {wd : Str} (ht : InAstra d (locOf c target))
    (names : List Str) (hn : ∀ n ∈ names, '/' ∉ n) (pkg : Str) :
    Keeps (Inv c S (Neat d Q fs0)) anyVal (copyMainFiles wd target names pkg) := by
  induction names generalizing pkg with
  | nil => exact Keeps.pure trivial
  | cons n names ih =>
    have ih := ih (fun m hm => hn m (by simp [hm]))
    unfold copyMainFiles
    split
    · rename_i hgo
      refine Keeps.seq (A := anyVal) (keeps_readFile (fun _ _ _ _ _ _ => trivial)) (fun t => Keeps.seq (nt_writeFile hc hm (fun q hr => ?_)) (fun _ => ih pkg))
      have hp : PlainName n := by
        refine ⟨?_, ?_, ?_, hn n (by simp)⟩ <;> (rintro rfl; exact absurd hgo (by decide))
      rw [resolve_join c (Or.inl htgt), walk_plain hp] at hr
      cases hr
      exact Or.inl (in_astra_append ht n)
    · split
      · exact Keeps.seq (A := anyVal) (keeps_readFile (fun _ _ _ _ _ _ => trivial)) (fun t => ih _)
      · exact ih pkg

include hc hm hS hd in
theorem nt_setupTempMainPackage : Keeps (Inv c S (Neat d Q fs0)) anyVal setupTempMainPackage := by
  have hres : resolve c (pathJoin [astraDirPath s, mainReplacement]) = some (d ++ [c!".astra", c!"astramain"]) := by
    rw [resolve_in_astra c s plain_main, hd]; simp [mainReplacement]
  have hne : pathJoin [astraDirPath s, mainReplacement] ≠ [] := (loc_join_plain [] _ plain_main).1
  unfold setupTempMainPackage
  refine Keeps.bind (nt_svc hS) (fun s' hs => ?_)
  simp only [astraDirPath_fixed hs.1]
  refine Keeps.seq (Keeps.try' wi_stat) (fun r => ?_)
  have hrest : Keeps (Inv c S (Neat d Q fs0)) anyVal (do
      osMkdir (pathJoin [astraDirPath s, mainReplacement])
      let names ← osReadDir s'.workDir
      let pkgName ← copyMainFiles s'.workDir (pathJoin [astraDirPath s, mainReplacement]) names []
      modifySvc (fun s => { s with tempMain := pathJoin [pkgName, mainReplacementPath] })) := by
    refine Keeps.seq (nt_mkdir hc hm (fun q hr => by rw [hres] at hr; cases hr; exact in_astra d _)) (fun _ => ?_)
    refine Keeps.bind (A := fun names => ∀ n ∈ names, '/' ∉ n) (keeps_readDir (fun fs q hp _ _ n hn => ?_)) (fun names hn => ?_)
    · exact hp.1.names _ (mem_children.mp hn) n (by simp)
    · refine Keeps.seq (nt_copyMainFiles hc hm hne ?_ names hn _) (fun pkg => nt_modifySvc hS (fun _ => ⟨rfl, rfl, rfl, rfl, rfl, rfl, rfl⟩))
      rw [resolve_eq hne] at hres
      rw [Option.some.inj hres]
      exact in_astra d _
  cases r with
  | ok n =>
    refine Keeps.seq (nt_removeAll hm (fun q hr => ?_)) (fun _ => hrest)
    rw [hres] at hr; cases hr; exact Or.inl (in_astra d _).1
  | error e => exact hrest

include hc hm hS hd in
theorem nt_getMainPackageName : Keeps (Inv c S (Neat d Q fs0)) anyVal getMainPackageName := by
  unfold getMainPackageName
  refine Keeps.bind (nt_svc hS) (fun s' _ => Keeps.seq (A := anyVal) ?_ (fun _ => Keeps.bind (nt_svc hS) (fun _ _ => Keeps.pure trivial)))
  split
  · exact nt_setupTempMainPackage hc hm hS hd
  · exact Keeps.pure trivial

include hS in
theorem nt_ginCreateRoutes (L : Lib) (r : Option (List RouteInfo)) : Keeps (Inv c S (Neat d Q fs0)) anyVal (ginCreateRoutes L r) := by
  unfold ginCreateRoutes
  refine Keeps.bind (nt_svc hS) (fun s' _ => ?_)
  cases r with
  | none => exact Keeps.panic
  | some infos =>
    refine Keeps.seq (nt_modifySvc hS (fun s => ⟨rfl, rfl, rfl, rfl, rfl, rfl, rfl⟩)) (fun _ => ?_)
    split
    · exact Keeps.pure trivial
    · exact Keeps.throw _

include hc hm hS hd in
theorem nt_ginParseLoop (L : Lib) (n i : Nat) : Keeps (Inv c S (Neat d Q fs0)) anyVal (ginParseLoop L n i) := by
  induction n generalizing i with
  | zero => exact Keeps.pure trivial
  | succ n ih =>
    unfold ginParseLoop
    refine Keeps.bind (nt_svc hS) (fun s' _ => ?_)
    split
    · exact Keeps.pure trivial
    · rename_i route _
      refine Keeps.seq (A := anyVal) ?_ (fun _ => Keeps.bind (nt_svc hS) (fun s' _ => ?_))
      · split
        · exact Keeps.seq (nt_getMainPackageName hc hm hS hd) (fun _ => Keeps.pure trivial)
        · exact Keeps.pure trivial
      · refine Keeps.seq (nt_modifySvc hS (fun s => ⟨rfl, rfl, rfl, rfl, rfl, rfl, rfl⟩)) (fun _ => ?_)
        split
        · exact Keeps.throw _
        · exact Keeps.panic
        · exact Keeps.seq (nt_modifySvc hS (fun s => ⟨rfl, rfl, rfl, rfl, rfl, rfl, rfl⟩)) (fun _ => ih _)

include hc hm hS hd in
theorem nt_inputs (L : Lib) (ev : Nat → Event) (as : List Action) (i : Nat) (h : ∀ a ∈ as, GinFunction a) :
    Keeps (Inv c S (Neat d Q fs0)) anyVal (runAll L ev i as) := by
  induction as generalizing i with
  | nil => exact Keeps.pure trivial
  | cons a as ih =>
    refine Keeps.seq (nt_log hS _) (fun _ => Keeps.seq (A := anyVal) ?_ (fun _ => ih (i + 1) (fun b hb => h b (by simp [hb]))))
    rcases h a (by simp) with ⟨r, rfl⟩ | rfl
    · exact nt_ginCreateRoutes hS L r
    · exact Keeps.bind (nt_svc hS) (fun s' _ => nt_ginParseLoop hc hm hS hd L _ _)

include hm hd in
theorem nt_teardown : Keeps (Inv c (fixedSvc s) (Neat d Q fs0)) anyVal teardown := by
  have hS := lasting_svc s
  refine Keeps.seq (nt_log hS _) (fun _ => Keeps.bind (nt_svc hS) (fun s' hs => Keeps.seq (Keeps.try' (A := anyVal) ?_) (fun _ => Keeps.pure trivial)))
  split
  · unfold cleanupAstraDir
    refine Keeps.bind (nt_svc hS) (fun s' hs => nt_removeAll hm (fun q hr => ?_))
    rw [astraDirPath_fixed hs.1, resolve_astra, hd] at hr
    cases hr
    exact Or.inl (List.prefix_refl _)
  · unfold cleanupTempMainPackage
    refine Keeps.bind (nt_svc hS) (fun s' hs => Keeps.seq (Keeps.try' wi_stat) (fun r => ?_))
    split
    · refine nt_removeAll hm (fun q hr => ?_)
      rw [astraDirPath_fixed hs.1, resolve_in_astra c s plain_main, hd] at hr
      cases hr
      exact Or.inl (in_astra d _).1
    · exact Keeps.pure trivial

end

section
variable {c d : FPath} {Q : Places} {fs0 : FS} {s : Service} (hc : ∀ x ∈ c, '/' ∉ x) (hm : NotModules d Q)
  (hw : s.workDir ≠ []) (hd : locOf c s.workDir = d) {L : Lib}

theorem fixed_of_isSvc {s : Service} {p : Proc} (h : isSvc s p) : fixedAll s p := by
  unfold isSvc at h; unfold fixedAll fixedSvc; rw [h]; exact ⟨⟨rfl, rfl, rfl, rfl, rfl, rfl⟩, rfl⟩

/-- The output writes a file of `Q`, or replaces a directory of `Q`. -/
def Fits (d : FPath) (s : Service) (Q : Places) (a : Action) : Prop :=
  (((∃ l, a = .json l) ∨ ∃ l, a = .openapi l) ∧ ∀ q, OutputPlace d s a q → Q q) ∨ ∃ dir, a = .azure dir ∧ Q.dir (walk d (segments dir))

theorem apart_below {a b : FPath} {x : Str} (h : Spec.Apart (a ++ [x]) b) (n : Str) : Spec.Apart (a ++ [x, n]) b := by
  refine ⟨fun hp => h.1 (List.IsPrefix.trans ⟨[n], by simp⟩ hp), fun hp => ?_⟩
  rw [show a ++ [x, n] = (a ++ [x]) ++ [n] by simp] at hp
  rcases List.prefix_concat_iff.mp hp with e | hp
  · exact h.1 (e ▸ List.prefix_append _ _)
  · exact h.2 hp

include hc hm hw hd in
theorem nt_azure {S : Proc → Prop} (dir : Str) (hD : Q.dir (walk d (segments dir))) (φ : Faults) (w : World Proc) (hwd : w.st.svc.workDir = s.workDir)
    (h : Inv c S (Neat d Q fs0) w) : Inv c S (Neat d Q fs0) (azureGenerate dir φ w).1 := by
  obtain ⟨h1, h2, h3⟩ := h
  obtain ⟨t1, t2, t3⟩ := azure_tree φ w dir h3.1.tree
  have hdw : locOf w.cwd w.st.svc.workDir = d := by rw [h1, hwd]; exact hd
  have hres : resolve w.cwd (pathJoin [w.st.svc.workDir, dir]) = some (walk d (segments dir)) := by
    rw [resolve_join _ (Or.inl (by rw [hwd]; exact hw)), hdw]
  have hf := (azure_footprint φ w dir d _ (dirAt_iff.mpr hdw) hres (apart_below (hm.spaced.astra _ hD) _)).1
  have hn := (wi_azureGenerate (T := fun _ => True) (fs0 := w.fs) hc (lasting_all w.st.svc) (fun _ _ => trivial) (by rw [hwd]; exact hw) dir
    (fun _ _ => trivial) φ w ⟨h1, fixed_of_isSvc rfl, .refl _ _, h3.1.names⟩).1.2.2.2
  exact ⟨t2.trans h1, by rw [t3]; exact h2, (h3.replaced hm hD hf t1 hn).1⟩

include hc hm hw hd in
/-- An output keeps the project orderly, and the variables of the outputs after it. -/
theorem nt_action (a : Action) (as : List Action) (ha : Fits d s Q a)
    (hl : ∀ loc, Action.usesCell loc a → ∀ b ∈ as, ¬ Action.usesCell loc b)
    (φ : Faults) (w : World Proc) (h : Inv c (cellsOf s (a :: as)) (Neat d Q fs0) w) : Inv c (cellsOf s as) (Neat d Q fs0) (a.run L φ w).1 := by
  obtain ⟨h1, h2, h3⟩ := h
  have hwd : w.st.svc.workDir = s.workDir := h2.1.1
  have h2' : cellsOf s as w.st := cellsOf_sub (fun b hb => by simp [hb]) h2
  rcases ha with ⟨⟨loc, rfl⟩ | ⟨loc, rfl⟩, hQ⟩ | ⟨dir, rfl, hD⟩
  rotate_right
  · have k := nt_azure (S := cellsOf s (.azure dir :: as)) hc hm hw hd dir hD φ w hwd ⟨h1, h2, h3⟩
    exact ⟨k.1, cellsOf_sub (fun b hb => by simp [hb]) k.2.1, k.2.2⟩
  · have hcell := h2.2 (.json loc) (by simp) loc rfl
    show Inv c _ _ (jsonGenerate loc φ w).1
    unfold jsonGenerate
    rw [Run.bind_ok (getSvc_ok φ w), Run.bind_ok (getCell_ok loc φ w)]
    unfold setCell
    rw [Run.bind_ok (modifySvc_ok _ φ w), hcell, hwd]
    refine ((nt_writeFile (S := cellsOf s as) hc hm (fun q hr => ?_)) φ _ ⟨?_, ?_, ?_⟩).1
    · rw [resolve_join c (Or.inl hw), jsonExt_spec, hd] at hr
      cases hr
      exact Or.inr (hQ _ rfl)
    · exact h1
    · exact cellsOf_set h2' (hl loc rfl) ⟨hwd.symm, rfl, rfl, rfl, rfl, rfl⟩ (fun l hne => getD_set_ne hne _)
    · exact h3
  · have hcell := h2.2 (.openapi loc) (by simp) loc rfl
    show Inv c _ _ (openApiGenerate L loc φ w).1
    unfold openApiGenerate
    rw [Run.bind_ok (show Run.get φ w = (w, .ok w.st) from rfl)]
    simp only
    cases hdoc : generateDoc L.choices w.st.names { config := w.st.svc.config, routes := w.st.svc.routes, components := w.st.svc.components, types := w.st.svc.maps.merged } with
    | err e => exact ⟨h1, h2', h3⟩
    | panic e => exact ⟨h1, h2', h3⟩
    | ok doc =>
      simp only
      have hmod : ∀ f, Run.modify f φ w = ({ w with st := f w.st }, .ok ()) := fun _ => rfl
      rw [Run.bind_ok (hmod _), Run.bind_ok (getCell_ok loc φ _)]
      unfold setCell
      rw [Run.bind_ok (modifySvc_ok _ φ _)]
      simp only [hcell, hwd]
      cases hr : L.render (isYaml (openApiExt (s.cells.getD loc []))) doc with
      | error e =>
        refine ⟨h1, ?_, h3⟩
        exact cellsOf_set h2' (hl loc rfl) ⟨hwd.symm, rfl, rfl, rfl, rfl, rfl⟩ (fun l hne => getD_set_ne hne _)
      | ok text =>
        simp only
        rw [Run.bind_ok (modifySvc_ok _ φ _)]
        refine ((nt_writeFile (S := cellsOf s as) hc hm (fun q hr => ?_)) φ _ ⟨?_, ?_, ?_⟩).1
        · rw [resolve_join c (Or.inl hw), openApiExt_spec, hd] at hr
          cases hr
          exact Or.inr (hQ _ rfl)
        · exact h1
        · exact cellsOf_set h2' (hl loc rfl) ⟨hwd.symm, rfl, rfl, rfl, rfl, rfl⟩ (fun l hne => by
            show ((w.st.svc.cells.set loc _).set loc _).getD l [] = _
            rw [getD_set_ne hne, getD_set_ne hne])
        · exact h3

include hc hm hw hd in
theorem nt_outputs (ev : Nat → Event) (as : List Action) (i : Nat) (ha : ∀ a ∈ as, Fits d s Q a)
    (hl : as.Pairwise (fun a b => ∀ loc, Action.usesCell loc a → ¬ Action.usesCell loc b))
    (φ : Faults) (w : World Proc) (h : Inv c (cellsOf s as) (Neat d Q fs0) w) : Inv c (fixedSvc s) (Neat d Q fs0) (runAll L ev i as φ w).1 := by
  induction as generalizing i w with
  | nil => exact ⟨h.1, h.2.1.1, h.2.2⟩
  | cons a as ih =>
    have h := (nt_log (lasting_cells s (a :: as)) (ev i) φ w h).1
    unfold runAll
    rw [Run.bind_ok (logEvent_ok (ev i) φ w)]
    have h := nt_action (L := L) hc hm hw hd a as (ha a (by simp)) (fun loc hu b hb => (List.pairwise_cons.mp hl).1 b hb loc hu) φ _ h
    rcases bind_split (φ := φ) (w := { w with st := { w.st with log := w.st.log ++ [ev i] } }) (a.run L) (runAll L ev (i + 1) as) with ⟨w1, h1, h2⟩ | ⟨_, h2⟩
    · rw [h2]
      have h1 : a.run L φ (logEvent (ev i) φ w).1 = (w1, .ok ()) := h1
      rw [h1] at h
      exact ih (i + 1) (fun b hb => ha b (by simp [hb])) (List.pairwise_cons.mp hl).2 w1 h
    · rw [h2]
      exact ⟨h.1, h.2.1.1, h.2.2⟩

variable (hp : ∀ q, CachePlace c s q → Q q)

include hc hm hd hp in
theorem nt_stepCreate (h : ∀ i ∈ s.inputs, GinFunction i.createRoutes) : Keeps (Inv c (fixedAll s) (Neat d Q fs0)) anyVal (stepCreate L) := by
  have hS := lasting_all s
  refine Keeps.seq (nt_log hS _) (fun _ => Keeps.bind (nt_svc hS) (fun s' hs => Keeps.seq (A := anyVal) ?_ (fun _ => nt_cacheIfEnabled hc hm hS hd hp L)))
  refine nt_inputs hc hm hS hd L _ _ _ (fun a ha => ?_)
  rw [hs.2.2.2.2.1] at ha
  obtain ⟨i, hi, rfl⟩ := List.mem_map.mp ha
  exact h i hi

include hc hm hd hp in
theorem nt_stepParse (h : ∀ i ∈ s.inputs, GinFunction i.parseRoutes) : Keeps (Inv c (fixedAll s) (Neat d Q fs0)) anyVal (stepParse L) := by
  have hS := lasting_all s
  refine Keeps.seq (nt_log hS _) (fun _ => Keeps.bind (nt_svc hS) (fun s' hs => Keeps.seq (A := anyVal) ?_ (fun _ => nt_cacheIfEnabled hc hm hS hd hp L)))
  refine nt_inputs hc hm hS hd L _ _ _ (fun a ha => ?_)
  rw [hs.2.2.2.2.1] at ha
  obtain ⟨i, hi, rfl⟩ := List.mem_map.mp ha
  exact h i hi

include hc hm hd hp in
theorem nt_stepClean : Keeps (Inv c (fixedAll s) (Neat d Q fs0)) anyVal (stepClean L) := by
  have hS := lasting_all s
  exact Keeps.seq (nt_log hS _) (fun _ => Keeps.seq (nt_getMainPackageName hc hm hS hd) (fun m => Keeps.seq
    (nt_modifySvc hS (fun s => ⟨rfl, rfl, rfl, rfl, rfl, rfl, rfl⟩)) (fun _ => nt_cacheIfEnabled hc hm hS hd hp L)))

include hc hm hw hd hp in
theorem nt_stepGenerate (hown : OwnCells s.outputs) (hfit : ∀ o ∈ s.outputs, Fits d s Q o.generate)
    (φ : Faults) (w : World Proc) (h : Inv c (fixedAll s) (Neat d Q fs0) w) :
    Inv c (fixedSvc s) (Neat d Q fs0) (stepGenerate L φ w).1 := by
  obtain ⟨h1, h2, h3⟩ := h
  unfold stepGenerate
  rw [Run.bind_ok (logEvent_ok .generate φ w), Run.bind_ok (getSvc_ok φ _)]
  have ho : w.st.svc.outputs = s.outputs := h2.1.2.2.2.2.2
  simp only [ho]
  have k := nt_outputs (c := c) (fs0 := fs0) (L := L) hc hm hw hd .output (s.outputs.map (·.generate)) 0
    (fun a ha => by obtain ⟨o, ho, rfl⟩ := List.mem_map.mp ha; exact hfit o ho)
    (by rw [List.pairwise_map]; exact hown)
    φ { w with st := { w.st with log := w.st.log ++ [.generate] } } ⟨h1, ⟨h2.1, fun a _ l _ => by rw [← h2.2]⟩, h3⟩
  rcases bind_split (φ := φ) (w := { w with st := { w.st with log := w.st.log ++ [.generate] } }) (runAll L .output 0 (s.outputs.map (·.generate)))
    (cacheIfEnabled L) with ⟨w1, e1, e2⟩ | ⟨_, e2⟩
  · rw [e2]
    rw [e1] at k
    exact (nt_cacheIfEnabled hc hm (lasting_svc s) hd hp L φ w1 k).1
  · rw [e2]
    exact k

include hc hm hw hd hp in
theorem nt_complete (hin : ∀ i ∈ s.inputs, GinFunction i.parseRoutes) (hown : OwnCells s.outputs) (hfit : ∀ o ∈ s.outputs, Fits d s Q o.generate)
    (φ : Faults) (w : World Proc) (h : Inv c (fixedAll s) (Neat d Q fs0) w) : Inv c (fixedSvc s) (Neat d Q fs0) (completeParse L φ w).1 := by
  have weak : ∀ {w : World Proc}, Inv c (fixedAll s) (Neat d Q fs0) w → Inv c (fixedSvc s) (Neat d Q fs0) w := fun h => ⟨h.1, h.2.1.1, h.2.2⟩
  unfold completeParse
  rcases bind_split (φ := φ) (w := w) checkIO (stepParse L >>= fun _ => stepClean L >>= fun _ => stepGenerate L >>= fun _ => teardown) with
    ⟨w1, e1, e2⟩ | ⟨_, e2⟩
  · rw [e2]
    have := checkIO_world φ w
    rw [e1] at this
    rw [show w1 = w from this]
    have k := (nt_stepParse (L := L) hc hm hd hp hin φ w h).1
    rcases bind_split (φ := φ) (w := w) (stepParse L) (stepClean L >>= fun _ => stepGenerate L >>= fun _ => teardown) with ⟨w1, e1, e2⟩ | ⟨_, e2⟩
    · rw [e2]
      rw [e1] at k
      have k := (nt_stepClean (L := L) hc hm hd hp φ w1 k).1
      rcases bind_split (φ := φ) (w := w1) (stepClean L) (stepGenerate L >>= fun _ => teardown) with ⟨w2, e1, e2⟩ | ⟨_, e2⟩
      · rw [e2]
        rw [e1] at k
        have k := nt_stepGenerate (L := L) hc hm hw hd hp hown hfit φ w2 k
        rcases bind_split (φ := φ) (w := w2) (stepGenerate L) teardown with ⟨w3, e1, e2⟩ | ⟨_, e2⟩
        · rw [e2]
          rw [e1] at k
          exact (nt_teardown hm hd φ w3 k).1
        · rw [e2]; exact k
      · rw [e2]; exact weak k
    · rw [e2]; exact weak k
  · rw [e2, checkIO_world]; exact weak h

include hc hm in
theorem nt_setupAstraDir {s : Service} (hd : locOf c s.workDir = d) : Keeps (Inv c (isSvc s) (Neat d Q fs0)) anyVal setupAstraDir := by
  have hg : ∀ q, resolve c (pathJoin [astraDirPath s, c!".gitignore"]) = some q → InAstra d q ∨ Q q := by
    intro q hr
    rw [resolve_in_astra c s plain_gitignore, hd] at hr
    cases hr
    exact Or.inl (in_astra d _)
  unfold setupAstraDir setupGitIgnore
  refine Keeps.bind keeps_isSvc (fun s' hs => ?_)
  subst hs
  refine Keeps.seq (nt_mkdirAll hc hm (fun q hr => ?_)) (fun _ => Keeps.bind keeps_isSvc (fun s' hs => ?_))
  · rw [resolve_astra c s', hd] at hr
    cases hr
    rfl
  · subst hs
    refine Keeps.seq (Keeps.try' wi_stat) (fun r => ?_)
    cases r with
    | ok n => exact Keeps.pure trivial
    | error e => exact Keeps.seq (nt_create hc hm hg) (fun _ => nt_write hc hm hg)

end

theorem nt_setup {c d : FPath} {Q : Places} {fs0 : FS} {s : Service} (hc : ∀ x ∈ c, '/' ∉ x) (hm : NotModules d Q)
    (L : Lib) (getwd : Str) (hd : locOf c s.workDir = d) (hd' : locOf c (afterSetup getwd s).workDir = d) (hp : ∀ q, CachePlace c s q → Q q)
    (φ : Faults) (w : World Proc) (h : Inv c (isSvc s) (Neat d Q fs0) w) :
    (w.cwd = c ∧ Neat d Q fs0 (setup L getwd φ w).1.fs) ∧
    ∀ u, (setup L getwd φ w).2 = .ok u → Inv c (fixedAll (afterSetup getwd s)) (Neat d Q fs0) (setup L getwd φ w).1 := by
  obtain ⟨h1, h2, h3⟩ := h
  have e : setup L getwd φ w = (setupAstraDir >>= fun _ => (modifySvc (fun s => if s.workDir = [] then { s with workDir := getwd } else s) >>= fun _ =>
      cacheIfEnabled L)) φ { w with st := { w.st with log := w.st.log ++ [.setup] } } := Run.bind_ok (logEvent_ok _ φ w)
  rw [e]
  have k := (nt_setupAstraDir (fs0 := fs0) hc hm hd φ { w with st := { w.st with log := w.st.log ++ [.setup] } } ⟨h1, h2, h3⟩).1
  rcases bind_split (φ := φ) (w := { w with st := { w.st with log := w.st.log ++ [.setup] } }) setupAstraDir
    (modifySvc (fun s => if s.workDir = [] then { s with workDir := getwd } else s) >>= fun _ => cacheIfEnabled L) with ⟨w1, e1, e2⟩ | ⟨hne, e2⟩
  · rw [e2, Run.bind_ok (modifySvc_ok _ φ w1)]
    rw [e1] at k
    have hs : w1.st.svc = s := k.2.1
    have es : (if w1.st.svc.workDir = [] then { w1.st.svc with workDir := getwd } else w1.st.svc) = afterSetup getwd s := by
      rw [hs]; unfold afterSetup workDirAfter; split <;> rfl
    have kk := (nt_cacheIfEnabled hc hm (lasting_all (afterSetup getwd s)) hd' hp L φ
      { w1 with st := { w1.st with svc := if w1.st.svc.workDir = [] then { w1.st.svc with workDir := getwd } else w1.st.svc } } ⟨k.1, fixed_of_isSvc es, k.2.2⟩).1
    exact ⟨⟨h1, kk.2.2⟩, fun _ _ => kk⟩
  · rw [e2]
    exact ⟨⟨h1, k.2.2⟩, fun u hu => absurd hu hne⟩

/-! ### The places of the outputs -/

theorem place_last (d : FPath) {ext p : Str} (h : ext <:+ p) (hn : '/' ∉ ext) (hlen : 2 < ext.length) :
    ∃ b x, walk d (segments p) = b ++ [x] ∧ ext <:+ x := by
  obtain ⟨pre, rfl⟩ := h
  obtain ⟨l, x, hl⟩ := split_append_nosep pre hn
  refine ⟨walk d l, x ++ ext, ?_, List.suffix_append _ _⟩
  have hlen' : 2 < (x ++ ext).length := by rw [List.length_append]; omega
  have hx : x ++ ext ≠ [] ∧ x ++ ext ≠ c!"." ∧ x ++ ext ≠ c!".." := by
    refine ⟨?_, ?_, ?_⟩ <;> (intro e; rw [e] at hlen'; exact absurd hlen' (by decide))
  show walk d (split '/' (pre ++ ext)) = _
  rw [hl, walk_append]
  exact walk_plain_segs _ (by intro y hy; rw [List.mem_singleton] at hy; subst hy; exact hx)

theorem extension_of (exts : List Str) (p : Str) : ∃ e, (e ∈ exts ∨ e = c!".json") ∧ e <:+ withExtension exts p := by
  unfold withExtension
  split
  · rename_i h
    obtain ⟨e, h1, h2⟩ := List.any_eq_true.mp h
    exact ⟨e, Or.inl h1, List.isSuffixOf_iff_suffix.mp h2⟩
  · exact ⟨c!".json", Or.inr rfl, List.suffix_append _ _⟩

/-- A file with one of the endings of Astra is not a module file. -/
theorem ending_not_module {b : FPath} {x ext : Str} (he : ext = c!".json" ∨ ext = c!".yaml" ∨ ext = c!".yml") (hx : ext <:+ x) (d : FPath)
    {n : Str} (hn : ModFile n) : b ++ [x] ≠ d ++ [n] := by
  intro e
  have e := (List.append_inj' e rfl).2
  simp only [List.cons.injEq, and_true] at e
  subst e
  have key2 : c!"d" <:+ x := List.IsSuffix.trans ⟨c!".mo", rfl⟩ hn
  have key3 : c!"n" <:+ x ∨ c!"l" <:+ x := by
    rcases he with rfl | rfl | rfl
    · exact Or.inl (List.IsSuffix.trans ⟨c!".jso", rfl⟩ hx)
    · exact Or.inr (List.IsSuffix.trans ⟨c!".yam", rfl⟩ hx)
    · exact Or.inr (List.IsSuffix.trans ⟨c!".ym", rfl⟩ hx)
  have last : ∀ ch : Char, [ch] <:+ x → x.getLast? = some ch := by
    rintro ch ⟨pre, rfl⟩
    simp
  have h2 := last 'd' key2
  rcases key3 with h | h
  · rw [last 'n' h] at h2; cases h2
  · rw [last 'l' h] at h2; cases h2

/-- The files of the outputs are not source files. -/
theorem outputs_not_modules (d : FPath) (s : Service) : ∀ q, OutputPlaces d s q → ∀ n, ModFile n → q ≠ d ++ [n] := by
  have key : ∀ exts p, (∀ e ∈ exts, e = c!".json" ∨ e = c!".yaml" ∨ e = c!".yml") → ∀ n, ModFile n →
      walk d (segments (withExtension exts p)) ≠ d ++ [n] := by
    intro exts p hexts n hn
    obtain ⟨ext, he, hs⟩ := extension_of exts p
    have he : ext = c!".json" ∨ ext = c!".yaml" ∨ ext = c!".yml" := by
      rcases he with he | he
      · exact hexts _ he
      · exact Or.inl he
    obtain ⟨b, x, hw, hx⟩ := place_last d hs (by rcases he with rfl | rfl | rfl <;> decide) (by rcases he with rfl | rfl | rfl <;> decide)
    rw [hw]
    exact ending_not_module he hx d hn
  rintro q ⟨o, ho, hfile, hq⟩ n hn e
  rcases hfile with ⟨loc, hg⟩ | ⟨loc, hg⟩
  · rw [hg] at hq
    exact key [c!".json"] _ (by simp) n hn (hq.symm.trans e)
  · rw [hg] at hq
    exact key [c!".json", c!".yaml", c!".yml"] _ (by simp) n hn (hq.symm.trans e)

theorem places_not_modules (c d : FPath) (s : Service) (hj : JsonCache s) (hl : Spaced d (placesOf c d s)) : NotModules d (placesOf c d s) := by
  refine ⟨?_, hl⟩
  rintro q (hq | ⟨h1, h2, h3⟩) n hn
  · exact outputs_not_modules d s q hq n hn
  · rw [resolve_eq h2] at h3
    obtain ⟨b, x, hw, hx⟩ := place_last (baseOf c s.cachePath) (hj h1 h2) (by decide) (by decide)
    rw [← Option.some.inj h3, show locOf c s.cachePath = b ++ [x] from hw]
    exact ending_not_module (Or.inl rfl) hx d hn

theorem workDir_after {cwd d : FPath} {s : Service} {getwd : Str} (hd : DirAt cwd s.workDir d) (hg : resolve cwd getwd = some cwd) :
    (afterSetup getwd s).workDir ≠ [] ∧ locOf cwd (afterSetup getwd s).workDir = d := by
  have hd' := dirAt_iff.mp hd
  have hgne : getwd ≠ [] := by rintro rfl; simp [resolve] at hg
  show workDirAfter getwd s ≠ [] ∧ locOf cwd (workDirAfter getwd s) = d
  unfold workDirAfter
  split
  · rename_i h0
    refine ⟨hgne, ?_⟩
    rw [resolve_eq hgne] at hg
    rw [Option.some.inj hg, ← hd', h0]
    simp [locOf, baseOf, segments, split, walk, walkStep, isAbs]
  · rename_i h0; exact ⟨h0, hd'⟩

theorem outputPlaces_after {d : FPath} {s : Service} {getwd : Str} {q : FPath} : OutputPlaces d (afterSetup getwd s) q ↔ OutputPlaces d s q := by
  unfold OutputPlaces
  constructor <;> (rintro ⟨o, ho, hk, hq⟩; refine ⟨o, ho, hk, ?_⟩; cases hgen : o.generate <;> rw [hgen] at hq <;> exact hq)

theorem outputs_fit {c d : FPath} {s : Service} {getwd : Str} (hk : ∀ o ∈ s.outputs, FileOutput o ∨ AzureOutput o) :
    ∀ o ∈ (afterSetup getwd s).outputs, Fits d (afterSetup getwd s) (placesOf c d s) o.generate := by
  intro o ho
  rcases hk o ho with h | ⟨dir, h⟩
  · exact Or.inl ⟨h, fun q hq => Or.inl (outputPlaces_after.mp ⟨o, ho, h, hq⟩)⟩
  · exact Or.inr ⟨dir, h, o, ho, dir, h, rfl⟩

/-- Whatever fails, and wherever the process dies: an orderly project remains orderly, and its module files are not touched. -/
theorem run_keeps_order (L : Lib) (getwd : Str) (φ : Faults) (w : World Proc) (d : FPath) (hd : DirAt w.cwd w.st.svc.workDir d)
    (hg : resolve w.cwd getwd = some w.cwd) (hc : ∀ x ∈ w.cwd, '/' ∉ x)
    (hin : ∀ i ∈ w.st.svc.inputs, GinFunction i.createRoutes ∧ GinFunction i.parseRoutes)
    (hkinds : ∀ o ∈ w.st.svc.outputs, FileOutput o ∨ AzureOutput o) (hown : OwnCells w.st.svc.outputs) (hj : JsonCache w.st.svc)
    (hl : Spaced d (placesOf w.cwd d w.st.svc)) (ho : Orderly w.fs d (placesOf w.cwd d w.st.svc)) :
    Orderly (Astra.parseAll L getwd φ w).1.fs d (placesOf w.cwd d w.st.svc) ∧ SameModules d w.fs (Astra.parseAll L getwd φ w).1.fs := by
  obtain ⟨hw', hd'⟩ := workDir_after hd hg
  have hd := dirAt_iff.mp hd
  have hm := places_not_modules w.cwd d w.st.svc hj hl
  have hfit := outputs_fit (c := w.cwd) (d := d) (getwd := getwd) hkinds
  generalize hQ : placesOf w.cwd d w.st.svc = Q at *
  have h0 : Neat d Q w.fs w.fs := ⟨ho, fun _ _ => rfl⟩
  show Neat d Q w.fs _
  have hp : ∀ q, CachePlace w.cwd w.st.svc q → Q q := fun q hq => by rw [← hQ]; exact Or.inr hq
  have ks := nt_setup (c := w.cwd) (fs0 := w.fs) (s := w.st.svc) hc hm L getwd hd hd' hp φ w ⟨rfl, rfl, h0⟩
  unfold Astra.parseAll setupParse
  rw [bind_assoc']
  rcases bind_split (φ := φ) (w := w) checkIO ((setup L getwd >>= fun _ => stepCreate L) >>= fun _ => completeParse L) with ⟨w1, e1, e2⟩ | ⟨_, e2⟩
  · rw [e2, bind_assoc']
    have := checkIO_world φ w
    rw [e1] at this
    rw [show w1 = w from this]
    rcases bind_split (φ := φ) (w := w) (setup L getwd) (stepCreate L >>= fun _ => completeParse L) with ⟨w1, e1, e2⟩ | ⟨_, e2⟩
    · rw [e2]
      rw [e1] at ks
      have k1 := ks.2 () rfl
      have k2 := (nt_stepCreate (L := L) hc hm hd' hp (fun i hi => (hin i hi).1) φ w1 k1).1
      rcases bind_split (φ := φ) (w := w1) (stepCreate L) (completeParse L) with ⟨w2, e1, e2⟩ | ⟨_, e2⟩
      · rw [e2]
        rw [e1] at k2
        exact (nt_complete (L := L) hc hm hw' hd' hp (fun i hi => (hin i hi).2) hown hfit φ w2 k2).2.2
      · rw [e2]; exact k2.2.2
    · rw [e2]; exact ks.1.2
  · rw [e2, checkIO_world]; exact h0

end Astra.Props
