/-
C43 when calls to the file system fail or the process dies: what a setup of the temporary package that reports success has done.
-/
import Verif.Props.Footprint

namespace Astra.Props
open Spec Run

/-- A success does not depend on the failures from outside: there were none. -/
def Honest {α : Type} (m : Prg α) : Prop := ∀ φ w w' a, m φ w = (w', .ok a) → m noFaults w = (w', .ok a)

theorem honest_pure {α : Type} (a : α) : Honest (Pure.pure a : Prg α) := fun _ _ _ _ h => h

theorem honest_bind {α β : Type} {m : Prg α} {f : α → Prg β} (hm : Honest m) (hf : ∀ a, Honest (f a)) : Honest (m >>= f) := by
  intro φ w w' b h
  cases hc : m φ w with
  | mk w1 r1 =>
    cases r1 with
    | ok a => rw [Run.bind_ok hc] at h; rw [Run.bind_ok (hm φ w w1 a hc)]; exact hf a φ w1 w' b h
    | err e => rw [Run.bind_err hc] at h; cases h
    | panic => rw [Run.bind_panic hc] at h; cases h
    | crash => rw [Run.bind_crash hc] at h; cases h

theorem honest_call {α : Type} (p : Str) (run : FS → FPath → Except Errno (FS × α)) (part : Nat → (FPath → Bool) → FS → FPath → FS) :
    Honest (Run.call p run part : Prg α) := by
  intro φ w w' a h
  unfold Run.call at h ⊢
  cases hr : resolve w.cwd p with
  | none => rw [hr] at h; cases h
  | some q =>
    rw [hr] at h
    simp only at h ⊢
    cases hf : φ w.clock with
    | none =>
      rw [hf] at h
      cases hx : run w.fs q with
      | ok x => rw [hx] at h; simpa [noFaults] using h
      | error e => rw [hx] at h; cases h
    | fail n k => rw [hf] at h; cases hx : run w.fs q <;> (rw [hx] at h; cases h)
    | crash n k => rw [hf] at h; cases hx : run w.fs q <;> (rw [hx] at h; cases h)

theorem honest_removeAll (p : Str) : Honest (osRemoveAll p : Prg Unit) := by
  unfold osRemoveAll
  split
  · exact honest_pure ()
  split
  · intro φ w w' a h; cases h
  · exact honest_call _ _ _

theorem honest_writeFile (p t : Str) : Honest (osWriteFile p t : Prg Unit) := honest_bind (honest_call _ _ _) (fun _ => honest_call _ _ _)

theorem honest_copyMainFiles (wd target : Str) (names : List Str) : ∀ pkg, Honest (copyMainFiles wd target names pkg) := by
  induction names with
  | nil => exact fun pkg => honest_pure pkg
  | cons n names ih =>
    intro pkg
    unfold copyMainFiles
    split
    · exact honest_bind (honest_call _ _ _) (fun t => honest_bind (honest_writeFile _ _) (fun _ => ih pkg))
    · split
      · exact honest_bind (honest_call _ _ _) (fun t => ih _)
      · exact ih pkg

theorem stat_err {p : Str} {φ : Faults} {w w1 : World Proc} {e : Err} (h : (osStat p : Prg FNode) φ w = (w1, .err e)) :
    (∃ e', (osStat p : Prg FNode) noFaults w = (w1, .err e')) ∨
    (∃ q, resolve w.cwd p = some q ∧ w.fs.look q ≠ none ∧ w1 = { w with clock := w.clock + 1 }) := by
  unfold osStat Run.call at h ⊢
  cases hr : resolve w.cwd p with
  | none => rw [hr] at h; cases h; exact .inl ⟨_, rfl⟩
  | some q =>
    rw [hr] at h
    simp only [noFaults] at h ⊢
    cases hx : reading FS.stat w.fs q with
    | error e0 =>
      rw [hx] at h
      cases hf : φ w.clock <;> (rw [hf] at h; cases h)
      · exact .inl ⟨_, rfl⟩
      · exact .inl ⟨_, rfl⟩
    | ok x =>
      rw [hx] at h
      have hl : w.fs.look q ≠ none := by
        intro hn
        unfold reading FS.stat at hx
        rw [hn] at hx
        cases hx
      cases hf : φ w.clock <;> (rw [hf] at h; cases h)
      exact .inr ⟨q, rfl, hl, rfl⟩

/-- A setup that reports success has done what it does when nothing fails. -/
theorem setupTempMainPackage_honest : Honest setupTempMainPackage := by
  intro φ w w' a h
  unfold setupTempMainPackage at h ⊢
  rw [Run.bind_ok (getSvc_ok φ w)] at h
  rw [Run.bind_ok (getSvc_ok noFaults w)]
  simp only at h ⊢
  generalize hk : (do
      osMkdir (pathJoin [astraDirPath w.st.svc, mainReplacement])
      let names ← osReadDir w.st.svc.workDir
      let pkgName ← copyMainFiles w.st.svc.workDir (pathJoin [astraDirPath w.st.svc, mainReplacement]) names []
      modifySvc (fun s => { s with tempMain := pathJoin [pkgName, mainReplacementPath] }) : Prg Unit) = rest at h ⊢
  have hrest : Honest rest := by
    rw [← hk]
    exact honest_bind (honest_call _ _ _) (fun _ => honest_bind (honest_call _ _ _) (fun _ => honest_bind (honest_copyMainFiles _ _ _ _)
      (fun _ _ _ _ _ h => h)))
  cases hc : (osStat (pathJoin [astraDirPath w.st.svc, mainReplacement]) : Prg FNode) φ w with
  | mk w1 r1 =>
    cases r1 with
    | ok n =>
      rw [Run.bind_ok (Run.try_ok hc)] at h
      have hc' : (osStat (pathJoin [astraDirPath w.st.svc, mainReplacement]) : Prg FNode) noFaults w = (w1, .ok n) := honest_call _ _ _ _ _ _ _ hc
      rw [Run.bind_ok (Run.try_ok hc')]
      exact honest_bind (honest_removeAll _) (fun _ => hrest) φ w1 w' a h
    | err e =>
      rw [Run.bind_ok (Run.try_err hc)] at h
      rcases stat_err hc with ⟨e', h'⟩ | ⟨q, hq, hlook, rfl⟩
      · rw [Run.bind_ok (Run.try_err h')]
        exact hrest φ w1 w' a h
      · exfalso
        have h := hrest φ _ w' a h
        rw [← hk] at h
        cases hm : (osMkdir (pathJoin [astraDirPath w.st.svc, mainReplacement]) : Prg Unit) noFaults { w with clock := w.clock + 1 } with
        | mk w2 r2 =>
          cases r2 with
          | ok u =>
            unfold osMkdir Run.call writing at hm
            simp only [hq, noFaults] at hm
            cases hf : FS.mkdir w.fs q with
            | error e => rw [hf] at hm; cases hm
            | ok fs' =>
              unfold FS.mkdir at hf
              split at hf
              · cases hf
              · split at hf
                · cases hf
                · rename_i hx; exact hlook hx
          | err e => rw [Run.bind_err hm] at h; cases h
          | panic => rw [Run.bind_panic hm] at h; cases h
          | crash => rw [Run.bind_crash hm] at h; cases h
    | panic => rw [Run.bind_panic (by unfold Run.try_; rw [hc])] at h; cases h
    | crash => rw [Run.bind_crash (by unfold Run.try_; rw [hc])] at h; cases h

/-- C43 under failures, in part: whatever calls fail and wherever the process dies, nothing changes outside the directory of the temporary
package, and if the setup reports success, then the temporary package is exactly the renamed copy. Missing: as for `temp_package_partial`. -/
theorem temp_package_faults_partial (w : World Proc) (d : FPath) (hw : w.st.svc.workDir ≠ []) (hd : DirAt w.cwd w.st.svc.workDir d)
    (hc : ∀ x ∈ w.cwd, '/' ∉ x) (hp : ProperNames w.fs) (φ : Faults) (w' : World Proc) (r : Exit Unit)
    (h : setupTempMainPackage φ w = (w', r)) :
    let target := d ++ [c!".astra", c!"astramain"]
    ChangesOnly (fun q => target <+: q) w.fs w'.fs ∧
    (∀ (m rest : Str), r = .ok () → Tree w.fs → w.fs.look (d ++ [c!".astra"]) = some .dir →
      (∀ n, GoFile n ∨ ModFile n → w.fs.look (d ++ [n]) ≠ none → FileName n ∧ ∃ t, w.fs.look (d ++ [n]) = some (.file t)) →
      ModulePath m → '\n' ∉ m → w.fs.look (d ++ [c!"go.mod"]) = some (.file (c!"module " ++ m ++ '\n' :: rest)) →
      (∀ n, ModFile n → w.fs.look (d ++ [n]) ≠ none → n = c!"go.mod") →
      (∀ n t, GoFile n → w.fs.look (d ++ [n]) = some (.file t) → ∀ a b a' b', t = a ++ c!"package main" ++ b →
        t = a' ++ c!"package main" ++ b' → a = a') →
      w'.fs.look target = some .dir ∧
      (∀ n t, GoFile n → w.fs.look (d ++ [n]) = some (.file t) → ∃ copy, w'.fs.look (target ++ [n]) = some (.file copy) ∧
        (RenamedClause t copy ∨ ¬ c!"package main" <:+: t ∧ copy = t)) ∧
      (∀ q, target <+: q → q ≠ target → w'.fs.look q ≠ none → ∃ n, GoFile n ∧ w.fs.look (d ++ [n]) ≠ none ∧ q = target ++ [n]) ∧
      w'.st.svc.tempMain = m ++ c!"/.astra/astramain") := by
  intro target
  refine ⟨?_, ?_⟩
  · have hd' : locOf w.cwd w.st.svc.workDir = d := dirAt_iff.mp hd
    have hk := wi_setupTemp (c := w.cwd) (S := fixedAll w.st.svc) (T := fun q => target <+: q) (fs0 := w.fs) (s := w.st.svc) hc
      (lasting_all _) (fun r hr => by rw [hd'] at hr; exact hr)
    have := (hk φ w ⟨rfl, ⟨⟨rfl, rfl, rfl, rfl, rfl, rfl⟩, rfl⟩, SameOutside.refl _ _, hp⟩).1
    rw [h] at this
    exact this.2.2.1
  · rintro m rest rfl ht ha hfiles hm hnl hmod hone hcl
    have hn := setupTempMainPackage_honest φ w w' () h
    have := temp_package_partial w d hw hd ht ha hfiles m rest hm hnl hmod hone hcl
    simp only [hn] at this
    exact this.2.2

/-- A setup that fails in the middle of a write leaves a part of the copy, and changes nothing else; `mainWorld` meets the conditions. -/
example :
    (setupTempMainPackage (fun n => if n = 7 then .fail 3 (fun _ => false) else .none) mainWorld).2 = .err (.errno .io) ∧
    (setupTempMainPackage (fun n => if n = 7 then .fail 3 (fun _ => false) else .none) mainWorld).1.fs.look
      [c!"w", c!".astra", c!"astramain", c!"main.go"] = some (.file c!"pac") := by decide +kernel

end Astra.Props
