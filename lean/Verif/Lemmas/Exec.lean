/-
Forward execution of programs on the file tree.
-/
import Verif.Lemmas.FS
import Verif.Model.Pipeline

namespace Astra

namespace Run

theorem bind_ok {σ α β : Type} {m : Run σ α} {f : α → Run σ β} {φ : Faults} {w w' : World σ} {a : α} (h : m φ w = (w', .ok a)) :
    (m >>= f) φ w = f a φ w' := by
  show Run.bind m f φ w = _
  unfold Run.bind; rw [h]

theorem bind_err {σ α β : Type} {m : Run σ α} {f : α → Run σ β} {φ : Faults} {w w' : World σ} {e : Err} (h : m φ w = (w', .err e)) :
    (m >>= f) φ w = (w', .err e) := by
  show Run.bind m f φ w = _
  unfold Run.bind; rw [h]

theorem bind_panic {σ α β : Type} {m : Run σ α} {f : α → Run σ β} {φ : Faults} {w w' : World σ} (h : m φ w = (w', .panic)) :
    (m >>= f) φ w = (w', .panic) := by
  show Run.bind m f φ w = _
  unfold Run.bind; rw [h]

theorem bind_crash {σ α β : Type} {m : Run σ α} {f : α → Run σ β} {φ : Faults} {w w' : World σ} (h : m φ w = (w', .crash)) :
    (m >>= f) φ w = (w', .crash) := by
  show Run.bind m f φ w = _
  unfold Run.bind; rw [h]

theorem try_ok {σ α : Type} {m : Run σ α} {φ : Faults} {w w' : World σ} {a : α} (h : m φ w = (w', .ok a)) :
    Run.try_ m φ w = (w', .ok (.ok a)) := by
  unfold Run.try_; rw [h]

theorem try_err {σ α : Type} {m : Run σ α} {φ : Faults} {w w' : World σ} {e : Err} (h : m φ w = (w', .err e)) :
    Run.try_ m φ w = (w', .ok (.error e)) := by
  unfold Run.try_; rw [h]

/-- A call without faults. -/
theorem call_ok {σ α : Type} {p : Str} {run : FS → FPath → Except Errno (FS × α)} {part : Nat → (FPath → Bool) → FS → FPath → FS}
    {φ : Faults} {w : World σ} {q : FPath} {fs' : FS} {a : α} (hf : φ w.clock = .none) (hr : resolve w.cwd p = some q)
    (h : run w.fs q = .ok (fs', a)) : call p run part φ w = ({ w with clock := w.clock + 1, fs := fs' }, .ok a) := by
  unfold call
  simp only [hr, hf, h]

theorem call_err {σ α : Type} {p : Str} {run : FS → FPath → Except Errno (FS × α)} {part : Nat → (FPath → Bool) → FS → FPath → FS}
    {φ : Faults} {w : World σ} {q : FPath} {e : Errno} (hf : φ w.clock = .none) (hr : resolve w.cwd p = some q)
    (h : run w.fs q = .error e) : call p run part φ w = ({ w with clock := w.clock + 1 }, .err (.errno e)) := by
  unfold call
  simp only [hr, hf, h]

/-- If a sequence succeeds, both parts do. -/
theorem bind_inv {σ α β : Type} {m : Run σ α} {f : α → Run σ β} {φ : Faults} {w w' : World σ} {b : β} (h : (m >>= f) φ w = (w', .ok b)) :
    ∃ w1 a, m φ w = (w1, .ok a) ∧ f a φ w1 = (w', .ok b) := by
  have h' : Run.bind m f φ w = (w', .ok b) := h
  unfold Run.bind at h'
  cases hm : m φ w with
  | mk w1 x =>
    rw [hm] at h'
    cases x with
    | ok a => exact ⟨w1, a, rfl, h'⟩
    | err e => cases h'
    | panic => cases h'
    | crash => cases h'

theorem call_inv {σ α : Type} {p : Str} {run : FS → FPath → Except Errno (FS × α)} {part : Nat → (FPath → Bool) → FS → FPath → FS}
    {φ : Faults} {w w' : World σ} {a : α} (h : call p run part φ w = (w', .ok a)) :
    ∃ q fs', φ w.clock = .none ∧ resolve w.cwd p = some q ∧ run w.fs q = .ok (fs', a) ∧
      w' = { w with clock := w.clock + 1, fs := fs' } := by
  unfold call at h
  simp only at h
  cases hr : resolve w.cwd p with
  | none => rw [hr] at h; cases h
  | some q =>
    rw [hr] at h
    simp only at h
    cases hφ : φ w.clock with
    | none =>
      cases hrun : run w.fs q with
      | error e => rw [hφ, hrun] at h; cases h
      | ok r =>
        obtain ⟨fs', b⟩ := r
        rw [hφ, hrun] at h
        simp only at h
        cases h
        exact ⟨q, fs', rfl, rfl, hrun, rfl⟩
    | fail n keep => cases hrun : run w.fs q <;> (rw [hφ, hrun] at h; cases h)
    | crash n keep => cases hrun : run w.fs q <;> (rw [hφ, hrun] at h; cases h)

end Run

section
variable {σ : Type} {φ : Faults} {w : World σ} {p : Str} {q : FPath}

theorem osStat_ok {n : FNode} (hf : φ w.clock = .none) (hr : resolve w.cwd p = some q) (h : w.fs.look q = some n) :
    osStat p φ w = ({ w with clock := w.clock + 1 }, .ok n) :=
  Run.call_ok hf hr (by simp [reading, FS.stat, h])

theorem osStat_err (hf : φ w.clock = .none) (hr : resolve w.cwd p = some q) (h : w.fs.look q = none) :
    osStat p φ w = ({ w with clock := w.clock + 1 }, .err (.errno (w.fs.absent q))) :=
  Run.call_err hf hr (by simp [reading, FS.stat, h])

theorem FS.parent_ok {fs : FS} {q : FPath} (h : fs.look q.dropLast = some .dir) : fs.parent q = .ok () := by
  simp [FS.parent, FS.stat, h]

theorem osMkdir_ok (hf : φ w.clock = .none) (hr : resolve w.cwd p = some q) (hp : w.fs.look q.dropLast = some .dir)
    (h : w.fs.look q = none) : osMkdir p φ w = ({ w with clock := w.clock + 1, fs := w.fs.put q .dir }, .ok ()) :=
  Run.call_ok hf hr (by simp [writing, FS.mkdir, h, FS.parent_ok hp])

theorem osMkdir_exist {n : FNode} (hf : φ w.clock = .none) (hr : resolve w.cwd p = some q) (hp : w.fs.look q.dropLast = some .dir)
    (h : w.fs.look q = some n) : osMkdir p φ w = ({ w with clock := w.clock + 1 }, .err (.errno .exist)) :=
  Run.call_err hf hr (by simp [writing, FS.mkdir, h, FS.parent_ok hp])

theorem FS.create_file {fs : FS} {q : FPath} (hp : fs.look q.dropLast = some .dir) (h : fs.look q ≠ some .dir) :
    fs.create q = .ok (fs.put q (.file [])) := by
  unfold FS.create
  split
  · rename_i hd; exact absurd hd h
  · simp [FS.parent_ok hp]

theorem osCreate_ok (hf : φ w.clock = .none) (hr : resolve w.cwd p = some q) (hp : w.fs.look q.dropLast = some .dir)
    (h : w.fs.look q ≠ some .dir) : osCreate p φ w = ({ w with clock := w.clock + 1, fs := w.fs.put q (.file []) }, .ok ()) :=
  Run.call_ok hf hr (by simp [writing, FS.create_file hp h])

theorem FS.write_file {fs : FS} {q : FPath} (h : fs.isFile q = true) (c : Str) : fs.write q c = fs.put q (.file c) := by simp [FS.write, h]

theorem osWrite_ok {c : Str} (hf : φ w.clock = .none) (hr : resolve w.cwd p = some q) (h : w.fs.isFile q = true) :
    osWrite p c φ w = ({ w with clock := w.clock + 1, fs := w.fs.put q (.file c) }, .ok ()) :=
  Run.call_ok hf hr (by rw [FS.write_file h])

theorem FS.isFile_put {fs : FS} {q : FPath} (hq : q ≠ []) (c : Str) : (fs.put q (.file c)).isFile q = true := by
  rw [FS.isFile_iff, FS.look_put fs hq]
  exact ⟨c, by simp⟩

theorem FS.put_put (fs : FS) (q : FPath) (a b : FNode) : (fs.put q a).put q b = fs.put q b := by
  simp [FS.put, List.filter_filter]

theorem osWriteFile_ok {c : Str} (hf : φ w.clock = .none) (hf' : φ (w.clock + 1) = .none) (hr : resolve w.cwd p = some q)
    (hp : w.fs.look q.dropLast = some .dir) (h : w.fs.look q ≠ some .dir) :
    osWriteFile p c φ w = ({ w with clock := w.clock + 2, fs := w.fs.put q (.file c) }, .ok ()) := by
  have h1 : osWriteFile p c φ w = osWrite p c φ { w with clock := w.clock + 1, fs := w.fs.put q (.file []) } :=
    Run.bind_ok (m := osCreate p) (f := fun _ => osWrite p c) (osCreate_ok hf hr hp h)
  have h2 := osWrite_ok (w := { w with clock := w.clock + 1, fs := w.fs.put q (.file []) }) (q := q) (c := c) (p := p) hf' hr
    (FS.isFile_put (by rintro rfl; exact h rfl) [])
  rw [h1]
  refine h2.trans ?_
  rw [FS.put_put]

theorem osReadFile_ok {c : Str} (hf : φ w.clock = .none) (hr : resolve w.cwd p = some q) (h : w.fs.look q = some (.file c)) :
    osReadFile p φ w = ({ w with clock := w.clock + 1 }, .ok c) :=
  Run.call_ok hf hr (by simp [reading, FS.readFile, FS.stat, h])

theorem osReadDir_ok (hf : φ w.clock = .none) (hr : resolve w.cwd p = some q) (h : w.fs.look q = some .dir) :
    osReadDir p φ w = ({ w with clock := w.clock + 1 }, .ok (w.fs.children q)) :=
  Run.call_ok hf hr (by simp [reading, FS.readDir, FS.stat, h])

theorem osRemoveAll_ok {n : FNode} (hf : φ w.clock = .none) (hr : resolve w.cwd p = some q) (hd : p ≠ c!".") (h : w.fs.look q = some n) :
    osRemoveAll p φ w = ({ w with clock := w.clock + 1, fs := w.fs.del q }, .ok ()) := by
  have hp : p ≠ [] := by rintro rfl; simp [resolve] at hr
  unfold osRemoveAll
  simp only [hp, hd, if_false]
  exact Run.call_ok hf hr (by simp [writing, FS.removeAll, FS.stat, h])

end

section
variable {σ : Type} {φ : Faults} {w w' : World σ} {p : Str}

theorem osCreate_inv (h : osCreate p φ w = (w', .ok ())) :
    ∃ q, resolve w.cwd p = some q ∧ q ≠ [] ∧ w' = { w with clock := w.clock + 1, fs := w.fs.put q (.file []) } := by
  obtain ⟨q, fs', _, hr, h2, rfl⟩ := Run.call_inv h
  obtain ⟨h3, rfl⟩ := FS.create_ok (writing_ok h2)
  exact ⟨q, hr, h3, rfl⟩

theorem osWrite_inv {c : Str} (h : osWrite p c φ w = (w', .ok ())) :
    ∃ q, resolve w.cwd p = some q ∧ w' = { w with clock := w.clock + 1, fs := w.fs.write q c } := by
  obtain ⟨q, fs', _, hr, h2, rfl⟩ := Run.call_inv h
  cases h2
  exact ⟨q, hr, rfl⟩

theorem osWriteFile_inv {c : Str} (h : osWriteFile p c φ w = (w', .ok ())) :
    ∃ q, resolve w.cwd p = some q ∧ q ≠ [] ∧ w' = { w with clock := w.clock + 2, fs := w.fs.put q (.file c) } := by
  obtain ⟨w1, _, h1, h2⟩ := Run.bind_inv (m := osCreate p) (f := fun _ => osWrite p c) h
  obtain ⟨q, hr, hq, rfl⟩ := osCreate_inv h1
  obtain ⟨q', hr', rfl⟩ := osWrite_inv h2
  have : q' = q := by rw [show resolve w.cwd p = some q' from hr'] at hr; exact Option.some.inj hr
  subst this
  refine ⟨q', hr, hq, ?_⟩
  simp only [FS.write_file (FS.isFile_put hq []), FS.put_put]

end

/-- Reading the process's service. -/
theorem getSvc_ok (φ : Faults) (w : World Proc) : getSvc φ w = (w, .ok w.st.svc) := rfl

theorem modifySvc_ok (f : Service → Service) (φ : Faults) (w : World Proc) :
    modifySvc f φ w = ({ w with st := { w.st with svc := f w.st.svc } }, .ok ()) := rfl

theorem logEvent_ok (e : Event) (φ : Faults) (w : World Proc) :
    logEvent e φ w = ({ w with st := { w.st with log := w.st.log ++ [e] } }, .ok ()) := rfl

theorem getCell_ok (loc : Nat) (φ : Faults) (w : World Proc) : getCell loc φ w = (w, .ok (w.st.svc.cells.getD loc [])) := rfl

theorem pure_ok {σ α : Type} (a : α) (φ : Faults) (w : World σ) : (pure a : Run σ α) φ w = (w, .ok a) := rfl

end Astra
