/-
What programs keep whatever fails: the rules for the calls of package os.
-/
import Verif.Lemmas.Exec

namespace Astra

/-- A fixed working directory, a property of the process state and a property of the file tree. -/
def Inv {σ : Type} (c : FPath) (S : σ → Prop) (P : FS → Prop) (w : World σ) : Prop := w.cwd = c ∧ S w.st ∧ P w.fs

/-- Nothing is known about the result. -/
def anyVal {α : Type} (_ : α) : Prop := True

open Run

section
variable {σ : Type} {c : FPath} {S : σ → Prop} {P : FS → Prop} {p : Str}

theorem Inv.clock {w : World σ} (n : Nat) (h : Inv c S P w) : Inv c S P { w with clock := n } := h

theorem keeps_reading {α : Type} {f : FS → FPath → Except Errno α} {A : α → Prop}
    (h : ∀ fs q a, P fs → resolve c p = some q → f fs q = .ok a → A a) : Keeps (Inv c S P) A (Run.call p (reading f) atomicPart : Run σ α) := by
  apply Keeps.call
  · exact fun w n h => h.clock n
  · rintro w q fs' a ⟨h1, h2, h3⟩ hr hf
    obtain ⟨rfl, hf'⟩ := reading_ok hf
    exact ⟨⟨h1, h2, h3⟩, h _ q a h3 (h1 ▸ hr) hf'⟩
  · exact fun w q n keep r h _ _ => h

theorem keeps_stat {A : FNode → Prop} (h : ∀ fs q n, P fs → resolve c p = some q → fs.look q = some n → A n) :
    Keeps (Inv c S P) A (osStat p : Run σ FNode) :=
  keeps_reading (fun fs q a hp hr hf => h fs q a hp hr (by
    unfold FS.stat at hf
    cases hl : fs.look q with
    | none => rw [hl] at hf; cases hf
    | some n => rw [hl] at hf; cases hf; rfl))

theorem keeps_readFile {A : Str → Prop} (h : ∀ fs q t, P fs → resolve c p = some q → fs.look q = some (.file t) → A t) :
    Keeps (Inv c S P) A (osReadFile p : Run σ Str) :=
  keeps_reading (fun fs q a hp hr hf => h fs q a hp hr (by
    unfold FS.readFile FS.stat at hf
    cases hl : fs.look q with
    | none => rw [hl] at hf; cases hf
    | some n => rw [hl] at hf; cases n <;> cases hf; rfl))

theorem keeps_readDir {A : List Str → Prop} (h : ∀ fs q, P fs → resolve c p = some q → fs.look q = some .dir → A (fs.children q)) :
    Keeps (Inv c S P) A (osReadDir p : Run σ (List Str)) :=
  keeps_reading (fun fs q a hp hr hf => by
    unfold FS.readDir FS.stat at hf
    cases hl : fs.look q with
    | none => rw [hl] at hf; cases hf
    | some n => rw [hl] at hf; cases n <;> cases hf; exact h fs q hp hr hl)

theorem keeps_mkdir (h : ∀ fs q, P fs → resolve c p = some q → q ≠ [] → fs.look q = none →
    fs.look q.dropLast = some .dir → P (fs.put q .dir)) :
    Keeps (Inv c S P) anyVal (osMkdir p : Run σ Unit) := by
  apply Keeps.call
  · exact fun w n h => h.clock n
  · rintro w q fs' a ⟨h1, h2, h3⟩ hr hf
    obtain ⟨h4, h5, rfl⟩ := FS.mkdir_ok (writing_ok hf)
    exact ⟨⟨h1, h2, h w.fs q h3 (h1 ▸ hr) h4 h5 (FS.mkdir_parent (writing_ok hf))⟩, trivial⟩
  · exact fun w q n keep r h _ _ => h

theorem keeps_create (h : ∀ fs q, P fs → resolve c p = some q → q ≠ [] → fs.look q.dropLast = some .dir →
    fs.look q ≠ some .dir → P (fs.put q (.file []))) :
    Keeps (Inv c S P) anyVal (osCreate p : Run σ Unit) := by
  apply Keeps.call
  · exact fun w n h => h.clock n
  · rintro w q fs' a ⟨h1, h2, h3⟩ hr hf
    obtain ⟨h4, rfl⟩ := FS.create_ok (writing_ok hf)
    exact ⟨⟨h1, h2, h w.fs q h3 (h1 ▸ hr) h4 (FS.create_parent (writing_ok hf)).1 (FS.create_parent (writing_ok hf)).2⟩, trivial⟩
  · exact fun w q n keep r h _ _ => h

theorem keeps_write {t : Str} (h : ∀ fs q n, P fs → resolve c p = some q → fs.isFile q = true → P (fs.put q (.file (t.take n)))) :
    Keeps (Inv c S P) anyVal (osWrite p t : Run σ Unit) := by
  have h' : ∀ fs q n, P fs → resolve c p = some q → P (fs.write q (t.take n)) := by
    intro fs q n hp hr
    unfold FS.write
    split
    · rename_i hf; exact h fs q n hp hr hf
    · exact hp
  apply Keeps.call
  · exact fun w n h => h.clock n
  · rintro w q fs' a ⟨h1, h2, h3⟩ hr hf
    cases hf
    have := h' w.fs q t.length h3 (h1 ▸ hr)
    rw [List.take_length] at this
    exact ⟨⟨h1, h2, this⟩, trivial⟩
  · rintro w q n keep r ⟨h1, h2, h3⟩ hr _
    exact ⟨h1, h2, h' w.fs q n h3 (h1 ▸ hr)⟩

theorem keeps_writeFile {t : Str}
    (h : ∀ fs q, P fs → resolve c p = some q → q ≠ [] → fs.look q.dropLast = some .dir → fs.look q ≠ some .dir → P (fs.put q (.file [])))
    (h' : ∀ fs q n, P fs → resolve c p = some q → fs.isFile q = true → P (fs.put q (.file (t.take n)))) :
    Keeps (Inv c S P) anyVal (osWriteFile p t : Run σ Unit) :=
  Keeps.bind (m := osCreate p) (f := fun _ => osWrite p t) (keeps_create h) (fun _ _ => keeps_write h')

theorem keeps_mkdirAll (h : ∀ fs q n, P fs → resolve c p = some q → (ancestors q).any fs.isFile = false → P (fs.mkdirs ((ancestors q).take n))) :
    Keeps (Inv c S P) anyVal (osMkdirAll p : Run σ Unit) := by
  apply Keeps.call
  · exact fun w n h => h.clock n
  · rintro w q fs' a ⟨h1, h2, h3⟩ hr hf
    have hf := writing_ok hf
    unfold FS.mkdirAll at hf
    split at hf
    · cases hf
    · rename_i hn
      cases hf
      have := h w.fs q (ancestors q).length h3 (h1 ▸ hr) (by simpa using hn)
      rw [List.take_length] at this
      exact ⟨⟨h1, h2, this⟩, trivial⟩
  · rintro w q n keep ⟨fs', u⟩ ⟨h1, h2, h3⟩ hr hf
    refine ⟨h1, h2, h w.fs q n h3 (h1 ▸ hr) ?_⟩
    have hf := writing_ok hf
    unfold FS.mkdirAll at hf
    split at hf
    · cases hf
    · rename_i hn; simpa using hn

theorem keeps_removeAll (h : ∀ fs q, P fs → resolve c p = some q → P (fs.del q) ∧ ∀ keep, P (fs.delPart keep q)) :
    Keeps (Inv c S P) anyVal (osRemoveAll p : Run σ Unit) := by
  unfold osRemoveAll
  split
  · exact Keeps.pure trivial
  · split
    · exact Keeps.throw _
    · apply Keeps.call
      · exact fun w n h => h.clock n
      · rintro w q fs' a ⟨h1, h2, h3⟩ hr hf
        have hf := writing_ok hf
        have hh := h w.fs q h3 (h1 ▸ hr)
        rcases FS.removeAll_ok hf with rfl | ⟨rfl, hn⟩
        · exact ⟨⟨h1, h2, hh.1⟩, trivial⟩
        · exact ⟨⟨h1, h2, h3⟩, trivial⟩
      · rintro w q n keep r ⟨h1, h2, h3⟩ hr hf
        exact ⟨h1, h2, (h w.fs q h3 (h1 ▸ hr)).2 keep⟩

theorem keeps_rename {a b : Str} (h : ∀ fs qa qb, P fs → resolve c a = some qa → resolve c b = some qb → fs.look qa ≠ none → qb ≠ [] →
    ¬ qa <+: qb → fs.look qb.dropLast = some .dir → P (fs.move qa qb)) : Keeps (Inv c S P) anyVal (osRename a b : Run σ Unit) := by
  intro φ w hw
  unfold osRename
  cases hb : resolve w.cwd b with
  | none => exact ⟨hw.clock _, fun _ _ => trivial⟩
  | some qb =>
    simp only
    have : Keeps (Inv c S P) anyVal (Run.call a (writing (fun fs q => fs.rename q qb)) atomicPart : Run σ Unit) := by
      apply Keeps.call
      · exact fun w n h => h.clock n
      · rintro w' q fs' u ⟨h1, h2, h3⟩ hr hf
        obtain ⟨h4, h5, h6, rfl⟩ := FS.rename_ok (writing_ok hf)
        exact ⟨⟨h1, h2, h w'.fs q qb h3 (h1 ▸ hr) (hw.1 ▸ hb) h4 h5 h6 (FS.rename_parent (writing_ok hf))⟩, trivial⟩
      · exact fun w q n keep r h _ _ => h
    exact this φ w hw

end

section
variable {c : FPath} {S : Proc → Prop} {P : FS → Prop}

theorem keeps_getSvc {A : Service → Prop} (h : ∀ p : Proc, S p → A p.svc) : Keeps (Inv c S P) A getSvc :=
  Keeps.bind (A := fun p => S p) (Keeps.get (fun _ hw => hw.2.1)) (fun p hp => Keeps.pure (h p hp))

theorem keeps_modifySvc {f : Service → Service} (h : ∀ p : Proc, S p → S { p with svc := f p.svc }) : Keeps (Inv c S P) anyVal (modifySvc f) :=
  Keeps.modify (fun _ hw => ⟨hw.1, h _ hw.2.1, hw.2.2⟩) trivial

theorem keeps_logEvent {e : Event} (h : ∀ p : Proc, S p → S { p with log := p.log ++ [e] }) : Keeps (Inv c S P) anyVal (logEvent e) :=
  Keeps.modify (fun _ hw => ⟨hw.1, h _ hw.2.1, hw.2.2⟩) trivial

theorem Keeps.seq {I : World Proc → Prop} {α β : Type} {A : α → Prop} {B : β → Prop} {m : Prg α} {f : α → Prg β} (hm : Keeps I A m)
    (hf : ∀ a, Keeps I B (f a)) : Keeps I B (m >>= f) := Keeps.bind hm (fun a _ => hf a)

theorem Keeps.try' {I : World Proc → Prop} {α : Type} {A : α → Prop} {m : Prg α} (h : Keeps I A m) :
    Keeps I anyVal (Run.try_ m) := (Keeps.try_ h).weaken (fun _ _ => trivial)

end

end Astra
