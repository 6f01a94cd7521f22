/-
Lemmas about the file tree and about programs on it.
-/
import Verif.Model.FS
import Verif.Lemmas.GoPath

namespace Astra

/-! ### The file tree -/

theorem FS.get_filter {fs : FS} {p : FPath} (f : FPath × FNode → Bool) (h : ∀ e ∈ fs, e.1 = p → f e = true) :
    FS.get (fs.filter f) p = FS.get fs p := by
  induction fs with
  | nil => rfl
  | cons e fs ih =>
    have ih := ih (fun a ha => h a (by simp [ha]))
    by_cases he : e.1 = p
    · have := h e (by simp) he
      simp [this, FS.get, he]
    · simp only [List.filter_cons]
      split
      · simp only [FS.get, he, if_false]; exact ih
      · simp only [FS.get, he, if_false]; exact ih

theorem FS.get_filter_none {fs : FS} {p : FPath} (f : FPath × FNode → Bool) (h : ∀ e ∈ fs, e.1 = p → f e = false) :
    FS.get (fs.filter f) p = none := by
  induction fs with
  | nil => rfl
  | cons e fs ih =>
    have ih := ih (fun a ha => h a (by simp [ha]))
    by_cases he : e.1 = p
    · have := h e (by simp) he
      simp [this, ih]
    · simp only [List.filter_cons]
      split
      · simp only [FS.get, he, if_false]; exact ih
      · exact ih

theorem FS.get_some_mem {fs : FS} {p : FPath} {n : FNode} (h : fs.get p = some n) : (p, n) ∈ fs := by
  induction fs with
  | nil => simp [FS.get] at h
  | cons e fs ih =>
    simp only [FS.get] at h
    split at h
    · rename_i he
      obtain ⟨a, b⟩ := e
      simp only at he h
      cases h; subst he; simp
    · exact List.mem_cons_of_mem _ (ih h)

theorem FS.get_ne_none_of_mem {fs : FS} {e : FPath × FNode} (h : e ∈ fs) : fs.get e.1 ≠ none := by
  induction fs with
  | nil => cases h
  | cons a fs ih =>
    simp only [FS.get]
    split
    · simp
    · rename_i hne
      rcases List.mem_cons.mp h with rfl | h
      · exact absurd rfl hne
      · exact ih h

theorem FS.get_append (fs fs' : FS) (p : FPath) : FS.get (fs ++ fs') p = (fs.get p).or (fs'.get p) := by
  induction fs with
  | nil => rfl
  | cons e fs ih =>
    simp only [List.cons_append, FS.get]
    split
    · rfl
    · exact ih

@[simp] theorem FS.look_root (fs : FS) : fs.look [] = some .dir := rfl

theorem FS.look_put (fs : FS) {p : FPath} (hp : p ≠ []) (n : FNode) (q : FPath) :
    (fs.put p n).look q = if q = p then some n else fs.look q := by
  unfold FS.look FS.put
  by_cases hq : q = []
  · subst hq; simp [Ne.symm hp]
  · simp only [hq, if_false, FS.get]
    by_cases h : p = q
    · simp [h]
    · simp only [h, if_false, if_neg (Ne.symm h)]
      exact FS.get_filter _ (fun e _ he => by simp [he]; exact fun e' => h e'.symm)

theorem FS.look_del (fs : FS) (p q : FPath) : (fs.del p).look q = if p <+: q ∧ q ≠ [] then none else fs.look q := by
  unfold FS.look FS.del
  by_cases hq : q = []
  · simp [hq]
  · simp only [hq, if_false, ne_eq, not_false_eq_true, and_true]
    split
    · rename_i h
      exact FS.get_filter_none _ (fun e _ he => by simp [he, h])
    · rename_i h
      have h' : p.isPrefixOf q = false := by rw [← Bool.not_eq_true, List.isPrefixOf_iff_prefix]; exact h
      exact FS.get_filter _ (fun e _ he => by simp [he, h'])

theorem FS.look_delPart_outside (keep : FPath → Bool) (fs : FS) (p q : FPath) (h : ¬ p <+: q) : (fs.delPart keep p).look q = fs.look q := by
  unfold FS.look FS.delPart
  by_cases hq : q = []
  · simp [hq]
  · simp only [hq, if_false]
    have h' : p.isPrefixOf q = false := by rw [← Bool.not_eq_true, List.isPrefixOf_iff_prefix]; exact h
    exact FS.get_filter _ (fun e _ he => by simp [he, h'])

theorem FS.look_delPart (keep : FPath → Bool) (fs : FS) (p q : FPath) :
    (fs.delPart keep p).look q = fs.look q ∨ (fs.delPart keep p).look q = none := by
  unfold FS.look FS.delPart
  by_cases hq : q = []
  · simp [hq]
  · simp only [hq, if_false]
    cases hk : (!p.isPrefixOf q || fs.any (fun e' => q.isPrefixOf e'.1 && keep e'.1)) with
    | true => exact Or.inl (FS.get_filter _ (fun e _ he => by simp only [he]; exact hk))
    | false => exact Or.inr (FS.get_filter_none _ (fun e _ he => by simp only [he]; exact hk))

/-- The new place of an entry that moves. -/
def movedEntry (a b : FPath) (e : FPath × FNode) : Option (FPath × FNode) :=
  if a.isPrefixOf e.1 then some (b ++ e.1.drop a.length, e.2) else none

theorem FS.get_cons (e : FPath × FNode) (fs : FS) (p : FPath) : FS.get (e :: fs) p = if e.1 = p then some e.2 else FS.get fs p := rfl

theorem FS.get_move_map (fs : FS) (a b q : FPath) :
    FS.get (fs.filterMap (movedEntry a b)) q = if b <+: q then fs.get (a ++ q.drop b.length) else none := by
  induction fs with
  | nil => simp [FS.get]
  | cons e fs ih =>
    by_cases ha : a <+: e.1
    · have h1 : movedEntry a b e = some (b ++ e.1.drop a.length, e.2) := by simp [movedEntry, ha]
      obtain ⟨t, ht⟩ := ha
      rw [List.filterMap_cons_some h1, FS.get_cons, FS.get_cons, ← ht, List.drop_left]
      by_cases hq : b ++ t = q
      · subst hq; simp
      · rw [if_neg hq, ih]
        split
        · rename_i hb
          obtain ⟨u, rfl⟩ := hb
          rw [List.drop_left, if_neg]
          intro h; exact hq (by rw [List.append_cancel_left h])
        · rfl
    · have h1 : movedEntry a b e = none := by simp [movedEntry, ha]
      rw [List.filterMap_cons_none h1, FS.get_cons, ih]
      split
      · rw [if_neg (fun h => ha ⟨_, h.symm⟩)]
      · rfl

theorem FS.look_move (fs : FS) {a b : FPath} (ha : a ≠ []) (hb : b ≠ []) (q : FPath) :
    (fs.move a b).look q = if b <+: q then fs.look (a ++ q.drop b.length) else if a <+: q then none else fs.look q := by
  by_cases hq : q = []
  · subst hq
    simp [hb, ha]
  · have h1 : ∀ fs : FS, fs.look q = fs.get q := fun fs => by simp [FS.look, hq]
    have h2 : fs.look (a ++ q.drop b.length) = fs.get (a ++ q.drop b.length) := by simp [FS.look, ha]
    have h3 : fs.move a b = fs.filterMap (movedEntry a b) ++ (fs.del a).del b := rfl
    rw [h1, h2, h3, FS.get_append, FS.get_move_map]
    have hd : FS.get ((fs.del a).del b) q = if b <+: q then none else if a <+: q then none else fs.get q := by
      rw [← h1, FS.look_del, FS.look_del, ← h1]
      simp [hq]
    rw [hd]
    split
    · cases fs.get (a ++ q.drop b.length) <;> rfl
    · rw [h1]; rfl

/-! ### Programs -/

namespace Run

/-- The result of `m` satisfies `Q`. -/
def wp {σ α : Type} (m : Run σ α) (Q : Exit α → World σ → Prop) (φ : Faults) (w : World σ) : Prop := Q (m φ w).2 (m φ w).1

/-- What a continuation must establish. -/
def After {σ α β : Type} (f : α → Run σ β) (Q : Exit β → World σ → Prop) (φ : Faults) : Exit α → World σ → Prop
  | .ok a, w => wp (f a) Q φ w
  | .err e, w => Q (.err e) w
  | .panic, w => Q .panic w
  | .crash, w => Q .crash w

theorem wp_bind' {σ α β : Type} (m : Run σ α) (f : α → Run σ β) (Q : Exit β → World σ → Prop) (φ : Faults) (w : World σ) :
    wp (Run.bind m f) Q φ w ↔ wp m (After f Q φ) φ w := by
  unfold wp Run.bind
  cases h : m φ w with
  | mk w' x => cases x <;> simp only [After, wp]

theorem wp_bind {σ α β : Type} (m : Run σ α) (f : α → Run σ β) (Q : Exit β → World σ → Prop) (φ : Faults) (w : World σ) :
    wp (m >>= f) Q φ w ↔ wp m (After f Q φ) φ w := wp_bind' m f Q φ w

theorem wp_pure {σ α : Type} (a : α) (Q : Exit α → World σ → Prop) (φ : Faults) (w : World σ) :
    wp (Pure.pure a : Run σ α) Q φ w ↔ Q (.ok a) w := Iff.rfl

theorem wp_pure' {σ α : Type} (a : α) (Q : Exit α → World σ → Prop) (φ : Faults) (w : World σ) :
    wp (Run.pure a : Run σ α) Q φ w ↔ Q (.ok a) w := Iff.rfl

theorem wp_throw {σ α : Type} (e : Err) (Q : Exit α → World σ → Prop) (φ : Faults) (w : World σ) :
    wp (Run.throw e : Run σ α) Q φ w ↔ Q (.err e) w := Iff.rfl

theorem wp_panic {σ α : Type} (Q : Exit α → World σ → Prop) (φ : Faults) (w : World σ) :
    wp (Run.panic : Run σ α) Q φ w ↔ Q .panic w := Iff.rfl

theorem wp_get {σ : Type} (Q : Exit σ → World σ → Prop) (φ : Faults) (w : World σ) :
    wp (Run.get : Run σ σ) Q φ w ↔ Q (.ok w.st) w := Iff.rfl

theorem wp_modify {σ : Type} (f : σ → σ) (Q : Exit Unit → World σ → Prop) (φ : Faults) (w : World σ) :
    wp (Run.modify f) Q φ w ↔ Q (.ok ()) { w with st := f w.st } := Iff.rfl

/-- What follows a caught call. -/
def Caught {σ α : Type} (Q : Exit (Except Err α) → World σ → Prop) : Exit α → World σ → Prop
  | .ok a, w => Q (.ok (.ok a)) w
  | .err e, w => Q (.ok (.error e)) w
  | .panic, w => Q .panic w
  | .crash, w => Q .crash w

theorem wp_try {σ α : Type} (m : Run σ α) (Q : Exit (Except Err α) → World σ → Prop) (φ : Faults) (w : World σ) :
    wp (Run.try_ m) Q φ w ↔ wp m (Caught Q) φ w := by
  unfold wp Run.try_
  cases h : m φ w with
  | mk w' x => cases x <;> simp only [Caught]

theorem wp_mono {σ α : Type} {m : Run σ α} {Q Q' : Exit α → World σ → Prop} {φ : Faults} {w : World σ} (h : wp m Q φ w)
    (hq : ∀ x w', Q x w' → Q' x w') : wp m Q' φ w := hq _ _ h

theorem wp_and {σ α : Type} {m : Run σ α} {Q Q' : Exit α → World σ → Prop} {φ : Faults} {w : World σ} (h : wp m Q φ w) (h' : wp m Q' φ w) :
    wp m (fun x w => Q x w ∧ Q' x w) φ w := ⟨h, h'⟩

/-- The program keeps `I` however it ends, and returns only values with `A`. -/
def Keeps {σ α : Type} (I : World σ → Prop) (A : α → Prop) (m : Run σ α) : Prop :=
  ∀ φ w, I w → I (m φ w).1 ∧ ∀ a, (m φ w).2 = .ok a → A a

theorem Keeps.weaken {σ α : Type} {I : World σ → Prop} {A B : α → Prop} {m : Run σ α} (h : Keeps I A m) (hab : ∀ a, A a → B a) :
    Keeps I B m := fun φ w hw => ⟨(h φ w hw).1, fun a ha => hab a ((h φ w hw).2 a ha)⟩

theorem Keeps.bind {σ α β : Type} {I : World σ → Prop} {A : α → Prop} {B : β → Prop} {m : Run σ α} {f : α → Run σ β} (hm : Keeps I A m)
    (hf : ∀ a, A a → Keeps I B (f a)) : Keeps I B (m >>= f) := by
  intro φ w hw
  have h := hm φ w hw
  have e : (m >>= f) φ w = Run.bind m f φ w := rfl
  rw [e]
  unfold Run.bind
  cases hx : m φ w with
  | mk w' x =>
    rw [hx] at h
    cases x with
    | ok a => exact hf a (h.2 a rfl) φ w' h.1
    | err e => exact ⟨h.1, fun a ha => by cases ha⟩
    | panic => exact ⟨h.1, fun a ha => by cases ha⟩
    | crash => exact ⟨h.1, fun a ha => by cases ha⟩

theorem Keeps.pure {σ α : Type} {I : World σ → Prop} {A : α → Prop} {a : α} (h : A a) : Keeps I A (Pure.pure a : Run σ α) :=
  fun _ _ hw => ⟨hw, fun b hb => by cases hb; exact h⟩

theorem Keeps.throw {σ α : Type} {I : World σ → Prop} {A : α → Prop} (e : Err) : Keeps I A (Run.throw e : Run σ α) :=
  fun _ _ hw => ⟨hw, fun b hb => by cases hb⟩

theorem Keeps.panic {σ α : Type} {I : World σ → Prop} {A : α → Prop} : Keeps I A (Run.panic : Run σ α) :=
  fun _ _ hw => ⟨hw, fun b hb => by cases hb⟩

theorem Keeps.get {σ : Type} {I : World σ → Prop} {A : σ → Prop} (h : ∀ w, I w → A w.st) : Keeps I A (Run.get : Run σ σ) :=
  fun _ w hw => ⟨hw, fun b hb => by cases hb; exact h w hw⟩

theorem Keeps.modify {σ : Type} {I : World σ → Prop} {A : Unit → Prop} {f : σ → σ} (h : ∀ w, I w → I { w with st := f w.st }) (ha : A ()) :
    Keeps I A (Run.modify f) := fun _ w hw => ⟨h w hw, fun _ _ => ha⟩

theorem Keeps.try_ {σ α : Type} {I : World σ → Prop} {A : α → Prop} {m : Run σ α} (h : Keeps I A m) :
    Keeps I (fun r => ∀ a, r = .ok a → A a) (Run.try_ m) := by
  intro φ w hw
  have h := h φ w hw
  unfold Run.try_
  cases hx : m φ w with
  | mk w' x =>
    rw [hx] at h
    cases x with
    | ok a => exact ⟨h.1, fun r hr b hb => by cases hr; cases hb; exact h.2 _ rfl⟩
    | err e => exact ⟨h.1, fun r hr b hb => by cases hr; cases hb⟩
    | panic => exact ⟨h.1, fun r hr => by cases hr⟩
    | crash => exact ⟨h.1, fun r hr => by cases hr⟩

/-- The possible results of a call. -/
theorem wp_call {σ α : Type} {p : Str} {run : FS → FPath → Except Errno (FS × α)} {part : Nat → (FPath → Bool) → FS → FPath → FS}
    {Q : Exit α → World σ → Prop} {φ : Faults} {w : World σ}
    (herr : ∀ e, Q (.err e) { w with clock := w.clock + 1 }) (hcrash : Q .crash { w with clock := w.clock + 1 })
    (hok : ∀ q fs' a, resolve w.cwd p = some q → run w.fs q = .ok (fs', a) → φ w.clock = .none →
      Q (.ok a) { w with clock := w.clock + 1, fs := fs' })
    (hpart : ∀ q n keep r, resolve w.cwd p = some q → run w.fs q = .ok r →
      Q (.err (.errno .io)) { w with clock := w.clock + 1, fs := part n keep w.fs q } ∧
      Q .crash { w with clock := w.clock + 1, fs := part n keep w.fs q }) : wp (call p run part) Q φ w := by
  unfold wp call
  simp only
  cases hr : resolve w.cwd p with
  | none => exact herr _
  | some q =>
    simp only
    cases hrun : run w.fs q with
    | error e => cases φ w.clock <;> first | exact herr _ | exact hcrash
    | ok r =>
      obtain ⟨fs', a⟩ := r
      cases hφ : φ w.clock with
      | none => exact hok q fs' a hr hrun hφ
      | fail n keep => exact (hpart q n keep _ hr hrun).1
      | crash n keep => exact (hpart q n keep _ hr hrun).2

/-- A call keeps what does not depend on the clock, if its effect and its partial effects keep it. -/
theorem Keeps.call {σ α : Type} {I : World σ → Prop} {A : α → Prop} {p : Str} {run : FS → FPath → Except Errno (FS × α)}
    {part : Nat → (FPath → Bool) → FS → FPath → FS} (hclock : ∀ w n, I w → I { w with clock := n })
    (hok : ∀ w q fs' a, I w → resolve w.cwd p = some q → run w.fs q = .ok (fs', a) → I { w with fs := fs' } ∧ A a)
    (hpart : ∀ w q n keep r, I w → resolve w.cwd p = some q → run w.fs q = .ok r → I { w with fs := part n keep w.fs q }) :
    Keeps I A (Run.call p run part : Run σ α) := by
  intro φ w hw
  have : wp (Run.call p run part) (fun x w' => I w' ∧ ∀ a, x = .ok a → A a) φ w := by
    apply wp_call
    · exact fun e => ⟨hclock _ _ hw, fun a ha => by cases ha⟩
    · exact ⟨hclock _ _ hw, fun a ha => by cases ha⟩
    · intro q fs' a h1 h2 _
      have := hok w q fs' a hw h1 h2
      exact ⟨hclock _ _ this.1, fun b hb => by cases hb; exact this.2⟩
    · intro q n keep r h1 h2
      have := hpart w q n keep r hw h1 h2
      exact ⟨⟨hclock _ _ this, fun a ha => by cases ha⟩, ⟨hclock _ _ this, fun a ha => by cases ha⟩⟩
  exact this

end Run

/-! ### Frames of the calls -/

/-- Outside of `S` the trees agree. -/
def SameOutside (S : FPath → Prop) (fs fs' : FS) : Prop := ∀ p, ¬ S p → fs'.look p = fs.look p

theorem SameOutside.refl (S : FPath → Prop) (fs : FS) : SameOutside S fs fs := fun _ _ => rfl

theorem SameOutside.trans {S : FPath → Prop} {a b c : FS} (h : SameOutside S a b) (h' : SameOutside S b c) : SameOutside S a c :=
  fun p hp => (h' p hp).trans (h p hp)

theorem SameOutside.mono {S T : FPath → Prop} {a b : FS} (h : SameOutside S a b) (hst : ∀ p, S p → T p) : SameOutside T a b :=
  fun p hp => h p (fun hs => hp (hst p hs))

theorem SameOutside.put {S : FPath → Prop} {fs : FS} {q : FPath} (hq : q ≠ []) (n : FNode) (h : S q) : SameOutside S fs (fs.put q n) := by
  intro p hp
  rw [FS.look_put fs hq]
  rw [if_neg]
  rintro rfl; exact hp h

theorem SameOutside.del {S : FPath → Prop} {fs : FS} {q : FPath} (h : ∀ p, q <+: p → S p) : SameOutside S fs (fs.del q) := by
  intro p hp
  rw [FS.look_del, if_neg]
  rintro ⟨h1, _⟩; exact hp (h p h1)

theorem SameOutside.delPart {S : FPath → Prop} {fs : FS} {q : FPath} (keep : FPath → Bool) (h : ∀ p, q <+: p → S p) :
    SameOutside S fs (fs.delPart keep q) := by
  intro p hp
  exact FS.look_delPart_outside keep fs q p (fun h1 => hp (h p h1))

theorem FS.create_ok {fs fs' : FS} {q : FPath} (h : fs.create q = .ok fs') : q ≠ [] ∧ fs' = fs.put q (.file []) := by
  unfold FS.create at h
  split at h
  · cases h
  · rename_i hd
    refine ⟨?_, ?_⟩
    · rintro rfl; exact hd rfl
    · split at h
      · cases h
      · cases h; rfl

theorem FS.parent_dir {fs : FS} {q : FPath} {u : Unit} (h : fs.parent q = .ok u) : fs.look q.dropLast = some .dir := by
  unfold FS.parent FS.stat at h
  cases hl : fs.look q.dropLast with
  | none => simp [hl] at h
  | some n => cases n <;> simp [hl] at h; rfl

theorem FS.create_parent {fs fs' : FS} {q : FPath} (h : fs.create q = .ok fs') : fs.look q.dropLast = some .dir ∧ fs.look q ≠ some .dir := by
  unfold FS.create at h
  split at h
  · cases h
  · rename_i hd
    refine ⟨?_, hd⟩
    split at h
    · cases h
    · rename_i hp; exact FS.parent_dir hp

theorem FS.mkdir_parent {fs fs' : FS} {q : FPath} (h : fs.mkdir q = .ok fs') : fs.look q.dropLast = some .dir := by
  unfold FS.mkdir at h
  split at h
  · cases h
  · rename_i hp; exact FS.parent_dir hp

theorem FS.rename_parent {fs fs' : FS} {a b : FPath} (h : fs.rename a b = .ok fs') : fs.look b.dropLast = some .dir := by
  unfold FS.rename at h
  split at h
  · cases h
  · split at h
    · cases h
    · rename_i hp; exact FS.parent_dir hp

theorem FS.isFile_ne_nil {fs : FS} {q : FPath} (h : fs.isFile q = true) : q ≠ [] := by
  rintro rfl
  simp [FS.isFile, FS.look] at h

theorem FS.isFile_iff {fs : FS} {q : FPath} : fs.isFile q = true ↔ ∃ t, fs.look q = some (.file t) := by
  unfold FS.isFile
  cases fs.look q with
  | none => simp
  | some n => cases n <;> simp

theorem FS.mkdir_ok {fs fs' : FS} {q : FPath} (h : fs.mkdir q = .ok fs') : q ≠ [] ∧ fs.look q = none ∧ fs' = fs.put q .dir := by
  unfold FS.mkdir at h
  split at h
  · cases h
  · split at h
    · cases h
    · rename_i hl
      refine ⟨?_, hl, by cases h; rfl⟩
      rintro rfl; simp at hl

theorem FS.removeAll_ok {fs fs' : FS} {q : FPath} (h : fs.removeAll q = .ok fs') : fs' = fs.del q ∨ (fs' = fs ∧ fs.look q = none) := by
  unfold FS.removeAll FS.stat at h
  cases hl : fs.look q with
  | some n => simp [hl] at h; exact Or.inl h.symm
  | none =>
    simp only [hl] at h
    cases ha : fs.absent q <;> simp [ha] at h
    exact Or.inr ⟨h.symm, rfl⟩

theorem FS.rename_ok {fs fs' : FS} {a b : FPath} (h : fs.rename a b = .ok fs') : fs.look a ≠ none ∧ b ≠ [] ∧ ¬ a <+: b ∧
    fs' = fs.move a b := by
  unfold FS.rename FS.stat at h
  cases ha : fs.look a with
  | none => simp [ha] at h
  | some na =>
    simp only [ha] at h
    cases hp : fs.parent b with
    | error e => simp [hp] at h
    | ok u =>
      simp only [hp] at h
      split at h
      · cases h
      · cases h
      · rename_i hx hy
        split at h
        · cases h
        · rename_i hpre
          refine ⟨by simp, ?_, ?_, by cases h; rfl⟩
          · rintro rfl; first | exact hx rfl | exact hx _ rfl | exact hy _ rfl | simp at *
          · simpa using hpre

theorem reading_ok {α : Type} {f : FS → FPath → Except Errno α} {fs fs' : FS} {q : FPath} {a : α} (h : reading f fs q = .ok (fs', a)) :
    fs' = fs ∧ f fs q = .ok a := by
  unfold reading at h
  cases hf : f fs q with
  | error e => simp [hf] at h
  | ok b => simp [hf] at h; exact ⟨h.1.symm, by rw [h.2]⟩

theorem writing_ok {f : FS → FPath → Except Errno FS} {fs fs' : FS} {q : FPath} {u : Unit} (h : writing f fs q = .ok (fs', u)) :
    f fs q = .ok fs' := by
  unfold writing at h
  cases hf : f fs q with
  | error e => simp [hf] at h
  | ok b => simp [hf] at h; rw [h]

theorem SameOutside.mkdirs {S : FPath → Prop} {fs : FS} {qs : List FPath} (h : ∀ q ∈ qs, fs.look q ≠ none ∨ S q) :
    SameOutside S fs (fs.mkdirs qs) := by
  induction qs generalizing fs with
  | nil => exact .refl S fs
  | cons q qs ih =>
    unfold FS.mkdirs
    cases hl : fs.look q with
    | some n => exact ih (fun r hr => h r (by simp [hr]))
    | none =>
      have hq : q ≠ [] := by rintro rfl; simp at hl
      have hs : S q := (h q (by simp)).resolve_left (by simp [hl])
      refine (SameOutside.put hq .dir hs).trans (ih (fun r hr => ?_))
      rw [FS.look_put fs hq]
      split
      · simp
      · exact h r (by simp [hr])

end Astra
