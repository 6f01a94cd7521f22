/-
Two runs side by side: file trees that agree except at and below one place, and programs that do the same on them.
-/
import Verif.Lemmas.Tree
import Verif.Lemmas.Exec
import Verif.Lemmas.Keeps

namespace Astra
open Spec Run

/-- The place `a` of a cache, for a project in `d`: a .json file that is not above or at `d/.astra` and not in the temporary main package. -/
structure Apart (d a : FPath) : Prop where
  json : ∃ dir n, a = dir ++ [n] ∧ c!".json" <:+ n ∧ '/' ∉ n
  above : ¬ a <+: d ++ [c!".astra"]
  main : ¬ d ++ [c!".astra", c!"astramain"] <+: a

/-- The trees agree except at and below `a`; if `b`, `d/.astra` is a directory; names in `d` are names; the directory of `a` is there, or above `d/.astra`. -/
structure Twin (a d : FPath) (b : Bool) (fs1 fs2 : FS) : Prop where
  same : SameOutside (a <+: ·) fs1 fs2
  astra : b = true → fs1.look (d ++ [c!".astra"]) = some .dir
  names : ∀ n, fs1.look (d ++ [n]) ≠ none → '/' ∉ n
  spot : fs1.look a.dropLast = some .dir ∨ b = false ∧ a.dropLast <+: d ++ [c!".astra"]

/-- The place is not in the part in which the trees may differ. -/
abbrev Off (a q : FPath) : Prop := ¬ a <+: q

theorem off_prefix {a q r : FPath} (h : Off a q) (hr : r <+: q) : Off a r := fun hh => h (hh.trans hr)

theorem prefix_snoc {a l : FPath} {x : Str} (h : a <+: l ++ [x]) : a <+: l ∨ a = l ++ [x] := by
  rcases List.prefix_concat_iff.mp h with h | h
  · exact Or.inr h
  · exact Or.inl h

section
variable {d a : FPath} (ap : Apart d a)
include ap

theorem Apart.ne : a ≠ [] := by
  obtain ⟨dir, n, rfl, _⟩ := ap.json
  simp

theorem Apart.off_dir : Off a a.dropLast := by
  intro h
  have := h.length_le
  rw [List.length_dropLast] at this
  have := List.length_pos_iff.2 ap.ne
  omega

theorem Apart.off_astra : Off a (d ++ [c!".astra"]) := ap.above

theorem Apart.off_d : Off a d := off_prefix ap.above (List.prefix_append d _)

theorem Apart.ne_snoc {l : FPath} {n : Str} (hn : ¬ c!".json" <:+ n) : a ≠ l ++ [n] := by
  obtain ⟨dir, m, h, hm, _⟩ := ap.json
  rintro rfl
  obtain ⟨_, e⟩ := List.append_inj' h rfl
  simp at e
  subst e
  exact hn hm

theorem Apart.off_snoc {l : FPath} {n : Str} (h : Off a l) (hn : ¬ c!".json" <:+ n) : Off a (l ++ [n]) := by
  intro hh
  rcases prefix_snoc hh with hh | hh
  · exact h hh
  · exact ap.ne_snoc hn hh

/-- A file of the project other than the cache. -/
theorem Apart.off_file {n : Str} (hn : ¬ c!".json" <:+ n) : Off a (d ++ [n]) := ap.off_snoc ap.off_d hn

theorem Apart.off_in_astra {n : Str} (hn : ¬ c!".json" <:+ n) : Off a (d ++ [c!".astra", n]) := by
  have := ap.off_snoc ap.above hn
  rwa [List.append_assoc] at this

theorem Apart.off_main : Off a (d ++ [c!".astra", c!"astramain"]) := ap.off_in_astra (by decide)

theorem Apart.off_in_main (n : Str) : Off a (d ++ [c!".astra", c!"astramain"] ++ [n]) := by
  intro hh
  rcases prefix_snoc hh with hh | hh
  · exact ap.off_main hh
  · exact ap.main (by rw [hh]; exact List.prefix_append _ _)

theorem Apart.main_not_dir : ¬ d ++ [c!".astra", c!"astramain"] <+: a.dropLast := fun h => ap.main (h.trans (List.dropLast_prefix a))

end

/-- The default place of the cache. -/
theorem apart_default (d : FPath) : Apart d (d ++ [c!".astra", c!"cache.json"]) where
  json := ⟨d ++ [c!".astra"], c!"cache.json", by simp, by decide, by decide⟩
  above := by
    intro h
    have := h.length_le
    simp at this
  main := by
    rw [List.prefix_append_right_inj]
    decide

section
variable {a d q : FPath} {b : Bool} {fs1 fs2 : FS}

theorem Twin.look (h : Twin a d b fs1 fs2) (hq : Off a q) : fs2.look q = fs1.look q := h.same q hq

theorem Twin.isFile (h : Twin a d b fs1 fs2) (hq : Off a q) : fs2.isFile q = fs1.isFile q := by
  unfold FS.isFile
  rw [h.look hq]

theorem any_congr' {α : Type} {l : List α} {f g : α → Bool} (h : ∀ x ∈ l, f x = g x) : l.any f = l.any g := by
  induction l with
  | nil => rfl
  | cons x l ih =>
    simp only [List.any_cons]
    rw [h x (by simp), ih (fun y hy => h y (by simp [hy]))]

theorem Twin.absent (h : Twin a d b fs1 fs2) (hq : Off a q) : fs2.absent q = fs1.absent q := by
  unfold FS.absent
  rw [any_congr' (fun k _ => h.isFile (off_prefix hq (List.take_prefix k q)))]

theorem Twin.stat (h : Twin a d b fs1 fs2) (hq : Off a q) : fs2.stat q = fs1.stat q := by
  unfold FS.stat
  rw [h.look hq, h.absent hq]

theorem Twin.parent (h : Twin a d b fs1 fs2) (hq : Off a q) : fs2.parent q = fs1.parent q := by
  unfold FS.parent
  rw [h.stat (off_prefix hq (List.dropLast_prefix q))]

theorem Twin.readFile (h : Twin a d b fs1 fs2) (hq : Off a q) : fs2.readFile q = fs1.readFile q := by
  unfold FS.readFile
  rw [h.stat hq]

theorem Twin.put (h : Twin a d b fs1 fs2) {n : FNode} (hq : q ≠ []) (hd : fs1.look q ≠ some .dir) (hn : ∀ x ∈ q, '/' ∉ x) :
    Twin a d b (fs1.put q n) (fs2.put q n) where
  same := by
    intro r hr
    rw [FS.look_put _ hq, FS.look_put _ hq, h.same r hr]
  astra := by
    intro hb
    rw [FS.look_put _ hq, if_neg (by rintro rfl; exact hd (h.astra hb))]
    exact h.astra hb
  names := by
    intro m hm
    rw [FS.look_put _ hq] at hm
    split at hm
    · rename_i e
      exact hn m (by rw [← e]; simp)
    · exact h.names m hm
  spot := by
    rcases h.spot with h' | h'
    · left
      rw [FS.look_put _ hq, if_neg (by rintro rfl; exact hd h')]
      exact h'
    · exact Or.inr h'

theorem Twin.del (h : Twin a d b fs1 fs2) (hq : ¬ q <+: d ++ [c!".astra"]) (hs : ¬ q <+: a.dropLast) : Twin a d b (fs1.del q) (fs2.del q) where
  same := by
    intro r hr
    rw [FS.look_del, FS.look_del, h.same r hr]
  astra := by
    intro hb
    rw [FS.look_del, if_neg (fun hh => hq hh.1)]
    exact h.astra hb
  names := by
    intro m hm
    rw [FS.look_del] at hm
    split at hm
    · exact absurd rfl hm
    · exact h.names m hm
  spot := by
    rcases h.spot with h' | h'
    · left
      rw [FS.look_del, if_neg (fun hh => hs hh.1)]
      exact h'
    · exact Or.inr h'

end

/-- The results of a call on both sides. -/
inductive SameResult {α : Type} (T : FS → FS → Prop) (A : α → Prop) : Except Errno (FS × α) → Except Errno (FS × α) → Prop
  | ok {fs1 fs2 : FS} {a : α} : T fs1 fs2 → A a → SameResult T A (.ok (fs1, a)) (.ok (fs2, a))
  | error (e : Errno) : SameResult T A (.error e) (.error e)

/-- The worlds of two runs side by side. -/
structure Linked (a c d : FPath) (b : Bool) (St : Proc → Proc → Prop) (w1 w2 : World Proc) : Prop where
  cwd1 : w1.cwd = c
  cwd2 : w2.cwd = c
  twin : Twin a d b w1.fs w2.fs
  st : St w1.st w2.st

/-- The programs end in the same way, and leave trees that still agree; after a success, the worlds are linked again. -/
def Sim (a c d : FPath) (b : Bool) (St : Proc → Proc → Prop) (b' : Bool) (St' : Proc → Proc → Prop) {α : Type} (A : α → Prop) (m1 m2 : Prg α) : Prop :=
  ∀ w1 w2, Linked a c d b St w1 w2 →
    (m2 noFaults w2).2 = (m1 noFaults w1).2 ∧
    SameOutside (a <+: ·) (m1 noFaults w1).1.fs (m2 noFaults w2).1.fs ∧
    ∀ r, (m1 noFaults w1).2 = .ok r → A r ∧ Linked a c d b' St' (m1 noFaults w1).1 (m2 noFaults w2).1

section
variable {a c d : FPath} {b b' b'' : Bool} {St St' St'' : Proc → Proc → Prop}

theorem Sim.bind {α β : Type} {A : α → Prop} {B : β → Prop} {m1 m2 : Prg α} {f1 f2 : α → Prg β} (hm : Sim a c d b St b' St' A m1 m2)
    (hf : ∀ r, A r → Sim a c d b' St' b'' St'' B (f1 r) (f2 r)) : Sim a c d b St b'' St'' B (m1 >>= f1) (m2 >>= f2) := by
  intro w1 w2 h
  obtain ⟨h1, h2, h3⟩ := hm w1 w2 h
  cases e1 : m1 noFaults w1 with
  | mk v1 x1 =>
    cases e2 : m2 noFaults w2 with
    | mk v2 x2 =>
      rw [e1, e2] at h1 h2 h3
      simp only at h1 h2 h3
      subst h1
      cases x2 with
      | ok a =>
        rw [Run.bind_ok e1, Run.bind_ok e2]
        obtain ⟨ha, hl⟩ := h3 a rfl
        exact hf a ha v1 v2 hl
      | err e =>
        rw [Run.bind_err e1, Run.bind_err e2]
        exact ⟨rfl, h2, fun a ha => by cases ha⟩
      | panic =>
        rw [Run.bind_panic e1, Run.bind_panic e2]
        exact ⟨rfl, h2, fun a ha => by cases ha⟩
      | crash =>
        rw [Run.bind_crash e1, Run.bind_crash e2]
        exact ⟨rfl, h2, fun a ha => by cases ha⟩

theorem Sim.pure {α : Type} {A : α → Prop} {r : α} (hr : A r) : Sim a c d b St b St A (Pure.pure r : Prg α) (Pure.pure r : Prg α) :=
  fun _ _ h => ⟨rfl, h.twin.same, fun x hx => by cases hx; exact ⟨hr, h⟩⟩

theorem Sim.throw {α : Type} {A : α → Prop} (e : Err) : Sim a c d b St b' St' A (Run.throw e : Prg α) (Run.throw e : Prg α) :=
  fun _ _ h => ⟨rfl, h.twin.same, fun x hx => by cases hx⟩

theorem Sim.panic {α : Type} {A : α → Prop} : Sim a c d b St b' St' A (Run.panic : Prg α) (Run.panic : Prg α) :=
  fun _ _ h => ⟨rfl, h.twin.same, fun x hx => by cases hx⟩

theorem Sim.modify {f1 f2 : Proc → Proc} (h : ∀ p1 p2, St p1 p2 → St' (f1 p1) (f2 p2)) :
    Sim a c d b St b St' (fun _ => True) (Run.modify f1 : Prg Unit) (Run.modify f2 : Prg Unit) :=
  fun _ _ hl => ⟨rfl, hl.twin.same, fun _ _ => ⟨trivial, hl.cwd1, hl.cwd2, hl.twin, h _ _ hl.st⟩⟩

theorem Sim.getSvc {α : Type} {A : α → Prop} {f1 f2 : Service → Prg α}
    (h : ∀ p1 p2, St p1 p2 → Sim a c d b St b' St' A (f1 p1.svc) (f2 p2.svc)) : Sim a c d b St b' St' A (getSvc >>= f1) (getSvc >>= f2) :=
  fun w1 w2 hl => h w1.st w2.st hl.st w1 w2 hl

theorem Sim.get {α : Type} {A : α → Prop} {f1 f2 : Proc → Prg α}
    (h : ∀ p1 p2, St p1 p2 → Sim a c d b St b' St' A (f1 p1) (f2 p2)) :
    Sim a c d b St b' St' A ((Run.get : Prg Proc) >>= f1) ((Run.get : Prg Proc) >>= f2) :=
  fun w1 w2 hl => h w1.st w2.st hl.st w1 w2 hl

theorem Sim.weaken {α : Type} {A B : α → Prop} {m1 m2 : Prg α} (h : Sim a c d b St b' St' A m1 m2) (hab : ∀ a, A a → B a) :
    Sim a c d b St b' St' B m1 m2 :=
  fun w1 w2 hl => ⟨(h w1 w2 hl).1, (h w1 w2 hl).2.1, fun a ha => ⟨hab a ((h w1 w2 hl).2.2 a ha).1, ((h w1 w2 hl).2.2 a ha).2⟩⟩

theorem Sim.post {α : Type} {A : α → Prop} {m1 m2 : Prg α} (h : Sim a c d b St b' St' A m1 m2) (hs : ∀ p1 p2, St' p1 p2 → St'' p1 p2) :
    Sim a c d b St b' St'' A m1 m2 :=
  fun w1 w2 hl => ⟨(h w1 w2 hl).1, (h w1 w2 hl).2.1, fun a ha =>
    have r := (h w1 w2 hl).2.2 a ha
    ⟨r.1, r.2.cwd1, r.2.cwd2, r.2.twin, hs _ _ r.2.st⟩⟩

theorem Sim.pre {α : Type} {A : α → Prop} {m1 m2 : Prg α} (h : Sim a c d b St' b' St'' A m1 m2) (hs : ∀ p1 p2, St p1 p2 → St' p1 p2) :
    Sim a c d b St b' St'' A m1 m2 :=
  fun w1 w2 hl => h w1 w2 ⟨hl.cwd1, hl.cwd2, hl.twin, hs _ _ hl.st⟩

theorem Sim.call {α : Type} {A : α → Prop} {p : Str} {run : FS → FPath → Except Errno (FS × α)} {part : Nat → (FPath → Bool) → FS → FPath → FS}
    (h : ∀ q fs1 fs2, resolve c p = some q → Twin a d b fs1 fs2 → SameResult (Twin a d b') A (run fs1 q) (run fs2 q)) :
    Sim a c d b St b' St A (Run.call p run part : Prg α) (Run.call p run part : Prg α) := by
  intro w1 w2 hl
  unfold Run.call
  simp only [hl.cwd1, hl.cwd2, noFaults]
  cases hr : resolve c p with
  | none => exact ⟨rfl, hl.twin.same, fun a ha => by cases ha⟩
  | some q =>
    have := h q w1.fs w2.fs hr hl.twin
    simp only
    revert this
    generalize run w1.fs q = r1
    generalize run w2.fs q = r2
    intro this
    cases this with
    | ok ht ha => exact ⟨rfl, ht.same, fun a e => by cases e; exact ⟨ha, rfl, rfl, ht, hl.st⟩⟩
    | error e => exact ⟨rfl, hl.twin.same, fun a ha => by cases ha⟩

/-- A call that only reads, with its error as a value. -/
theorem Sim.tryReading {α : Type} {A : α → Prop} {p : Str} {f : FS → FPath → Except Errno α} {part : Nat → (FPath → Bool) → FS → FPath → FS}
    (h : ∀ q fs1 fs2, resolve c p = some q → Twin a d b fs1 fs2 → f fs2 q = f fs1 q ∧ ∀ a, f fs1 q = .ok a → A a) :
    Sim a c d b St b St (fun r => ∀ a, r = .ok a → A a) (Run.try_ (Run.call p (reading f) part : Prg α)) (Run.try_ (Run.call p (reading f) part : Prg α)) := by
  intro w1 w2 hl
  unfold Run.try_ Run.call
  simp only [hl.cwd1, hl.cwd2, noFaults]
  cases hr : resolve c p with
  | none => exact ⟨rfl, hl.twin.same, fun a ha => by cases ha; exact ⟨fun a ha => by (cases ha), rfl, rfl, hl.twin, hl.st⟩⟩
  | some q =>
    obtain ⟨e, ha⟩ := h q w1.fs w2.fs hr hl.twin
    simp only [reading, e]
    cases hf : f w1.fs q with
    | error e => exact ⟨rfl, hl.twin.same, fun a ha => by cases ha; exact ⟨fun a ha => by (cases ha), rfl, rfl, hl.twin, hl.st⟩⟩
    | ok a => exact ⟨rfl, hl.twin.same, fun x hx => by cases hx; exact ⟨fun x hx => by cases hx; exact ha _ hf, rfl, rfl, hl.twin, hl.st⟩⟩

theorem Sim.reading {α : Type} {A : α → Prop} {p : Str} {f : FS → FPath → Except Errno α} {part : Nat → (FPath → Bool) → FS → FPath → FS}
    (h : ∀ q fs1 fs2, resolve c p = some q → Twin a d b fs1 fs2 → f fs2 q = f fs1 q ∧ ∀ a, f fs1 q = .ok a → A a) :
    Sim a c d b St b St A (Run.call p (reading f) part : Prg α) (Run.call p (Astra.reading f) part : Prg α) := by
  refine Sim.call (fun q fs1 fs2 hr ht => ?_)
  obtain ⟨e, ha⟩ := h q fs1 fs2 hr ht
  unfold Astra.reading
  rw [e]
  cases hf : f fs1 q with
  | error e => exact .error e
  | ok a => exact .ok ht (ha a hf)

/-- The components of a resolved path come from the working directory and from the path. -/
theorem resolve_no_slash {p : Str} {q : FPath} (hc : ∀ x ∈ c, '/' ∉ x) (h : resolve c p = some q) : ∀ x ∈ q, '/' ∉ x := by
  have key : ∀ (segs : List Str) (base : FPath), (∀ x ∈ base, '/' ∉ x) → (∀ x ∈ segs, '/' ∉ x) → ∀ x ∈ walk base segs, '/' ∉ x := by
    intro segs
    induction segs with
    | nil => exact fun base hb _ => hb
    | cons s segs ih =>
      intro base hb hs
      rw [walk_cons]
      apply ih
      · unfold walkStep
        split
        · exact hb
        · split
          · exact fun x hx => hb x (List.dropLast_subset base hx)
          · intro x hx
            rcases List.mem_append.mp hx with hx | hx
            · exact hb x hx
            · simp at hx; subst hx; exact hs x (by simp)
      · exact fun x hx => hs x (by simp [hx])
  unfold resolve at h
  split at h
  · cases h
  · cases h
    apply key
    · split
      · simp
      · exact hc
    · exact fun x hx => split_no_sep x hx

variable {p : Str}

theorem sim_stat (h : ∀ q, resolve c p = some q → Off a q) : Sim a c d b St b St (fun _ => True) (Run.try_ (osStat p : Prg FNode)) (Run.try_ (osStat p : Prg FNode)) :=
  (Sim.tryReading (f := FS.stat) (A := fun _ => True) (fun q _ _ hr ht => ⟨ht.stat (h q hr), fun _ _ => trivial⟩)).weaken (fun _ _ => trivial)

theorem sim_readFile (h : ∀ q, resolve c p = some q → Off a q) : Sim a c d b St b St (fun _ => True) (osReadFile p : Prg Str) (osReadFile p : Prg Str) :=
  Sim.reading (fun q _ _ hr ht => ⟨ht.readFile (h q hr), fun _ _ => trivial⟩)

theorem sim_mkdir (hc : ∀ x ∈ c, '/' ∉ x) (h : ∀ q, resolve c p = some q → Off a q) :
    Sim a c d b St b St (fun _ => True) (osMkdir p : Prg Unit) (osMkdir p : Prg Unit) := by
  refine Sim.call (fun q fs1 fs2 hr ht => ?_)
  unfold writing FS.mkdir
  rw [ht.parent (h q hr), ht.look (h q hr)]
  cases hp : fs1.parent q with
  | error e => exact .error e
  | ok u =>
    cases hl : fs1.look q with
    | some n => exact .error _
    | none =>
      refine .ok (ht.put ?_ (by rw [hl]; simp) (resolve_no_slash hc hr)) trivial
      rintro rfl
      rw [FS.look_nil] at hl
      cases hl

theorem sim_create (hc : ∀ x ∈ c, '/' ∉ x) (h : ∀ q, resolve c p = some q → Off a q) :
    Sim a c d b St b St (fun _ => True) (osCreate p : Prg Unit) (osCreate p : Prg Unit) := by
  refine Sim.call (fun q fs1 fs2 hr ht => ?_)
  unfold writing FS.create
  rw [ht.parent (h q hr), ht.look (h q hr)]
  by_cases hd : fs1.look q = some .dir
  · rw [hd]; exact .error _
  · have hq : q ≠ [] := by rintro rfl; exact hd (FS.look_nil _)
    cases hp : fs1.parent q with
    | error e =>
      cases hl : fs1.look q with
      | none => exact .error e
      | some n => cases n with
        | dir => exact absurd hl hd
        | file t => exact .error e
    | ok u =>
      have := ht.put (n := .file []) hq hd (resolve_no_slash hc hr)
      cases hl : fs1.look q with
      | none => exact .ok this trivial
      | some n => cases n with
        | dir => exact absurd hl hd
        | file t => exact .ok this trivial

theorem sim_write {t : Str} (hc : ∀ x ∈ c, '/' ∉ x) (h : ∀ q, resolve c p = some q → Off a q) :
    Sim a c d b St b St (fun _ => True) (osWrite p t : Prg Unit) (osWrite p t : Prg Unit) := by
  refine Sim.call (fun q fs1 fs2 hr ht => ?_)
  unfold FS.write
  rw [ht.isFile (h q hr)]
  split
  · rename_i hf
    obtain ⟨t', ht'⟩ := FS.isFile_iff.mp hf
    exact .ok (ht.put (FS.isFile_ne_nil hf) (by rw [ht']; simp) (resolve_no_slash hc hr)) trivial
  · exact .ok ht trivial

theorem sim_writeFile {t : Str} (hc : ∀ x ∈ c, '/' ∉ x) (h : ∀ q, resolve c p = some q → Off a q) :
    Sim a c d b St b St (fun _ => True) (osWriteFile p t : Prg Unit) (osWriteFile p t : Prg Unit) :=
  Sim.bind (sim_create hc h) (fun _ _ => sim_write hc h)

theorem sim_removeAll (h : ∀ q, resolve c p = some q → Off a q ∧ ¬ q <+: d ++ [c!".astra"] ∧ ¬ q <+: a.dropLast) :
    Sim a c d b St b St (fun _ => True) (osRemoveAll p : Prg Unit) (osRemoveAll p : Prg Unit) := by
  unfold osRemoveAll
  split
  · exact Sim.pure trivial
  · split
    · exact Sim.throw _
    · refine Sim.call (fun q fs1 fs2 hr ht => ?_)
      unfold writing FS.removeAll
      rw [ht.stat (h q hr).1]
      cases hs : fs1.stat q with
      | ok n => exact .ok (ht.del (h q hr).2.1 (h q hr).2.2) trivial
      | error e =>
        cases e with
        | noent => exact .ok ht trivial
        | _ => exact .error _

end

end Astra
