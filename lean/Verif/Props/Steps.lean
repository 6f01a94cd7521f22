/-
C35: the steps run in order and stop at the first error.
-/
import Verif.Spec.Steps
import Verif.Lemmas.Steps
import Verif.Props.Cache

namespace Astra.Props
open Spec Run

/-! ### Chains -/

theorem chain_one (φ : Faults) (m : Prg Unit) (w : World Proc) : Chain φ [m] w (m φ w).1 (m φ w).2 := by
  cases hm : m φ w with
  | mk w1 x =>
    cases x with
    | ok u => cases u; exact .step hm .done
    | err e => exact .stop hm (by simp)
    | panic => exact .stop hm (by simp)
    | crash => exact .stop hm (by simp)

theorem chain_cons {φ : Faults} {m n : Prg Unit} {ms : List (Prg Unit)} {w : World Proc}
    (h : ∀ w1, m φ w = (w1, .ok ()) → Chain φ ms w1 (n φ w1).1 (n φ w1).2) :
    Chain φ (m :: ms) w ((m >>= fun _ => n) φ w).1 ((m >>= fun _ => n) φ w).2 := by
  cases hm : m φ w with
  | mk w1 x =>
    cases x with
    | ok u => cases u; rw [Run.bind_ok hm]; exact .step hm (h w1 hm)
    | err e => rw [Run.bind_err hm]; exact .stop hm (by simp)
    | panic => rw [Run.bind_panic hm]; exact .stop hm (by simp)
    | crash => rw [Run.bind_crash hm]; exact .stop hm (by simp)

theorem bind_assoc' {α β γ : Type} (m : Prg α) (f : α → Prg β) (g : β → Prg γ) : (m >>= f) >>= g = m >>= fun a => f a >>= g := by
  funext φ w
  show Run.bind (Run.bind m f) g φ w = Run.bind m (fun a => Run.bind (f a) g) φ w
  unfold Run.bind
  cases m φ w with
  | mk w1 x => cases x <;> rfl

/-- C35: Parse runs its steps in order and stops at the first one that fails, whose error it returns. Missing inputs and outputs are
checked first (and again before parsing). -/
theorem parse_steps_in_order (L : Lib) (getwd : Str) (φ : Faults) (w : World Proc) :
    Chain φ [checkIO, setup L getwd, stepCreate L, checkIO, stepParse L, stepClean L, stepGenerate L, teardown] w
      (parseAll L getwd φ w).1 (parseAll L getwd φ w).2 := by
  have e : parseAll L getwd = (checkIO >>= fun _ => setup L getwd >>= fun _ => stepCreate L >>= fun _ => checkIO >>= fun _ =>
      stepParse L >>= fun _ => stepClean L >>= fun _ => stepGenerate L >>= fun _ => teardown) := by
    unfold parseAll setupParse completeParse
    rw [bind_assoc']
    congr 1
    funext _
    rw [bind_assoc']
  rw [e]
  exact chain_cons (fun _ _ => chain_cons (fun _ _ => chain_cons (fun _ _ => chain_cons (fun _ _ => chain_cons (fun _ _ =>
    chain_cons (fun _ _ => chain_cons (fun _ _ => chain_one _ _ _)))))))

/-- C35: a service without inputs or without outputs is rejected before anything happens. -/
theorem parse_rejects_missing (L : Lib) (getwd : Str) (φ : Faults) (w : World Proc) (h : w.st.svc.inputs = [] ∨ w.st.svc.outputs = []) :
    ∃ e, parseAll L getwd φ w = (w, .err e) ∧ completeParse L φ w = (w, .err e) := by
  have hc : ∃ e, checkIO φ w = (w, .err e) := by
    unfold checkIO
    rw [Run.bind_ok (getSvc_ok φ w)]
    by_cases hi : w.st.svc.inputs = []
    · rw [if_pos hi]; exact ⟨_, rfl⟩
    · rw [if_neg hi, if_pos (by rw [h.resolve_left hi]; rfl)]; exact ⟨_, rfl⟩
  obtain ⟨e, he⟩ := hc
  refine ⟨e, ?_, ?_⟩
  · unfold parseAll setupParse
    exact Run.bind_err (Run.bind_err he)
  · unfold completeParse
    exact Run.bind_err he

/-- The check has no effect. -/
theorem checkIO_world (φ : Faults) (w : World Proc) : (checkIO φ w).1 = w := by
  unfold checkIO
  rw [Run.bind_ok (getSvc_ok φ w)]
  split
  · rfl
  · split <;> rfl

theorem runAll_chain (L : Lib) (ev : Nat → Event) (φ : Faults) (as : List Action) (i : Nat) (w : World Proc) :
    Chain φ ((as.zipIdx i).map (fun a => (logEvent (ev a.2) >>= fun _ => a.1.run L))) w
      (runAll L ev i as φ w).1 (runAll L ev i as φ w).2 := by
  induction as generalizing i w with
  | nil => exact .done
  | cons a as ih =>
    have e : runAll L ev i (a :: as) = ((logEvent (ev i) >>= fun _ => a.run L) >>= fun _ => runAll L ev (i + 1) as) := by
      rw [bind_assoc']; rfl
    rw [e]
    exact chain_cons (fun w1 _ => ih (i + 1) w1)

/-- C35: the generation step runs the outputs in order and stops at the first one that fails. -/
theorem outputs_in_order (L : Lib) (φ : Faults) (w : World Proc) :
    ∃ w1 x, Chain φ ((w.st.svc.outputs.zipIdx).map (fun o => (logEvent (.output o.2) >>= fun _ => o.1.generate.run L)))
        { w with st := { w.st with log := w.st.log ++ [.generate] } } w1 x ∧
      ((∃ u, x = .ok u) → stepGenerate L φ w = cacheIfEnabled L φ w1) ∧ ((∀ u, x ≠ .ok u) → stepGenerate L φ w = (w1, x)) := by
  let w0 : World Proc := { w with st := { w.st with log := w.st.log ++ [.generate] } }
  have hc := runAll_chain L .output φ (w.st.svc.outputs.map (·.generate)) 0 w0
  rw [List.zipIdx_map, List.map_map] at hc
  have hg : stepGenerate L φ w = (runAll L .output 0 (w.st.svc.outputs.map (·.generate)) >>= fun _ => cacheIfEnabled L) φ w0 := by
    unfold stepGenerate
    rw [Run.bind_ok (logEvent_ok .generate φ w), Run.bind_ok (getSvc_ok φ _)]
  rw [hg]
  cases hr : runAll L .output 0 (w.st.svc.outputs.map (·.generate)) φ w0 with
  | mk w1 x =>
    rw [hr] at hc
    refine ⟨w1, x, hc, ?_, ?_⟩
    · rintro ⟨u, rfl⟩
      exact Run.bind_ok hr
    · intro hx
      cases x with
      | ok u => exact absurd rfl (hx u)
      | err e => exact Run.bind_err hr
      | panic => exact Run.bind_panic hr
      | crash => exact Run.bind_crash hr

/-! ### The log -/

/-- From a process with these inputs and outputs, the program logs a beginning of `evs`, all of it if it succeeds, and leaves the
inputs and outputs alone. -/
def Logs (ins : List Input) (outs : List Output) (evs : List Event) (m : Prg Unit) : Prop :=
  ∀ φ w, w.st.svc.inputs = ins → w.st.svc.outputs = outs →
    (m φ w).1.st.svc.inputs = ins ∧ (m φ w).1.st.svc.outputs = outs ∧
    (∃ pre suf, evs = pre ++ suf ∧ (m φ w).1.st.log = w.st.log ++ pre) ∧ (∀ u, (m φ w).2 = .ok u → (m φ w).1.st.log = w.st.log ++ evs)

theorem Logs.seq {ins : List Input} {outs : List Output} {a b : List Event} {m n : Prg Unit} (hm : Logs ins outs a m) (hn : Logs ins outs b n) :
    Logs ins outs (a ++ b) (m >>= fun _ => n) := by
  intro φ w hi ho
  obtain ⟨h1, h2, ⟨pre, suf, h3, h4⟩, h5⟩ := hm φ w hi ho
  have stop : ∀ (w1 : World Proc) (x : Exit Unit), m φ w = (w1, x) → (∀ u, x ≠ .ok u) → (m >>= fun _ => n) φ w = (w1, x) →
      ((m >>= fun _ => n) φ w).1.st.svc.inputs = ins ∧ ((m >>= fun _ => n) φ w).1.st.svc.outputs = outs ∧
      (∃ pre suf, a ++ b = pre ++ suf ∧ ((m >>= fun _ => n) φ w).1.st.log = w.st.log ++ pre) ∧
      (∀ u, ((m >>= fun _ => n) φ w).2 = .ok u → ((m >>= fun _ => n) φ w).1.st.log = w.st.log ++ (a ++ b)) := by
    intro w1 x hm' hx he
    rw [hm'] at h1 h2 h4
    rw [he]
    exact ⟨h1, h2, ⟨pre, suf ++ b, by rw [h3, List.append_assoc], h4⟩, fun u hu => absurd hu (hx u)⟩
  cases hm' : m φ w with
  | mk w1 x =>
    cases x with
    | ok u =>
      rw [hm'] at h1 h2 h5
      rw [Run.bind_ok hm']
      obtain ⟨k1, k2, ⟨pre', suf', k3, k4⟩, k5⟩ := hn φ w1 h1 h2
      have h5 := h5 u rfl
      refine ⟨k1, k2, ⟨a ++ pre', suf', by rw [k3, List.append_assoc], by rw [k4, h5, List.append_assoc]⟩, fun v hv => ?_⟩
      rw [k5 v hv, h5, List.append_assoc]
    | err e => exact stop w1 _ hm' (by simp) (Run.bind_err hm')
    | panic => exact stop w1 _ hm' (by simp) (Run.bind_panic hm')
    | crash => exact stop w1 _ hm' (by simp) (Run.bind_crash hm')

/-- What the process state says about inputs, outputs and log. -/
def ioState (ins : List Input) (outs : List Output) (l : List Event) (p : Proc) : Prop := p.svc.inputs = ins ∧ p.svc.outputs = outs ∧ p.log = l

theorem onIO_ioState (ins : List Input) (outs : List Output) (l : List Event) : OnIO (ioState ins outs l) := by
  rintro p p' hp ⟨_, _, _, _, _, _, rfl⟩
  exact hp

theorem Logs.silent {ins : List Input} {outs : List Output} {m : Prg Unit}
    (h : ∀ c l, Keeps (Inv c (ioState ins outs l) anyFS) anyVal m) : Logs ins outs [] m := by
  intro φ w hi ho
  obtain ⟨⟨_, ⟨h1, h2, h3⟩, _⟩, _⟩ := h w.cwd w.st.log φ w ⟨rfl, ⟨hi, ho, rfl⟩, trivial⟩
  exact ⟨h1, h2, ⟨[], [], rfl, by rw [h3, List.append_nil]⟩, fun _ _ => by rw [h3, List.append_nil]⟩

/-- A function of the user logs nothing. -/
theorem logs_custom {L : Lib} (hL : Polite L) {ins : List Input} {outs : List Output} (id : Nat) : Logs ins outs [] (L.custom id) := by
  intro φ w hi ho
  obtain ⟨h1, h2, h3⟩ := hL id φ w
  exact ⟨h1.trans hi, h2.trans ho, ⟨[], [], rfl, by rw [h3, List.append_nil]⟩, fun _ _ => by rw [h3, List.append_nil]⟩

theorem logs_action {L : Lib} (hL : Polite L) {ins : List Input} {outs : List Output} (a : Action) : Logs ins outs [] (a.run L) := by
  by_cases hc : ∃ id, a = .custom id
  · obtain ⟨id, rfl⟩ := hc
    exact logs_custom hL id
  · have e : a.run L = a.run { L with custom := fun _ => Run.pure () } := by
      cases a with
      | custom id => exact absurd ⟨id, rfl⟩ hc
      | ginParse =>
        have : ∀ n i, ginParseLoop L n i = ginParseLoop { L with custom := fun _ => Run.pure () } n i := by
          intro n
          induction n with
          | zero => intro i; rfl
          | succ n ih => intro i; unfold ginParseLoop; simp only [ih]
        simp only [Action.run, ginParseRoutesM, this]
      | _ => rfl
    rw [e]
    exact Logs.silent (fun c l => keepsIO_action closed_anyFS (onIO_ioState ins outs l) (fun _ => Keeps.pure trivial) a)

theorem logs_event {ins : List Input} {outs : List Output} (e : Event) : Logs ins outs [e] (logEvent e) := by
  intro φ w hi ho
  exact ⟨hi, ho, ⟨[e], [], rfl, rfl⟩, fun _ _ => rfl⟩

theorem logs_svc {ins : List Input} {outs : List Output} {evs : List Event} {f : Service → Prg Unit}
    (h : ∀ s, s.inputs = ins → s.outputs = outs → Logs ins outs evs (f s)) : Logs ins outs evs (getSvc >>= f) := by
  intro φ w hi ho
  rw [Run.bind_ok (getSvc_ok φ w)]
  exact h w.st.svc hi ho φ w hi ho

theorem logs_cast {ins : List Input} {outs : List Output} {a b : List Event} {m : Prg Unit} (h : Logs ins outs a m) (e : a = b) :
    Logs ins outs b m := e ▸ h

theorem logs_runAll {L : Lib} (hL : Polite L) {ins : List Input} {outs : List Output} (ev : Nat → Event) (as : List Action) (i : Nat) :
    Logs ins outs ((List.range' i as.length).map ev) (runAll L ev i as) := by
  induction as generalizing i with
  | nil => exact Logs.silent (fun c l => Keeps.pure trivial)
  | cons a as ih =>
    have := (logs_event (ins := ins) (outs := outs) (ev i)).seq ((logs_action hL a).seq (ih (i + 1)))
    exact logs_cast this (by simp [List.range'_succ])

theorem logs_checkIO {ins : List Input} {outs : List Output} : Logs ins outs [] checkIO :=
  Logs.silent (fun c l => Keeps.seq keepsIO_getSvc (fun s => by
    split
    · exact Keeps.throw _
    · split
      · exact Keeps.throw _
      · exact Keeps.pure trivial))

theorem logs_setup (L : Lib) (getwd : Str) {ins : List Input} {outs : List Output} : Logs ins outs [.setup] (setup L getwd) := by
  unfold setup
  exact (logs_event _).seq (Logs.silent (fun c l => Keeps.seq (keepsIO_setupAstraDir closed_anyFS) (fun _ =>
    Keeps.seq (keeps_modifySvc (fun p hp => by simp only [ioState] at hp ⊢; split <;> exact hp)) (fun _ => keepsIO_cacheIfEnabled closed_anyFS L))))

theorem logs_create {L : Lib} (hL : Polite L) {ins : List Input} {outs : List Output} :
    Logs ins outs (.createRoutes :: (List.range ins.length).map .create) (stepCreate L) := by
  unfold stepCreate
  refine logs_cast ((logs_event _).seq (logs_svc (fun s hi ho => (logs_runAll hL .create (s.inputs.map (·.createRoutes)) 0).seq
    (Logs.silent (fun c l => keepsIO_cacheIfEnabled closed_anyFS L)) |> fun h => logs_cast h ?_))) rfl
  rw [List.length_map, hi, List.append_nil, List.range_eq_range']

theorem logs_parse {L : Lib} (hL : Polite L) {ins : List Input} {outs : List Output} :
    Logs ins outs (.parseRoutes :: (List.range ins.length).map .parse) (stepParse L) := by
  unfold stepParse
  refine logs_cast ((logs_event _).seq (logs_svc (fun s hi ho => (logs_runAll hL .parse (s.inputs.map (·.parseRoutes)) 0).seq
    (Logs.silent (fun c l => keepsIO_cacheIfEnabled closed_anyFS L)) |> fun h => logs_cast h ?_))) rfl
  rw [List.length_map, hi, List.append_nil, List.range_eq_range']

theorem logs_clean (L : Lib) {ins : List Input} {outs : List Output} : Logs ins outs [.clean] (stepClean L) := by
  unfold stepClean
  exact (logs_event _).seq (Logs.silent (fun c l => Keeps.seq (keepsIO_getMainPackageName closed_anyFS (onIO_ioState ins outs l)) (fun _ =>
    Keeps.seq (keepsIO_modifySvc (onIO_ioState ins outs l) (fun s => ⟨_, _, _, _, _, rfl⟩)) (fun _ => keepsIO_cacheIfEnabled closed_anyFS L))))

theorem logs_generate {L : Lib} (hL : Polite L) {ins : List Input} {outs : List Output} :
    Logs ins outs (.generate :: (List.range outs.length).map .output) (stepGenerate L) := by
  unfold stepGenerate
  refine logs_cast ((logs_event _).seq (logs_svc (fun s hi ho => (logs_runAll hL .output (s.outputs.map (·.generate)) 0).seq
    (Logs.silent (fun c l => keepsIO_cacheIfEnabled closed_anyFS L)) |> fun h => logs_cast h ?_))) rfl
  rw [List.length_map, ho, List.append_nil, List.range_eq_range']

theorem logs_teardown {ins : List Input} {outs : List Output} : Logs ins outs [.teardown] teardown := by
  unfold teardown
  exact (logs_event _).seq (Logs.silent (fun c l => keepsIO_teardown closed_anyFS))

/-- C35: whatever fails, what a run logs is a beginning of the plan — setup, the creation of the routes of each input, their parsing,
cleaning, the generation of each output, teardown, in this order — and all of it if the run succeeds. -/
theorem parse_log_follows_plan (L : Lib) (hL : Polite L) (getwd : Str) (φ : Faults) (w : World Proc) :
    (∃ pre suf, plan w.st.svc.inputs.length w.st.svc.outputs.length = pre ++ suf ∧ (parseAll L getwd φ w).1.st.log = w.st.log ++ pre) ∧
    ((parseAll L getwd φ w).2 = .ok () →
      (parseAll L getwd φ w).1.st.log = w.st.log ++ plan w.st.svc.inputs.length w.st.svc.outputs.length) := by
  have h : Logs w.st.svc.inputs w.st.svc.outputs (plan w.st.svc.inputs.length w.st.svc.outputs.length) (parseAll L getwd) := by
    unfold parseAll setupParse completeParse
    refine logs_cast ((logs_checkIO.seq ((logs_setup L getwd).seq (logs_create hL))).seq (logs_checkIO.seq ((logs_parse hL).seq ((logs_clean L).seq
      ((logs_generate hL).seq logs_teardown))))) ?_
    simp [plan]
  obtain ⟨_, _, h1, h2⟩ := h φ w rfl rfl
  exact ⟨h1, fun hx => h2 () hx⟩

/-- C35: no output is generated (the log shows no generation) unless setup, the creation and parsing of the routes and cleaning have
all succeeded before. -/
theorem generate_only_after_success (L : Lib) (hL : Polite L) (getwd : Str) (φ : Faults) (w : World Proc)
    (hw : ∀ e ∈ w.st.log, e ≠ .generate ∧ ∀ i, e ≠ .output i)
    (h : ∃ e ∈ (parseAll L getwd φ w).1.st.log, e = .generate ∨ ∃ i, e = .output i) :
    ∃ w1 w2 w3 w4, setup L getwd φ w = (w1, .ok ()) ∧ stepCreate L φ w1 = (w2, .ok ()) ∧ stepParse L φ w2 = (w3, .ok ()) ∧
      stepClean L φ w3 = (w4, .ok ()) ∧ (parseAll L getwd φ w).1 = ((stepGenerate L >>= fun _ => teardown) φ w4).1 := by
  have quiet : ∀ (evs : List Event) (m : Prg Unit) (w w1 : World Proc) (x : Exit Unit), (∀ e ∈ evs, e ≠ .generate ∧ ∀ i, e ≠ .output i) →
      Logs w.st.svc.inputs w.st.svc.outputs evs m → (∀ e ∈ w.st.log, e ≠ .generate ∧ ∀ i, e ≠ .output i) → m φ w = (w1, x) →
      (∀ e ∈ w1.st.log, e ≠ .generate ∧ ∀ i, e ≠ .output i) := by
    intro evs m w w1 x he hl hw hm
    obtain ⟨_, _, ⟨pre, suf, h3, h4⟩, _⟩ := hl φ w rfl rfl
    rw [hm] at h4
    intro e hmem
    have h4 : w1.st.log = w.st.log ++ pre := h4
    rw [h4] at hmem
    rcases List.mem_append.mp hmem with hm | hm
    · exact hw e hm
    · exact he e (by rw [h3]; exact List.mem_append_left _ hm)
  have bad : ∀ w1 : World Proc, (∀ e ∈ w1.st.log, e ≠ .generate ∧ ∀ i, e ≠ .output i) →
      ¬ ∃ e ∈ w1.st.log, e = .generate ∨ ∃ i, e = .output i := by
    rintro w1 hq ⟨e, he, rfl | ⟨i, rfl⟩⟩
    · exact (hq _ he).1 rfl
    · exact (hq _ he).2 i rfl
  have hchain := parse_steps_in_order L getwd φ w
  revert hchain h
  generalize (parseAll L getwd φ w).2 = x
  generalize (parseAll L getwd φ w).1 = wf
  intro h hchain
  cases hchain with
  | stop hm hx => exact absurd h (bad _ (quiet [] _ _ _ _ (by simp) logs_checkIO hw hm))
  | step hm0 hchain =>
    have e0 := checkIO_world φ w
    rw [hm0] at e0
    simp only at e0
    subst e0
    cases hchain with
    | stop hm hx => exact absurd h (bad _ (quiet [.setup] _ _ _ _ (by simp) (logs_setup L getwd) hw hm))
    | step hm1 hchain =>
      have q1 := quiet [.setup] _ _ _ _ (by simp) (logs_setup L getwd) hw hm1
      cases hchain with
      | stop hm hx => exact absurd h (bad _ (quiet _ _ _ _ _ (by simp) (logs_create hL) q1 hm))
      | step hm2 hchain =>
        have q2 := quiet _ _ _ _ _ (by simp) (logs_create hL) q1 hm2
        cases hchain with
        | stop hm hx => exact absurd h (bad _ (quiet [] _ _ _ _ (by simp) logs_checkIO q2 hm))
        | step hm3 hchain =>
          rename_i wc _ 
          have e0 := checkIO_world φ wc
          rw [hm3] at e0
          simp only at e0
          subst e0
          cases hchain with
          | stop hm hx => exact absurd h (bad _ (quiet _ _ _ _ _ (by simp) (logs_parse hL) q2 hm))
          | step hm4 hchain =>
            have q3 := quiet _ _ _ _ _ (by simp) (logs_parse hL) q2 hm4
            cases hchain with
            | stop hm hx => exact absurd h (bad _ (quiet _ _ _ _ _ (by simp) (logs_clean L) q3 hm))
            | step hm5 hchain =>
              refine ⟨_, _, _, _, hm1, hm2, hm4, hm5, ?_⟩
              cases hchain with
              | stop hm hx =>
                rename_i x'
                cases x with
                | ok u => cases u; exact absurd rfl hx
                | err e => rw [Run.bind_err hm]
                | panic => rw [Run.bind_panic hm]
                | crash => rw [Run.bind_crash hm]
              | step hm6 hchain =>
                rw [Run.bind_ok hm6]
                cases hchain with
                | stop hm hx => rw [hm]
                | step hm hd => cases hd; rw [hm]

/-- C35: an error of teardown is not reported. -/
theorem teardown_reports_no_error (φ : Faults) (w : World Proc) : (teardown φ w).2 = .ok () ∨ (teardown φ w).2 = .crash ∨ (teardown φ w).2 = .panic := by
  unfold teardown
  rw [Run.bind_ok (logEvent_ok _ φ w), Run.bind_ok (getSvc_ok φ _)]
  simp only
  generalize hm : Run.try_ (if w.st.svc.cacheEnabled = false ∧ w.st.svc.cliMode = .none then cleanupAstraDir else cleanupTempMainPackage) φ
    { w with st := { w.st with log := w.st.log ++ [.teardown] } } = r
  obtain ⟨w1, x⟩ := r
  cases x with
  | ok u => rw [Run.bind_ok hm]; exact Or.inl rfl
  | err e =>
    exfalso
    unfold Run.try_ at hm
    split at hm <;> cases hm
  | panic => rw [Run.bind_panic hm]; exact Or.inr (Or.inr rfl)
  | crash => rw [Run.bind_crash hm]; exact Or.inr (Or.inl rfl)

/-- A process in /w with a gin input and JSON outputs at these paths. -/
def stepsWorld (outs : List Str) : World Proc :=
  { fs := [([c!"w"], .dir), ([c!"w", c!"main.go"], .file c!"package main"), ([c!"w", c!"go.mod"], .file c!"module m\n")], cwd := [c!"w"]
    st := { svc := newService (.workDir c!"/w" :: .ginInput (some []) :: outs.map .jsonOutput) } }

/-- Non-vacuity: the example library leaves everything alone; a run with two outputs succeeds with all its log lines. -/
example : Polite exampleLib ∧ (parseAll exampleLib c!"/w" noFaults (stepsWorld [c!"a", c!"b"])).2 = .ok () ∧
    (parseAll exampleLib c!"/w" noFaults (stepsWorld [c!"a", c!"b"])).1.st.log =
      [.setup, .createRoutes, .create 0, .parseRoutes, .parse 0, .clean, .generate, .output 0, .output 1, .teardown] :=
  ⟨fun _ _ _ => ⟨rfl, rfl, rfl⟩, by decide +kernel, by decide +kernel⟩

/-- Non-vacuity: if the second of three outputs fails, the third one is not run, nor is teardown. -/
example : (parseAll exampleLib c!"/w" noFaults (stepsWorld [c!"a", c!"no/b", c!"c"])).2 = .err (.errno .noent) ∧
    (parseAll exampleLib c!"/w" noFaults (stepsWorld [c!"a", c!"no/b", c!"c"])).1.st.log =
      [.setup, .createRoutes, .create 0, .parseRoutes, .parse 0, .clean, .generate, .output 0, .output 1] := ⟨by decide +kernel, by decide +kernel⟩

/-- Non-vacuity of `generate_only_after_success`. -/
example : (∀ e ∈ (stepsWorld [c!"a"]).st.log, e ≠ .generate ∧ ∀ i, e ≠ .output i) ∧
    ∃ e ∈ (parseAll exampleLib c!"/w" noFaults (stepsWorld [c!"a"])).1.st.log, e = .generate ∨ ∃ i, e = .output i :=
  ⟨fun _ h => (nomatch h), .generate, by decide +kernel, Or.inl rfl⟩

/-- Non-vacuity of `parse_rejects_missing`. -/
example : (stepsWorld []).st.svc.outputs = [] := rfl

end Astra.Props
