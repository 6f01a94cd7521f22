/-
C77: what a successful run shows of its service.
-/
import Verif.Props.Recovery

namespace Astra.Props
open Astra.Spec Astra.Run

theorem parseAll_inputs {L : Lib} {getwd : Str} {φ : Faults} {w w' : World Proc} (h : Astra.parseAll L getwd φ w = (w', .ok ())) :
    w.st.svc.inputs ≠ [] ∧ w.st.svc.outputs ≠ [] := by
  unfold Astra.parseAll setupParse at h
  rw [bind_assoc'] at h
  obtain ⟨w0, _, h0, _⟩ := Run.bind_inv h
  unfold checkIO at h0
  rw [Run.bind_ok (getSvc_ok φ w)] at h0
  split at h0
  · cases h0
  · rename_i hi
    split at h0
    · cases h0
    · rename_i ho
      exact ⟨hi, by rintro e; exact ho (by rw [e]; rfl)⟩

/-- C77, the other direction: if the run of a service with gin routers and an OpenAPI output succeeds, whatever failures it survived, the
service has an input and a configuration, the files of the allowed entries have paths, and the components that the run found can be given
names. -/
theorem run_success_needs (L : Lib) (hkey : KeepsKeys L) (hord : ∀ l, (L.choices.groups l).Perm l) (U : FPath → Prop) (hL : Tame L U)
    (getwd : Str) (φ : Faults) (w w' : World Proc) (d : FPath)
    (hd : DirAt w.cwd w.st.svc.workDir d) (hg : resolve w.cwd getwd = some w.cwd) (hnames : ProperNames w.fs) (hc : ∀ x ∈ w.cwd, '/' ∉ x)
    (routers : List (List RouteInfo)) (hin : Each GinInput w.st.svc.inputs routers) (hroutes : w.st.svc.routes = [])
    (hnd : DistinctRoutes (allowed w.st.svc.denyList routers.flatten)) (hown : OwnCells w.st.svc.outputs)
    (before after : List Output) (o : Output) (hout : w.st.svc.outputs = before ++ o :: after)
    (hbefore : ∀ b ∈ before, Plain b) (loc : Nat) (ho : o.generate = .openapi loc)
    (h : Astra.parseAll L getwd φ w = (w', .ok ())) :
    w.st.svc.inputs ≠ [] ∧ w.st.svc.config ≠ none ∧ (∀ i ∈ allowed w.st.svc.denyList routers.flatten, ∃ file, L.rel i.file = .ok file) ∧
      ∃ m rs cs, RunResult L w.st.svc (if w.st.svc.workDir = [] then getwd else w.st.svc.workDir) routers m rs cs ∧ Nameable cs := by
  have h0 := parseAll_inputs h
  obtain ⟨w0, m, rs, cs, hres, h⟩ := before_generate hkey hin hroutes hnd h
  obtain ⟨w1, w2, w3, e1, e2, e3, g1, g2, g3⟩ := output_runs hL hd hg hnames hc hin hout hown h
  have hkept : Kept loc (fun p => p.names = w.st.names ∧ p.svc.config = w.st.svc.config ∧ p.svc.components = cs) :=
    ⟨fun p e h => h, fun p l v hl h => h⟩
  have k := (kept_runAll (c := w.cwd) hkept L .output (before.map (·.generate)) 0 (fun a ha => by
    obtain ⟨b, hb, rfl⟩ := List.mem_map.mp ha
    refine ⟨?_, ?_⟩
    · rw [hout] at hown
      exact fun hu => (List.pairwise_append.mp hown).2.2 b hb o (by simp) loc hu (by rw [ho]; rfl)
    · rcases hbefore b hb with h | h
      · exact Or.inl h
      · exact Or.inr (Or.inl h)) φ w1 ⟨e3, ⟨e2, (congrArg Service.config e1).trans rfl, congrArg Service.components e1⟩, trivial⟩).1
  rw [g1] at k
  obtain ⟨_, ⟨k1, k2, k3⟩, _⟩ := k
  simp only at k1 k2 k3
  rw [ho] at g2
  obtain ⟨p, doc, text, f1, _⟩ := openApiGenerate_inv g2
  simp only [k1, k2, k3] at f1
  obtain ⟨cfg, names, hcfg, hn⟩ : ∃ cfg names, w.st.svc.config = some cfg ∧ makeNames L.choices.groups cs w.st.names = .ok names := by
    unfold generateDoc at f1
    cases hcf : w.st.svc.config with
    | none => rw [hcf] at f1; cases f1
    | some cfg =>
      rw [hcf] at f1
      simp only at f1
      cases hn : makeNames L.choices.groups cs w.st.names with
      | ok names => exact ⟨cfg, names, rfl, rfl⟩
      | err e => rw [hn] at f1; cases f1
      | panic e => rw [hn] at f1; cases f1
  refine ⟨h0.1, by rw [hcfg]; simp, ?_, m, rs, cs, hres, (schema_naming_ok_iff cs L.choices.groups hord w.st.names).mp ⟨names, hn⟩⟩
  obtain ⟨found, _, _, _, hf, hrest⟩ := hres
  generalize allowed w.st.svc.denyList routers.flatten = is at hf
  clear hin hnd hrest
  induction hf with
  | nil => intro i hi; cases hi
  | cons hx _ ih =>
    intro i hi
    rcases List.mem_cons.mp hi with rfl | hi
    · obtain ⟨file, hfile, _⟩ := hx
      exact ⟨file, hfile⟩
    · exact ih i hi

/-- The service of `recover_feasible` meets the hypotheses: its run succeeds. -/
example : Tame recoverLib (fun _ => False) ∧ KeepsKeys recoverLib ∧ (∃ w', Astra.parseAll recoverLib c!"/w" noFaults recoverWorld = (w', .ok ())) ∧
    (∃ before after o loc, recoverWorld.st.svc.outputs = before ++ o :: after ∧ (∀ b ∈ before, Plain b) ∧ o.generate = .openapi loc) := by
  obtain ⟨k1, k2, k3, k4⟩ := recover_orderly
  have hrun := (run_succeeds_partial _ _ _ _ _ recover_feasible recover_apart recover_spaced k1 k2 k3 k4 recover_noLeftover).1
  refine ⟨?_, recover_feasible.keys, ?_, ?_⟩
  · intro id φ w
    exact ⟨fun _ _ => rfl, fun h => h, rfl, rfl, rfl, rfl, rfl, rfl, rfl, rfl⟩
  · generalize Astra.parseAll recoverLib c!"/w" noFaults recoverWorld = x at hrun
    obtain ⟨w', r⟩ := x
    exact ⟨w', by rw [← hrun]⟩
  · exact ⟨[_], [_, _], _, 1, rfl, (fun b hb => by rw [List.mem_singleton.mp hb]; exact Or.inl ⟨0, rfl⟩), rfl⟩

end Astra.Props
