/-
Specification vocabulary for what a whole run may change.
-/
import Verif.Spec.Dirs
import Verif.Spec.OutputFile
import Verif.Model.Pipeline

namespace Astra.Spec

/-- File names have no slash. -/
def ProperNames (fs : FS) : Prop := ∀ q, fs.look q ≠ none → ∀ x ∈ q, '/' ∉ x

/-- The places an output is entitled to when the working directory is `d`: the file workdir/path, with the extension, or everything at and
below the directory workdir/dir. -/
def OutputPlace (d : FPath) (s : Service) : Action → FPath → Prop
  | .json loc, q => q = walk d (segments (withExtension [c!".json"] (s.cells.getD loc [])))
  | .openapi loc, q => q = walk d (segments (withExtension [c!".json", c!".yaml", c!".yml"] (s.cells.getD loc [])))
  | .azure dir, q => walk d (segments dir) <+: q
  | _, _ => False

/-- The captured variable of an output. -/
def Action.usesCell (loc : Nat) : Action → Prop
  | .json l => l = loc
  | .openapi l => l = loc
  | _ => False

/-- No two outputs share a captured variable. -/
def OwnCells (outs : List Output) : Prop :=
  outs.Pairwise (fun a b => ∀ loc, Action.usesCell loc a.generate → ¬ Action.usesCell loc b.generate)

/-- The places a whole run is entitled to: the missing directories down to workdir/.astra, everything in workdir/.astra, the custom cache
path if caching is enabled, the places of the outputs, and what the user's own functions change (`U`). -/
def RunPlaces (cwd d : FPath) (fs : FS) (s : Service) (U : FPath → Prop) (q : FPath) : Prop :=
  (q <+: d ++ [c!".astra"] ∧ fs.look q = none) ∨ d ++ [c!".astra"] <+: q ∨
  (s.cacheEnabled = true ∧ ∃ a, resolve cwd s.cachePath = some a ∧ a <+: q) ∨
  (∃ o ∈ s.outputs, OutputPlace d s o.generate q) ∨ U q

/-- The user's own functions change no files outside `U`, no settings of the service and not the current directory. -/
def Tame (L : Lib) (U : FPath → Prop) : Prop :=
  ∀ id φ w, ChangesOnly U w.fs (L.custom id φ w).1.fs ∧ (ProperNames w.fs → ProperNames (L.custom id φ w).1.fs) ∧
    (L.custom id φ w).1.cwd = w.cwd ∧
    (L.custom id φ w).1.st.svc.workDir = w.st.svc.workDir ∧ (L.custom id φ w).1.st.svc.cacheEnabled = w.st.svc.cacheEnabled ∧
    (L.custom id φ w).1.st.svc.cachePath = w.st.svc.cachePath ∧ (L.custom id φ w).1.st.svc.cliMode = w.st.svc.cliMode ∧
    (L.custom id φ w).1.st.svc.inputs = w.st.svc.inputs ∧ (L.custom id φ w).1.st.svc.outputs = w.st.svc.outputs ∧
    (L.custom id φ w).1.st.svc.cells = w.st.svc.cells

end Astra.Spec
