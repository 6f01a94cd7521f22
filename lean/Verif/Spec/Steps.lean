/-
Specification vocabulary for the steps of a run.
-/
import Verif.Model.Pipeline

namespace Astra.Spec

/-- The programs run one after the other, each in the world its predecessor left; the first one that does not succeed is the last one
that runs, and its way of ending is that of the whole. -/
inductive Chain (φ : Faults) : List (Prg Unit) → World Proc → World Proc → Exit Unit → Prop
  | done {w : World Proc} : Chain φ [] w w (.ok ())
  | step {m : Prg Unit} {ms : List (Prg Unit)} {w w1 w2 : World Proc} {x : Exit Unit} : m φ w = (w1, .ok ()) → Chain φ ms w1 w2 x →
      Chain φ (m :: ms) w w2 x
  | stop {m : Prg Unit} {ms : List (Prg Unit)} {w w1 : World Proc} {x : Exit Unit} : m φ w = (w1, x) → x ≠ .ok () → Chain φ (m :: ms) w w1 x

/-- The log lines of a complete run with `ins` inputs and `outs` outputs. -/
def plan (ins outs : Nat) : List Event :=
  [.setup, .createRoutes] ++ (List.range ins).map .create ++ [.parseRoutes] ++ (List.range ins).map .parse ++ [.clean, .generate] ++
    (List.range outs).map .output ++ [.teardown]

/-- The functions of the user leave the inputs, the outputs and the log alone. -/
def Polite (L : Lib) : Prop :=
  ∀ id φ w, (L.custom id φ w).1.st.svc.inputs = w.st.svc.inputs ∧ (L.custom id φ w).1.st.svc.outputs = w.st.svc.outputs ∧
    (L.custom id φ w).1.st.log = w.st.log

end Astra.Spec
