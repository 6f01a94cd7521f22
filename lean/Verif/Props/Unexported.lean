/-
C20 for whole programs: the program in which every unexported struct field is left out, in the type at hand and in all type definitions it reaches, is
translated to the same result and the same components.
-/
import Verif.Props.Components

namespace Astra.Spec

mutual
/-- The type without its unexported struct fields, at every depth of anonymous types. -/
def exportedOnly : GoType → GoType
  | .basic k n => .basic k n
  | .named p n a => .named p n a
  | .pointer e => .pointer (exportedOnly e)
  | .slice e => .slice (exportedOnly e)
  | .array l e => .array l (exportedOnly e)
  | .map k v => .map (exportedOnly k) (exportedOnly v)
  | .struct fs => .struct (keptFields fs)
  | .interface => .interface
  | .other => .other
/-- The exported fields of a struct, with types without unexported fields. -/
def keptFields : List (StructField × GoType) → List (StructField × GoType)
  | [] => []
  | (f, t) :: r => if f.exported = true then (f, exportedOnly t) :: keptFields r else keptFields r
end

/-- The program without unexported struct fields: all type definitions are without them. -/
def exportedProgram (Γ : TypeEnv) : TypeEnv := { Γ with underlying := fun p n a => exportedOnly (Γ.underlying p n a) }

end Astra.Spec

namespace Astra.Props

open Spec

theorem typeStep_exported (Γ : TypeEnv) (adding : Bool) (rec rec' : TRec)
    (h : ∀ st p n a, rec st (some p) n (Γ.underlying p n a) = rec' st (some p) n (exportedOnly (Γ.underlying p n a))) (t : GoType) :
    ∀ st pkg name, typeStep Γ adding rec st pkg name t = typeStep (exportedProgram Γ) adding rec' st pkg name (exportedOnly t) := by
  have hdoc : ∀ r pos, fieldDoc (exportedProgram Γ) r pos = fieldDoc Γ r pos := fun _ _ => rfl
  induction t using goType_induction with
  | basic k tn => intro st pkg name; rfl
  | named p tn a =>
    intro st pkg name
    cases p with
    | none => rfl
    | some p =>
      simp only [exportedOnly, typeStep, exportedProgram, h]
      rfl
  | pointer e ih => intro st pkg name; simp only [exportedOnly, typeStep, ih]
  | slice e ih => intro st pkg name; simp only [exportedOnly, typeStep, ih]
  | array l e ih => intro st pkg name; simp only [exportedOnly, typeStep, ih]
  | map k v ihk ihv => intro st pkg name; simp only [exportedOnly, typeStep, ihk, ihv]
  | struct fs ih =>
    intro st pkg name
    have hs : ∀ (l : List (StructField × GoType)), (∀ e ∈ l, e ∈ fs) → ∀ st acc,
        structStep Γ adding rec st pkg acc l = structStep (exportedProgram Γ) adding rec' st pkg acc (keptFields l) := by
      intro l
      induction l with
      | nil => intro _ st acc; rfl
      | cons e l ihl =>
        obtain ⟨g, u⟩ := e
        intro hl st acc
        have ihl := ihl (fun e he => hl e (by simp [he]))
        by_cases hg : g.exported = true
        · have hf : ¬ g.exported = false := by simp [hg]
          rw [keptFields, if_pos hg]
          simp only [structStep, hdoc, if_neg hf]
          rw [← ih (g, u) (hl _ (by simp)) st pkg []]
          cases hr : typeStep Γ adding rec st pkg [] u with
          | none => rfl
          | some y =>
            obtain ⟨s2, res⟩ := y
            cases res with
            | err e => rfl
            | panic m => rfl
            | ok r =>
              simp only
              cases hd : fieldDoc Γ r g.pos with
              | err e => rfl
              | panic m => rfl
              | ok d => exact ihl _ _
        · have hf : g.exported = false := by simpa using hg
          rw [keptFields, if_neg hg, structStep, if_pos hf]
          exact ihl _ _
    simp only [exportedOnly, typeStep, hs fs (fun _ h => h)]
  | interface => intro st pkg name; rfl
  | other => intro st pkg name; rfl

/-- C20: translating a type gives the same outcome and the same components as translating it in the program from which every unexported struct field has
been removed, in the type and in all definitions. So nothing of an unexported field, neither its name nor its type, has any effect. -/
theorem unexported_fields_without_effect (Γ : TypeEnv) (adding : Bool) (fuel : Nat) (st : List Field) (pkg : Option Str) (name : Str) (t : GoType) :
    typeResult Γ adding fuel st pkg name t = typeResult (exportedProgram Γ) adding fuel st pkg name (exportedOnly t) := by
  induction fuel generalizing st pkg name t with
  | zero => exact typeStep_exported Γ adding _ _ (fun _ _ _ _ => rfl) t st pkg name
  | succ k ih => exact typeStep_exported Γ adding _ _ (fun st p n a => ih _ _ _ _) t st pkg name

/-- An unexported field of a recursive type does not even make the translation diverge: with the exported fields alone it ends. -/
example : exportedOnly (.slice (.struct [({ name := c!"A" }, .basic .int c!"int"),
    ({ name := c!"next", exported := false }, .pointer (.named (some c!"p") c!"Node" []))])) =
    .slice (.struct [({ name := c!"A" }, .basic .int c!"int")]) := by simp [exportedOnly, keptFields]

end Astra.Props
