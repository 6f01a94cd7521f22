/-
C44: the configuration builder.
-/
import Verif.Model.Config

namespace Astra.Props

/-- The value given by the last call of a setter, if it was called. -/
def lastSet {α : Type} (get : Setter → Option α) (setters : List Setter) : Option α := (setters.filterMap get).getLast?

/-- What each setter sets. -/
def setTitle : Setter → Option Str | .title s => some s | _ => none
def setDescription : Setter → Option Str | .description s => some s | _ => none
def setVersion : Setter → Option Str | .version s => some s | _ => none
def setContact : Setter → Option Contact | .contact s => some s | _ => none
def setLicense : Setter → Option License | .license s => some s | _ => none
def setSecure : Setter → Option Bool | .secure s => some s | _ => none
def setHost : Setter → Option Str | .host s => some s | _ => none
def setBasePath : Setter → Option Str | .basePath s => some s | _ => none
def setPort : Setter → Option Int | .port s => some s | _ => none

theorem foldl_set {α : Type} (get : Setter → Option α) (proj : Config → α)
    (h : ∀ c s, proj (Setter.apply c s) = (get s).getD (proj c)) (setters : List Setter) (c : Config) :
    proj (setters.foldl Setter.apply c) = (lastSet get setters).getD (proj c) := by
  unfold lastSet
  induction setters generalizing c with
  | nil => rfl
  | cons s r ih =>
    rw [List.foldl_cons, ih, h, List.filterMap_cons]
    cases hs : get s with
    | none => simp
    | some v =>
      simp only [Option.getD_some]
      cases hr : List.filterMap get r with
      | nil => simp
      | cons x xs => simp [List.getLast?_cons]

/-- Default for an empty string. -/
def orDefault (s d : Str) : Str := if s = [] then d else s

/-- C44: the result of any chain of setter calls followed by `Build`: an error exactly when the port was never set or
last set to 0; otherwise every attribute is the last value given for it, with the defaults host "localhost" and base
path "/" for empty strings. The order of calls of different setters does not matter. -/
theorem builder_result (setters : List Setter) :
    runBuilder setters =
      if (lastSet setPort setters).getD 0 = 0 then .error c!"config port is required"
      else .ok {
        title := (lastSet setTitle setters).getD []
        description := (lastSet setDescription setters).getD []
        version := (lastSet setVersion setters).getD []
        contact := (lastSet setContact setters).getD {}
        license := (lastSet setLicense setters).getD {}
        secure := (lastSet setSecure setters).getD false
        host := orDefault ((lastSet setHost setters).getD []) c!"localhost"
        basePath := orDefault ((lastSet setBasePath setters).getD []) c!"/"
        port := (lastSet setPort setters).getD 0 } := by
  have h1 := foldl_set setTitle Config.title (by intro c s; cases s <;> rfl) setters {}
  have h2 := foldl_set setDescription Config.description (by intro c s; cases s <;> rfl) setters {}
  have h3 := foldl_set setVersion Config.version (by intro c s; cases s <;> rfl) setters {}
  have h4 := foldl_set setContact Config.contact (by intro c s; cases s <;> rfl) setters {}
  have h5 := foldl_set setLicense Config.license (by intro c s; cases s <;> rfl) setters {}
  have h6 := foldl_set setSecure Config.secure (by intro c s; cases s <;> rfl) setters {}
  have h7 := foldl_set setHost Config.host (by intro c s; cases s <;> rfl) setters {}
  have h8 := foldl_set setBasePath Config.basePath (by intro c s; cases s <;> rfl) setters {}
  have h9 := foldl_set setPort Config.port (by intro c s; cases s <;> rfl) setters {}
  unfold runBuilder
  generalize hc : setters.foldl Setter.apply {} = c at *
  have e1 : (({} : Config).title) = [] := rfl
  have e2 : (({} : Config).description) = [] := rfl
  have e3 : (({} : Config).version) = [] := rfl
  have e4 : (({} : Config).contact) = {} := rfl
  have e5 : (({} : Config).license) = {} := rfl
  have e6 : (({} : Config).secure) = false := rfl
  have e7 : (({} : Config).host) = [] := rfl
  have e8 : (({} : Config).basePath) = [] := rfl
  have e9 : (({} : Config).port) = 0 := rfl
  rw [e1] at h1; rw [e2] at h2; rw [e3] at h3; rw [e4] at h4; rw [e5] at h5; rw [e6] at h6; rw [e7] at h7
  rw [e8] at h8; rw [e9] at h9
  rw [← h1, ← h2, ← h3, ← h4, ← h5, ← h6, ← h7, ← h8, ← h9]
  obtain ⟨t, d, v, co, li, se, ho, ba, po⟩ := c
  simp only [buildConfig, Config.validate, orDefault]
  by_cases hh : ho = [] <;> by_cases hp : po = 0 <;> by_cases hb : ba = [] <;> simp [hh, hp, hb]

/-- C44: validation is idempotent: a built configuration is left as it is by another validation. -/
theorem built_config_valid (setters : List Setter) (c : Config) (h : runBuilder setters = .ok c) :
    c.validate = (c, none) ∧ c.port ≠ 0 ∧ c.host ≠ [] ∧ c.basePath ≠ [] := by
  rw [builder_result] at h
  split at h
  · cases h
  · rename_i hp
    have h := Except.ok.inj h
    subst h
    have hh : ∀ s, orDefault s c!"localhost" ≠ [] := by intro s; unfold orDefault; split <;> simp_all
    have hb : ∀ s, orDefault s c!"/" ≠ [] := by intro s; unfold orDefault; split <;> simp_all
    refine ⟨?_, hp, hh _, hb _⟩
    simp only [Config.validate, if_neg (hh _), if_neg (hb _), if_neg hp]

example : runBuilder [.port 1, .title c!"a", .port 8080, .host []] =
    .ok { title := c!"a", port := 8080, host := c!"localhost", basePath := c!"/" } := rfl
example : runBuilder [.port 8080, .port 0] = .error c!"config port is required" := rfl

end Astra.Props
