/-
C92, C93: the cache file is a JSON text, and what a load does with a file that is not one.
-/
import Verif.Props.Cache
import Verif.Props.JsonText

namespace Astra.Props
open Spec Run

/-- C92: the file that Cache has written, at any path without a YAML extension, is a JSON text. -/
theorem cache_file_is_json (L : Lib) (φ : Faults) (w w' : World Proc) (hs : Cacheable w.st.svc) (hy : isYaml (cachePathOf w.st.svc) = false)
    (h : cache L φ w = (w', .ok ())) :
    ∃ q text j, resolve w.cwd (cachePathOf w.st.svc) = some q ∧ w'.fs.look q = some (.file text) ∧ JsonText text j := by
  obtain ⟨q, text, h1, _, h2, h3⟩ := cache_inv h
  simp only [cacheText, hy, Bool.false_eq_true, if_false, Option.some.injEq] at h2
  subst h2
  exact ⟨q, _, encService w.st.svc, h1, h3, written_is_json false 0 _ (good_service hs.finite hs.confFinite)⟩

example : (cache exampleLib noFaults (cacheWorld c!"data/cache.json")).2 = .ok () ∧ isYaml c!"data/cache.json" = false := by decide

/-- C93, partial: a load from a path that ends in ".json" succeeds only if the file begins with a JSON text, of an object or of
null. Missing: what follows this text is not looked at, and any object will do, see below. -/
theorem load_reads_json_partial (L : Lib) (φ : Faults) (v v' : World Proc) (p : Str) (hp : c!".json" <:+ p)
    (h : loadCacheFrom L p φ v = (v', .ok ())) :
    ∃ q text t rest j, resolve v.cwd p = some q ∧ v.fs.look q = some (.file text) ∧ text = t ++ rest ∧ JsonText t j ∧
      (j = .null ∨ ∃ ms, j = .obj ms) := by
  obtain ⟨q, text, d, _, h1, h2, h3, _⟩ := loadCacheFrom_inv h
  unfold decodeCache at h3
  rw [if_pos (hasSuffix_iff.mpr hp)] at h3
  cases hj : decodeText text with
  | none => rw [hj] at h3; cases h3
  | some j =>
    rw [hj] at h3
    obtain ⟨t, rest, h4, h5⟩ := decoded_is_json text j hj
    refine ⟨q, text, t, rest, j, h1, h2, h5, h4, ?_⟩
    cases j with
    | null => exact .inl rfl
    | obj ms => exact .inr ⟨ms, rfl⟩
    | bool b => cases h3
    | num t => cases h3
    | str s => cases h3
    | arr xs => cases h3

theorem reading_call {α : Type} (p : Str) (f : FS → FPath → Except Errno α) (φ : Faults) (v : World Proc) :
    (Run.call (σ := Proc) p (reading f) atomicPart φ v).1 = { v with clock := v.clock + 1 } := by
  unfold Run.call reading atomicPart
  cases resolve v.cwd p with
  | none => rfl
  | some q =>
    simp only
    cases φ v.clock <;> cases f v.fs q <;> rfl

theorem loadCacheFrom_keeps (L : Lib) (p : Str) (φ : Faults) (v v' : World Proc) (r : Exit Unit) (h : loadCacheFrom L p φ v = (v', r)) :
    v'.fs = v.fs ∧ v'.cwd = v.cwd ∧ (r ≠ .ok () → v'.st = v.st) := by
  have hk := reading_call p FS.readFile φ v
  unfold loadCacheFrom at h
  cases hc : osReadFile (σ := Proc) p φ v with
  | mk v1 r1 =>
    have e : v1 = { v with clock := v.clock + 1 } := by rw [← hk]; exact (congrArg Prod.fst hc).symm
    subst e
    cases r1 with
    | ok text =>
      rw [Run.bind_ok hc] at h
      cases hd : decodeCache L p text with
      | error e => rw [hd] at h; cases h; exact ⟨rfl, rfl, fun _ => rfl⟩
      | ok d =>
        rw [hd] at h
        simp only at h
        rw [modifySvc_ok] at h
        cases h
        exact ⟨rfl, rfl, fun h => absurd rfl h⟩
    | err e => rw [Run.bind_err hc] at h; cases h; exact ⟨rfl, rfl, fun _ => rfl⟩
    | panic => rw [Run.bind_panic hc] at h; cases h; exact ⟨rfl, rfl, fun _ => rfl⟩
    | crash => rw [Run.bind_crash hc] at h; cases h; exact ⟨rfl, rfl, fun _ => rfl⟩

/-- C93: loading a cache changes no file, and if it does not succeed, whatever fails, it leaves the service as it was. -/
theorem load_failure_changes_nothing (L : Lib) (φ : Faults) (v v' : World Proc) (r : Exit Unit) (h : loadCache L φ v = (v', r)) :
    v'.fs = v.fs ∧ (r ≠ .ok () → v'.st = v.st) := by
  unfold loadCache at h
  rw [Run.bind_ok (getSvc_ok φ v)] at h
  have hk := reading_call (cachePathOf v.st.svc) FS.stat φ v
  cases hc : osStat (σ := Proc) (cachePathOf v.st.svc) φ v with
  | mk v1 r1 =>
    have e : v1 = { v with clock := v.clock + 1 } := by rw [← hk]; exact (congrArg Prod.fst hc).symm
    subst e
    cases r1 with
    | ok n =>
      rw [Run.bind_ok hc] at h
      have := loadCacheFrom_keeps L _ φ _ v' r h
      exact ⟨this.1, this.2.2⟩
    | err e => rw [Run.bind_err hc] at h; cases h; exact ⟨rfl, fun _ => rfl⟩
    | panic => rw [Run.bind_panic hc] at h; cases h; exact ⟨rfl, fun _ => rfl⟩
    | crash => rw [Run.bind_crash hc] at h; cases h; exact ⟨rfl, fun _ => rfl⟩

/-- The same for a load from a path of the caller's choice; it succeeds only by taking over the five parts of the service that are cached. -/
theorem load_changes_only (L : Lib) (p : Str) (φ : Faults) (v v' : World Proc) (r : Exit Unit) (h : loadCacheFrom L p φ v = (v', r)) :
    v'.fs = v.fs ∧ (r ≠ .ok () → v'.st = v.st) ∧
    ∃ a b c d e, v'.st = { v.st with svc :=
      { v.st.svc with inputs := a, outputs := b, config := c, routes := d, components := e } } := by
  obtain ⟨h1, _, h3⟩ := loadCacheFrom_keeps L p φ v v' r h
  refine ⟨h1, h3, ?_⟩
  by_cases hr : r = .ok ()
  · subst hr
    obtain ⟨q, text, d, _, _, _, _, rfl⟩ := loadCacheFrom_inv h
    exact ⟨_, _, _, _, _, rfl⟩
  · exact ⟨v.st.svc.inputs, v.st.svc.outputs, v.st.svc.config, v.st.svc.routes, v.st.svc.components, h3 hr⟩

/-- A process with a service and a file at the path of its cache. -/
def foundWorld (text : Str) : World Proc :=
  { fs := [([c!"w"], .dir), ([c!"w", c!"cache.json"], .file text)], cwd := [c!"w"]
    st := { svc := newService [.ginInput (some []), .jsonOutput c!"out", .cachePath c!"cache.json"] } }

/-- The hypotheses of the theorems above are met: a load that fails, on a file that is cut short. -/
example : (loadCache exampleLib noFaults (foundWorld c!"{\"inputs\":[")).2 = .err (.msg c!"invalid JSON") := by decide

/-- The letter case of the keys does not matter, and the last of equal keys counts. -/
example : (loadCache exampleLib noFaults (foundWorld c!"{\"INPUTS\":[{\"Mode\":\"a\"}],\"inputs\":[{\"mode\":\"b\",\"modE\":\"c\"}]}")).1.st.svc.inputs.map
    (·.mode) = [c!"c"] := by decide

/-- C93 does not hold in full: a file that is not a JSON text, and ones that are not the text of a service, are loaded, and the service
loses its inputs and outputs. -/
theorem not_load_reads_json :
    (¬ ∃ j, JsonText c!"{} <html>" j) ∧
    (∀ text, text = c!"{} <html>" ∨ text = c!"{\"openapi\":\"3.0.0\"}" ∨ text = c!"null" →
      (loadCache exampleLib noFaults (foundWorld text)).2 = .ok () ∧ (foundWorld text).st.svc.inputs ≠ [] ∧
      (loadCache exampleLib noFaults (foundWorld text)).1.st.svc.inputs = [] ∧
      (loadCache exampleLib noFaults (foundWorld text)).1.st.svc.outputs.length = 0) := by
  refine ⟨?_, ?_⟩
  · rintro ⟨j, h⟩
    obtain ⟨r, hr, hp⟩ := json_text_parse h
    have e : parseValue (c!"{} <html>".length + 1) c!"{} <html>" = some (.obj [], c!" <html>") := rfl
    rw [e] at hp
    obtain rfl : c!" <html>" = r := congrArg Prod.snd (Option.some.inj hp)
    have := hr '<' (by decide)
    revert this
    decide
  · rintro text (rfl | rfl | rfl) <;> decide

end Astra.Props
