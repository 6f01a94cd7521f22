/-
C07: splitting handler names.
-/
import Verif.Lemmas.Basic
import Verif.Model.Paths
import Verif.Spec.Paths

namespace Astra.Props
open Astra.Spec

/-- Anatomy of a handler name: `dir` is everything up to and including the last '/', `base` the first dot-separated
part after it, `rest` what follows the first dot after the last slash (none if there is no such dot). -/
theorem splitHandlerPath_no_dot (dirs : List Str) (base : Str)
    (hd : ∀ d ∈ dirs, '/' ∉ d) (hb : '/' ∉ base ∧ '.' ∉ base) :
    splitHandlerPath (join c!"/" (dirs ++ [base])) = ⟨dirs ++ [base], []⟩ := by
  unfold splitHandlerPath
  rw [split_join (by simp) (by
    intro x hx; simp at hx; rcases hx with h | h
    · exact hd x h
    · subst h; exact hb.1)]
  simp [split_eq_singleton hb.2]

/-- C07: everything before the first dot after the last slash is the package path, everything after it the handler. -/
theorem splitHandlerPath_dot (dirs : List Str) (base rest : Str)
    (hd : ∀ d ∈ dirs, '/' ∉ d) (hb : '/' ∉ base ∧ '.' ∉ base) (hr : '/' ∉ rest) :
    (splitHandlerPath (join c!"/" (dirs ++ [base ++ '.' :: rest]))).packagePath = join c!"/" (dirs ++ [base]) ∧
    (splitHandlerPath (join c!"/" (dirs ++ [base ++ '.' :: rest]))).handler = rest ∧
    (splitHandlerPath (join c!"/" (dirs ++ [base ++ '.' :: rest]))).packageName = .ok base := by
  have hs : split '/' (join c!"/" (dirs ++ [base ++ '.' :: rest])) = dirs ++ [base ++ '.' :: rest] := by
    apply split_join (by simp)
    intro x hx; simp at hx; rcases hx with h | h
    · exact hd x h
    · subst h; simp [hb.1, hr]
  unfold splitHandlerPath HandlerPath.packagePath HandlerPath.handler HandlerPath.packageName
  rw [hs]
  simp [split_append_sep hb.2, join_split]

theorem join_snoc {sep : Str} (l : List Str) (x : Str) : join sep (l ++ [x]) = (l.map (· ++ sep)).flatten ++ x := by
  induction l with
  | nil => rfl
  | cons y l ih =>
    rw [List.cons_append, join_cons (by simp), ih]; simp

/-- C07: round trip. `packagePath + "." + handler` is the original name whenever the last '/'-segment contains a dot;
without such a dot the package path is the whole name and there is no handler. -/
theorem splitHandlerPath_roundtrip (s : Str) :
    (((splitHandlerPath s).handlerParts ≠ []) →
      (splitHandlerPath s).packagePath ++ '.' :: (splitHandlerPath s).handler = s) ∧
    (((splitHandlerPath s).handlerParts = []) → (splitHandlerPath s).packagePath = s) ∧
    (((splitHandlerPath s).handlerParts ≠ []) ↔ '.' ∈ ((split '/' s).getLastD [])) := by
  have hne := split_ne_nil '/' s
  have hlast : (split '/' s).dropLast ++ [(split '/' s).getLastD []] = split '/' s := by
    rw [List.getLastD_eq_getLast?, List.getLast?_eq_some_getLast hne]
    exact List.dropLast_concat_getLast hne
  have hjoin : join ['/'] (split '/' s) = s := join_split '/' s
  unfold splitHandlerPath HandlerPath.packagePath HandlerPath.handler
  simp only
  generalize hL : (split '/' s).getLastD [] = last at *
  generalize (split '/' s).dropLast = dirs at *
  have hdot := join_split '.' last
  have hnodot : ∀ x ∈ split '.' last, '.' ∉ x := fun x hx => split_no_sep x hx
  cases hsp : split '.' last with
  | nil => exact absurd hsp (split_ne_nil _ _)
  | cons a r =>
    rw [hsp] at hdot hnodot
    simp only [List.headD_cons, List.tail_cons]
    rw [← hlast, join_snoc] at hjoin
    refine ⟨?_, ?_, ?_⟩
    · intro hr
      rw [join_cons hr] at hdot
      rw [join_snoc, ← hjoin, ← hdot]
      simp
    · intro hr
      subst hr
      simp only [join] at hdot
      rw [join_snoc, hdot]; exact hjoin
    · constructor
      · intro hr; rw [join_cons hr] at hdot; rw [← hdot]; simp
      · intro hd hr
        subst hr
        simp only [join] at hdot
        exact hnodot a (by simp) (by rw [hdot]; exact hd)

/-- C07: `PackageName` never panics on a split name, and `FuncName` panics exactly when the last segment has no dot
(the caller checks this, parseRoute.go:41). -/
theorem splitHandlerPath_no_panic (s : Str) :
    (splitHandlerPath s).packageName.isPanic = false ∧
    ((splitHandlerPath s).funcName.isPanic = true ↔ '.' ∉ ((split '/' s).getLastD [])) := by
  refine ⟨?_, ?_⟩
  · unfold splitHandlerPath HandlerPath.packageName
    simp [Res.isPanic]
  · have h := (splitHandlerPath_roundtrip s).2.2
    rw [← h]
    unfold HandlerPath.funcName
    cases (splitHandlerPath s).handlerParts <;> simp [Res.isPanic]

/-- A name of the form that Go gives to functions is split into its package and the first name after it. -/
theorem split_function_name {full pkg name : Str} (h : GoFunctionName full pkg name) :
    (splitHandlerPath full).packagePath = pkg ∧ (splitHandlerPath full).funcName = .ok name := by
  obtain ⟨base, tail, hp, hb1, hb2, rfl, ht, hn, htail⟩ := h
  have key : ∀ dirs : List Str, (∀ d ∈ dirs, '/' ∉ d) → pkg = join c!"/" (dirs ++ [base]) →
      (splitHandlerPath (pkg ++ '.' :: tail)).packagePath = pkg ∧ (splitHandlerPath (pkg ++ '.' :: tail)).funcName = .ok name := by
    intro dirs hd e
    have e2 : pkg ++ '.' :: tail = join c!"/" (dirs ++ [base ++ '.' :: tail]) := by
      rw [e, join_snoc, join_snoc, List.append_assoc]
    obtain ⟨h1, _, _⟩ := splitHandlerPath_dot dirs base tail hd ⟨hb1, hb2⟩ ht
    refine ⟨by rw [e2, h1, e], ?_⟩
    rw [e2]
    have hs : split '/' (join c!"/" (dirs ++ [base ++ '.' :: tail])) = dirs ++ [base ++ '.' :: tail] := by
      apply split_join (by simp)
      intro x hx; simp at hx; rcases hx with h | h
      · exact hd x h
      · subst h; simp [hb1, ht]
    unfold splitHandlerPath HandlerPath.funcName
    rw [hs]
    have hx : split '.' (base ++ '.' :: tail) = base :: split '.' tail := split_append_sep hb2 _
    rcases htail with rfl | ⟨more, rfl⟩
    · simp [hx, split_eq_singleton hn]
    · simp [hx, split_append_sep hn]
  rcases hp with rfl | ⟨dir, rfl⟩
  · exact key [] (by simp) rfl
  · refine key (split '/' dir) (fun d hd => split_no_sep d hd) ?_
    rw [← List.dropLast_concat_getLast (split_ne_nil '/' dir), List.append_assoc, List.cons_append, List.nil_append]
    have hj := join_split '/' dir
    rw [← List.dropLast_concat_getLast (split_ne_nil '/' dir), join_snoc] at hj
    have hj2 : join c!"/" ((split '/' dir).dropLast ++ [(split '/' dir).getLast (split_ne_nil '/' dir), base]) =
        join c!"/" (((split '/' dir).dropLast ++ [(split '/' dir).getLast (split_ne_nil '/' dir)]) ++ [base]) := by simp
    rw [hj2, join_snoc, List.map_append, List.flatten_append]
    conv => lhs; rw [← hj]
    simp

example : GoFunctionName c!"github.com/x/y.Pets.Get-fm" c!"github.com/x/y" c!"Pets" :=
  ⟨c!"y", c!"Pets.Get-fm", Or.inr ⟨c!"github.com/x", rfl⟩, by decide, by decide, rfl, by decide, by decide, Or.inr ⟨c!"Get-fm", rfl⟩⟩

example : splitHandlerPath c!"github.com/x/y.Pets.Get-fm" =
    ⟨[c!"github.com", c!"x", c!"y"], [c!"Pets", c!"Get-fm"]⟩ := by decide
example : (splitHandlerPath c!"github.com/x/y.Pets.Get").packagePath = c!"github.com/x/y" ∧
    (splitHandlerPath c!"github.com/x/y.Pets.Get").handler = c!"Pets.Get" := by decide

end Astra.Props
