/-
Helper lemmas about the handler analysis: the result of a type does not depend on the components collected before, and
more fuel does not change an outcome.
-/
import Verif.Lemmas.TypeTraversal
import Verif.Spec.Handler

namespace Astra

/-- The outcome of a traversal without the components. -/
def outcome {α β : Type} (o : Option (α × β)) : Option β := o.map (·.2)

theorem outcome_some {α β : Type} {o : Option (α × β)} {b : β} (h : outcome o = some b) : ∃ a, o = some (a, b) := by
  cases o with
  | none => cases h
  | some x => exact ⟨x.1, by cases h; rfl⟩

theorem typeStep_indep (Γ : TypeEnv) (adding : Bool) (rec : TRec)
    (hrec : ∀ st1 st2 p n t, outcome (rec st1 p n t) = outcome (rec st2 p n t)) (t : GoType) :
    ∀ st1 st2 pkg name, outcome (typeStep Γ adding rec st1 pkg name t) = outcome (typeStep Γ adding rec st2 pkg name t) := by
  induction t using goType_induction with
  | basic k tn =>
    intro st1 st2 pkg name
    simp only [typeStep]
    split
    · rfl
    · cases pkg with
      | none => rfl
      | some p => simp only; split <;> rfl
  | named p tn a =>
    intro st1 st2 pkg name
    cases p with
    | none => rfl
    | some p =>
      simp only [typeStep]
      split
      · rfl
      · split
        · have h := hrec st1 st2 (some p) tn (Γ.underlying p tn a)
          cases h1 : rec st1 (some p) tn (Γ.underlying p tn a) with
          | none =>
            rw [h1] at h
            cases h2 : rec st2 (some p) tn (Γ.underlying p tn a) with
            | none => rfl
            | some y => rw [h2] at h; cases h
          | some x =>
            obtain ⟨s1, r1⟩ := x
            rw [h1] at h
            obtain ⟨s2, h2⟩ := outcome_some h.symm
            rw [h2]
            cases r1 <;> rfl
        · rfl
  | pointer e ih => intro st1 st2 pkg name; simp only [typeStep]; exact ih _ _ _ _
  | slice e ih =>
    intro st1 st2 pkg name
    simp only [typeStep]
    have h := ih st1 st2 pkg []
    cases h1 : typeStep Γ adding rec st1 pkg [] e with
    | none =>
      rw [h1] at h
      cases h2 : typeStep Γ adding rec st2 pkg [] e with
      | none => rfl
      | some y => rw [h2] at h; cases h
    | some x =>
      obtain ⟨s1, r1⟩ := x
      rw [h1] at h
      obtain ⟨s2, h2⟩ := outcome_some h.symm
      rw [h2]
      cases r1 <;> rfl
  | array l e ih =>
    intro st1 st2 pkg name
    simp only [typeStep]
    have h := ih st1 st2 pkg []
    cases h1 : typeStep Γ adding rec st1 pkg [] e with
    | none =>
      rw [h1] at h
      cases h2 : typeStep Γ adding rec st2 pkg [] e with
      | none => rfl
      | some y => rw [h2] at h; cases h
    | some x =>
      obtain ⟨s1, r1⟩ := x
      rw [h1] at h
      obtain ⟨s2, h2⟩ := outcome_some h.symm
      rw [h2]
      cases r1 <;> rfl
  | map k v ihk ihv =>
    intro st1 st2 pkg name
    simp only [typeStep]
    have h := ihk st1 st2 pkg []
    cases h1 : typeStep Γ adding rec st1 pkg [] k with
    | none =>
      rw [h1] at h
      cases h2 : typeStep Γ adding rec st2 pkg [] k with
      | none => rfl
      | some y => rw [h2] at h; cases h
    | some x =>
      obtain ⟨s1, r1⟩ := x
      rw [h1] at h
      obtain ⟨s2, h2⟩ := outcome_some h.symm
      rw [h2]
      cases r1 with
      | err e => rfl
      | panic m => rfl
      | ok kr =>
        simp only
        have h' := ihv s1 s2 pkg []
        cases h3 : typeStep Γ adding rec s1 pkg [] v with
        | none =>
          rw [h3] at h'
          cases h4 : typeStep Γ adding rec s2 pkg [] v with
          | none => rfl
          | some y => rw [h4] at h'; cases h'
        | some x =>
          obtain ⟨t1, q1⟩ := x
          rw [h3] at h'
          obtain ⟨t2, h4⟩ := outcome_some h'.symm
          rw [h4]
          cases q1 <;> rfl
  | struct fs ih =>
    intro st1 st2 pkg name
    have hs : ∀ (l : List (StructField × GoType)), (∀ e ∈ l, e ∈ fs) → ∀ st1 st2 acc,
        outcome (structStep Γ adding rec st1 pkg acc l) = outcome (structStep Γ adding rec st2 pkg acc l) := by
      intro l
      induction l with
      | nil => intro _ st1 st2 acc; rfl
      | cons e l ihl =>
        obtain ⟨g, u⟩ := e
        intro hl st1 st2 acc
        have ihl := ihl (fun e he => hl e (by simp [he]))
        simp only [structStep]
        split
        · exact ihl _ _ _
        · have h := ih (g, u) (hl _ (by simp)) st1 st2 pkg []
          cases h1 : typeStep Γ adding rec st1 pkg [] u with
          | none =>
            rw [h1] at h
            cases h2 : typeStep Γ adding rec st2 pkg [] u with
            | none => rfl
            | some y => rw [h2] at h; cases h
          | some x =>
            obtain ⟨s1, r1⟩ := x
            rw [h1] at h
            obtain ⟨s2, h2⟩ := outcome_some h.symm
            rw [h2]
            cases r1 with
            | err e => rfl
            | panic m => rfl
            | ok r =>
              simp only
              cases fieldDoc Γ r g.pos with
              | err e => rfl
              | panic m => rfl
              | ok d => exact ihl _ _ _
    simp only [typeStep]
    have h := hs fs (fun _ h => h) st1 st2 []
    cases h1 : structStep Γ adding rec st1 pkg [] fs with
    | none =>
      rw [h1] at h
      cases h2 : structStep Γ adding rec st2 pkg [] fs with
      | none => rfl
      | some y => rw [h2] at h; cases h
    | some x =>
      obtain ⟨s1, r1⟩ := x
      rw [h1] at h
      obtain ⟨s2, h2⟩ := outcome_some h.symm
      rw [h2]
      cases r1 <;> rfl
  | interface => intro st1 st2 pkg name; rfl
  | other => intro st1 st2 pkg name; rfl

/-- The result of a translation does not depend on the components collected before. -/
theorem typeResult_indep (Γ : TypeEnv) (adding : Bool) (k : Nat) : ∀ st1 st2 pkg name t,
    outcome (typeResult Γ adding k st1 pkg name t) = outcome (typeResult Γ adding k st2 pkg name t) := by
  induction k with
  | zero => intro st1 st2 pkg name t; exact typeStep_indep Γ adding _ (fun _ _ _ _ _ => rfl) t _ _ _ _
  | succ k ih => intro st1 st2 pkg name t; exact typeStep_indep Γ adding _ ih t _ _ _ _

/-! ### fuel -/

theorem runOp_mono (Γ : TypeEnv) {k k' : Nat} (h : k ≤ k') (pkg : Str) (args : List ArgView) (i : Nat) (op : Op) (st : List Field) (o)
    (ho : runOp Γ k pkg args i op st = some o) : runOp Γ k' pkg args i op st = some o := by
  cases op with
  | ignored => exact ho
  | statusCode => exact ho
  | value => exact ho
  | expressionResult =>
    simp only [runOp] at ho ⊢
    split at ho
    · exact ho
    · rename_i a ha
      cases ht : a.type with
      | err e => rw [ht] at ho; exact ho
      | panic m => rw [ht] at ho; exact ho
      | ok t =>
        rw [ht] at ho
        simp only at ho ⊢
        cases hr : typeResult Γ true k st (some pkg) [] t with
        | none => rw [hr] at ho; cases ho
        | some x => rw [hr] at ho; rw [typeResult_le Γ true h hr]; exact ho

theorem runOps_mono (Γ : TypeEnv) {k k' : Nat} (h : k ≤ k') (pkg : Str) (args : List ArgView) (ops : Builder) :
    ∀ (st : List Field) (o), runOps Γ k pkg args ops st = some o → runOps Γ k' pkg args ops st = some o := by
  induction ops with
  | nil => intro st o ho; exact ho
  | cons x ops ih =>
    obtain ⟨i, op⟩ := x
    intro st o ho
    simp only [runOps] at ho ⊢
    cases hr : runOp Γ k pkg args i op st with
    | none => rw [hr] at ho; cases ho
    | some y =>
      obtain ⟨s1, r1⟩ := y
      rw [runOp_mono Γ h _ _ _ _ _ _ hr]
      rw [hr] at ho
      cases r1 with
      | err e => exact ho
      | panic m => exact ho
      | ok v =>
        simp only at ho ⊢
        cases hs : runOps Γ k pkg args ops s1 with
        | none => rw [hs] at ho; cases ho
        | some z => rw [hs] at ho; rw [ih _ _ hs]; exact ho

theorem build_mono (Γ : TypeEnv) {k k' : Nat} (h : k ≤ k') (pkg : Str) (args : List ArgView) (ops : Builder) (mapper : Mapper)
    (route : Option Route) (st : List Field) (o)
    (ho : build Γ k pkg args ops mapper route st = some o) : build Γ k' pkg args ops mapper route st = some o := by
  simp only [build] at ho ⊢
  cases hs : runOps Γ k pkg args ops st with
  | none => rw [hs] at ho; cases ho
  | some z => rw [hs] at ho; rw [runOps_mono Γ h _ _ _ _ _ hs]; exact ho

theorem contextCall_mono (P : Prog) {k k' : Nat} (h : k ≤ k') (pkg : Str) (view : CallView) (ops : Builder) (name : Str) (st : HState)
    (loc : Local) (o) (ho : contextCall P k pkg view ops name st loc = some o) :
    contextCall P k' pkg view ops name st loc = some o := by
  simp only [contextCall] at ho ⊢
  cases hc : ctxCase name with
  | none => rw [hc] at ho; exact ho
  | some c =>
    rw [hc] at ho
    simp only at ho ⊢
    cases hs : build P.types k pkg view.args (ops.chain c.ops) c.mapper (if loc.nilRoute then none else some st.route) st.components with
    | none => rw [hs] at ho; cases ho
    | some z => rw [hs] at ho; rw [build_mono _ h _ _ _ _ _ _ _ hs]; exact ho

theorem callStep_mono (P : Prog) {k k' : Nat} (h : k ≤ k') (rec rec' : HRec)
    (hrec : ∀ st n f file o, rec st n f file = some o → rec' st n f file = some o)
    (ctx : Str) (file : FileId) (id : Nat) (st : HState) (loc : Local) (o)
    (ho : callStep P k rec ctx file id st loc = some o) : callStep P k' rec' ctx file id st loc = some o := by
  simp only [callStep] at ho ⊢
  rcases hc : runCustoms ctx (P.view st.active id) loc.nilRoute P.customs [] st with ⟨st', ops, r⟩
  rw [hc] at ho
  cases r with
  | err e => exact ho
  | panic m => exact ho
  | ok b =>
    cases b with
    | given => exact ho
    | fresh r => exact ho
    | nil =>
      simp only at ho ⊢
      split at ho
      · rename_i hp
        rw [if_pos hp]
        cases ht : (P.view st.active id).target with
        | err e => rw [ht] at ho; exact ho
        | panic m => rw [ht] at ho; exact ho
        | ok f =>
          rw [ht] at ho
          simp only at ho ⊢
          cases hr : rec { st' with active := (P.view st.active id).targetFile } loc.nilRoute f (P.view st.active id).targetFile with
          | none => rw [hr] at ho; cases ho
          | some z => rw [hr] at ho; rw [hrec _ _ _ _ _ hr]; exact ho
      · rename_i hp
        rw [if_neg hp]
        cases ht : (P.view st.active id).func with
        | err e => rw [ht] at ho; exact ho
        | panic m => rw [ht] at ho; exact ho
        | ok x =>
          obtain ⟨b, n⟩ := x
          rw [ht] at ho
          cases b with
          | false => exact ho
          | true => exact contextCall_mono P h _ _ _ _ _ _ _ ho

mutual
theorem inspectNode_mono (P : Prog) {k k' : Nat} (h : k ≤ k') (rec rec' : HRec)
    (hrec : ∀ st n f file o, rec st n f file = some o → rec' st n f file = some o) (ctx : Str) (file : FileId) :
    ∀ (n : Node) (st : HState) (loc : Local) (o), inspectNode P k rec ctx file n st loc = some o →
      inspectNode P k' rec' ctx file n st loc = some o
  | .other children, st, loc, o, ho => by
    simp only [inspectNode] at ho ⊢
    exact inspectNodes_mono P h rec rec' hrec ctx file children _ _ _ ho
  | .call id children, st, loc, o, ho => by
    simp only [inspectNode] at ho ⊢
    cases hc : callStep P k rec ctx file id st loc with
    | none => rw [hc] at ho; cases ho
    | some x =>
      obtain ⟨s1, r1⟩ := x
      rw [callStep_mono P h rec rec' hrec _ _ _ _ _ _ hc]
      rw [hc] at ho
      cases r1 with
      | err e => exact ho
      | panic m => exact ho
      | ok y =>
        obtain ⟨loc', b⟩ := y
        cases b with
        | false => exact ho
        | true => exact inspectNodes_mono P h rec rec' hrec ctx file children _ _ _ ho
theorem inspectNodes_mono (P : Prog) {k k' : Nat} (h : k ≤ k') (rec rec' : HRec)
    (hrec : ∀ st n f file o, rec st n f file = some o → rec' st n f file = some o) (ctx : Str) (file : FileId) :
    ∀ (ns : List Node) (st : HState) (loc : Local) (o), inspectNodes P k rec ctx file ns st loc = some o →
      inspectNodes P k' rec' ctx file ns st loc = some o
  | [], st, loc, o, ho => by simpa only [inspectNodes] using ho
  | n :: ns, st, loc, o, ho => by
    simp only [inspectNodes] at ho ⊢
    cases hc : inspectNode P k rec ctx file n st loc with
    | none => rw [hc] at ho; cases ho
    | some x =>
      obtain ⟨s1, r1⟩ := x
      rw [inspectNode_mono P h rec rec' hrec ctx file n _ _ _ hc]
      rw [hc] at ho
      cases r1 with
      | err e => exact ho
      | panic m => exact ho
      | ok loc' => exact inspectNodes_mono P h rec rec' hrec ctx file ns _ _ _ ho
end

theorem parseFunctionWith_mono (P : Prog) {k k' : Nat} (h : k ≤ k') (rec rec' : HRec)
    (hrec : ∀ st n f file o, rec st n f file = some o → rec' st n f file = some o) (top : Bool) (st : HState) (nilRoute : Bool)
    (f : FuncId) (file : FileId) (o) (ho : parseFunctionWith P k rec top st nilRoute f file = some o) :
    parseFunctionWith P k' rec' top st nilRoute f file = some o := by
  simp only [parseFunctionWith] at ho ⊢
  split at ho
  · exact ho
  · exact ho
  · exact ho
  · rename_i ctx hctx heq
    split at ho
    · cases ho
    · rename_i hi; rw [inspectNode_mono P h rec rec' hrec _ _ _ _ _ _ hi]; exact ho
    · rename_i hi; rw [inspectNode_mono P h rec rec' hrec _ _ _ _ _ _ hi]; exact ho
    · rename_i hi; rw [inspectNode_mono P h rec rec' hrec _ _ _ _ _ _ hi]; exact ho

theorem parseHelper_succ (P : Prog) (k : Nat) : ∀ st n f file o, parseHelper P k st n f file = some o →
    parseHelper P (k + 1) st n f file = some o := by
  induction k with
  | zero => intro st n f file o ho; cases ho
  | succ k ih =>
    intro st n f file o ho
    exact parseFunctionWith_mono P (Nat.le_succ k) _ _ ih false st n f file o ho

theorem parseHelper_le (P : Prog) {k k' : Nat} (h : k ≤ k') : ∀ st n f file o, parseHelper P k st n f file = some o →
    parseHelper P k' st n f file = some o := by
  induction h with
  | refl => intro st n f file o ho; exact ho
  | step _ ih => intro st n f file o ho; exact parseHelper_succ P _ _ _ _ _ _ (ih _ _ _ _ _ ho)

theorem parseFunction_le (P : Prog) {k k' : Nat} (h : k ≤ k') (comps : List Field) (route : Route) (f : FuncId) (file : FileId) (o)
    (ho : parseFunction P k comps route f file = some o) : parseFunction P k' comps route f file = some o :=
  parseFunctionWith_mono P h _ _ (parseHelper_le P h) true _ _ _ _ _ ho

end Astra
