/-
Helper lemmas about the handler analysis: a property of the components that every translation of the type of an argument of a context
method keeps is kept by the analysis of a route.
-/
import Verif.Lemmas.Handler

namespace Astra

/-- The property is kept by the translation of the types of these arguments. -/
def ArgsKeep (Γ : TypeEnv) (args : List ArgView) (I : List Field → Prop) : Prop :=
  ∀ a ∈ args, ∀ t, a.type = .ok t → ∀ k st pkg st' r, typeResult Γ true k st (some pkg) [] t = some (st', r) → I st → I st'

/-- The property is kept by the translation of the types of all arguments of context methods, and there are no custom functions. -/
def ProgKeeps (P : Prog) (I : List Field → Prop) : Prop :=
  P.customs = [] ∧ ∀ file id name, (P.view file id).func = .ok (true, name) → ArgsKeep P.types (P.view file id).args I

theorem runOp_keeps {Γ : TypeEnv} {args : List ArgView} {I : List Field → Prop} (h : ArgsKeep Γ args I) {k : Nat} {pkg : Str} {i : Nat} {op : Op}
    {st st' : List Field} {r : Res ParamVal} (ho : runOp Γ k pkg args i op st = some (st', r)) (hI : I st) : I st' := by
  cases op with
  | ignored => simp only [runOp] at ho; cases ho; exact hI
  | statusCode =>
    simp only [runOp] at ho
    split at ho
    · cases ho; exact hI
    · split at ho <;> (cases ho; exact hI)
  | value =>
    simp only [runOp] at ho
    split at ho
    · cases ho; exact hI
    · split at ho <;> (cases ho; exact hI)
  | expressionResult =>
    simp only [runOp] at ho
    split at ho
    · cases ho; exact hI
    · rename_i a ha
      split at ho
      · cases ho; exact hI
      · cases ho; exact hI
      · rename_i t ht
        have hm := List.mem_of_getElem? ha
        split at ho
        · cases ho
        · rename_i hr; cases ho; exact h a hm t ht _ _ _ _ _ hr hI
        · rename_i hr; cases ho; exact h a hm t ht _ _ _ _ _ hr hI
        · rename_i hr; cases ho; exact h a hm t ht _ _ _ _ _ hr hI

theorem runOps_keeps {Γ : TypeEnv} {args : List ArgView} {I : List Field → Prop} (h : ArgsKeep Γ args I) {k : Nat} {pkg : Str} {ops : Builder} :
    ∀ {st st' : List Field} {r : Res (List ParamVal)}, runOps Γ k pkg args ops st = some (st', r) → I st → I st' := by
  induction ops with
  | nil => intro st st' r ho hI; simp only [runOps] at ho; cases ho; exact hI
  | cons x ops ih =>
    obtain ⟨i, op⟩ := x
    intro st st' r ho hI
    simp only [runOps] at ho
    split at ho
    · cases ho
    · rename_i hr; cases ho; exact runOp_keeps h hr hI
    · rename_i hr; cases ho; exact runOp_keeps h hr hI
    · rename_i hr
      have h1 := runOp_keeps h hr hI
      split at ho
      · cases ho
      · rename_i hs; cases ho; exact ih hs h1
      · rename_i hs; cases ho; exact ih hs h1
      · rename_i hs; cases ho; exact ih hs h1

theorem build_keeps {Γ : TypeEnv} {args : List ArgView} {I : List Field → Prop} (h : ArgsKeep Γ args I) {k : Nat} {pkg : Str} {ops : Builder}
    {mapper : Mapper} {route : Option Route} {st st' : List Field} {r : Res Route}
    (ho : build Γ k pkg args ops mapper route st = some (st', r)) (hI : I st) : I st' := by
  simp only [build] at ho
  split at ho
  · cases ho
  · rename_i hs; cases ho; exact runOps_keeps h hs hI
  · rename_i hs; cases ho; exact runOps_keeps h hs hI
  · rename_i hs
    have h1 := runOps_keeps h hs hI
    split at ho <;> (cases ho; exact h1)

theorem contextCall_keeps {P : Prog} {I : List Field → Prop} {k : Nat} {pkg : Str} {view : CallView} (h : ArgsKeep P.types view.args I) {ops : Builder}
    {name : Str} {st st' : HState} {loc : Local} {r : Res (Local × Bool)} (ho : contextCall P k pkg view ops name st loc = some (st', r))
    (hI : I st.components) : I st'.components := by
  simp only [contextCall] at ho
  split at ho
  · cases ho; exact hI
  · split at ho
    · cases ho
    · rename_i hb; cases ho; exact build_keeps h hb hI
    · rename_i hb; cases ho; exact build_keeps h hb hI
    · rename_i hb; cases ho; exact build_keeps h hb hI

/-- The property is kept by the recursive calls. -/
def RecKeeps (rec : HRec) (I : List Field → Prop) : Prop :=
  ∀ st n f file st' r, rec st n f file = some (st', r) → I st.components → I st'.components

theorem callStep_keeps {P : Prog} {I : List Field → Prop} (h : ProgKeeps P I) {k : Nat} {rec : HRec} (hrec : RecKeeps rec I) {ctx : Str} {file : FileId}
    {id : Nat} {st st' : HState} {loc : Local} {r : Res (Local × Bool)} (ho : callStep P k rec ctx file id st loc = some (st', r))
    (hI : I st.components) : I st'.components := by
  unfold callStep at ho
  rw [h.1] at ho
  simp only [runCustoms] at ho
  split at ho
  · split at ho
    · cases ho; exact hI
    · cases ho; exact hI
    · split at ho
      · cases ho
      · rename_i hr; have h1 := hrec _ _ _ _ _ _ hr hI; cases ho; exact h1
      · rename_i hr; have h1 := hrec _ _ _ _ _ _ hr hI; cases ho; exact h1
      · rename_i hr; have h1 := hrec _ _ _ _ _ _ hr hI; cases ho; exact h1
  · split at ho
    · cases ho; exact hI
    · cases ho; exact hI
    · cases ho; exact hI
    · rename_i hf; exact contextCall_keeps (h.2 _ _ _ hf) ho hI

mutual
theorem inspectNode_keeps {P : Prog} {I : List Field → Prop} (h : ProgKeeps P I) {k : Nat} {rec : HRec} (hrec : RecKeeps rec I) {ctx : Str}
    {file : FileId} : ∀ (n : Node) {st st' : HState} {loc : Local} {r : Res Local}, inspectNode P k rec ctx file n st loc = some (st', r) →
      I st.components → I st'.components
  | .other children, st, st', loc, r, ho, hI => by
    simp only [inspectNode] at ho
    exact inspectNodes_keeps h hrec children ho hI
  | .call id children, st, st', loc, r, ho, hI => by
    simp only [inspectNode] at ho
    split at ho
    · cases ho
    · rename_i hc; cases ho; exact callStep_keeps h hrec hc hI
    · rename_i hc; cases ho; exact callStep_keeps h hrec hc hI
    · rename_i hc; exact inspectNodes_keeps h hrec children ho (callStep_keeps h hrec hc hI)
    · rename_i hc; cases ho; exact callStep_keeps h hrec hc hI
theorem inspectNodes_keeps {P : Prog} {I : List Field → Prop} (h : ProgKeeps P I) {k : Nat} {rec : HRec} (hrec : RecKeeps rec I) {ctx : Str}
    {file : FileId} : ∀ (ns : List Node) {st st' : HState} {loc : Local} {r : Res Local}, inspectNodes P k rec ctx file ns st loc = some (st', r) →
      I st.components → I st'.components
  | [], st, st', loc, r, ho, hI => by simp only [inspectNodes] at ho; cases ho; exact hI
  | n :: ns, st, st', loc, r, ho, hI => by
    simp only [inspectNodes] at ho
    split at ho
    · cases ho
    · rename_i hc; cases ho; exact inspectNode_keeps h hrec n hc hI
    · rename_i hc; cases ho; exact inspectNode_keeps h hrec n hc hI
    · rename_i hc; exact inspectNodes_keeps h hrec ns ho (inspectNode_keeps h hrec n hc hI)
end

theorem parseFunctionWith_keeps {P : Prog} {I : List Field → Prop} (h : ProgKeeps P I) {k : Nat} {rec : HRec} (hrec : RecKeeps rec I) {top : Bool}
    {st st' : HState} {nilRoute : Bool} {f : FuncId} {file : FileId} {r : Res Unit}
    (ho : parseFunctionWith P k rec top st nilRoute f file = some (st', r)) (hI : I st.components) : I st'.components := by
  simp only [parseFunctionWith] at ho
  split at ho
  · cases ho; exact hI
  · cases ho; exact hI
  · cases ho; exact hI
  · split at ho
    · cases ho
    · rename_i hi; cases ho; exact inspectNode_keeps h hrec _ hi hI
    · rename_i hi; cases ho; exact inspectNode_keeps h hrec _ hi hI
    · rename_i hi
      have h1 := inspectNode_keeps h hrec _ hi hI
      split at ho
      · cases ho; exact h1
      · split at ho
        · cases ho; exact h1
        · split at ho <;> (cases ho; exact h1)

theorem parseHelper_keeps {P : Prog} {I : List Field → Prop} (h : ProgKeeps P I) (k : Nat) : RecKeeps (parseHelper P k) I := by
  induction k with
  | zero => intro st n f file st' r ho; cases ho
  | succ k ih => intro st n f file st' r ho hI; exact parseFunctionWith_keeps h ih ho hI

theorem analyse_keeps {E : RouteEnv} {I : List Field → Prop} (h : ProgKeeps E.prog I) {k : Nat} {file : FileId} {f : FuncId} {cs cs' : List Field}
    {route : Route} {r : Res Route} (ho : analyse E k file f cs route = some (cs', r)) (hI : I cs) : I cs' := by
  unfold analyse at ho
  split at ho
  · cases ho
  · rename_i hp; cases ho; exact parseFunctionWith_keeps h (parseHelper_keeps h k) hp hI
  · rename_i hp; cases ho; exact parseFunctionWith_keeps h (parseHelper_keeps h k) hp hI
  · rename_i hp; cases ho; exact parseFunctionWith_keeps h (parseHelper_keeps h k) hp hI

mutual
theorem analyseLit_keeps {E : RouteEnv} {I : List Field → Prop} (h : ProgKeeps E.prog I) {k : Nat} {file : FileId} :
    ∀ (l : Lit) {cs cs' : List Field} {route : Route} {r : Res Route}, analyseLit E k file l cs route = some (cs', r) → I cs → I cs'
  | .mk line f inner, cs, cs', route, r, ho, hI => by
    simp only [analyseLit] at ho
    split at ho
    · exact analyse_keeps h ho hI
    · exact analyseLits_keeps h inner ho hI
theorem analyseLits_keeps {E : RouteEnv} {I : List Field → Prop} (h : ProgKeeps E.prog I) {k : Nat} {file : FileId} :
    ∀ (ls : List Lit) {cs cs' : List Field} {route : Route} {r : Res Route}, analyseLits E k file ls cs route = some (cs', r) → I cs → I cs'
  | [], cs, cs', route, r, ho, hI => by simp only [analyseLits] at ho; cases ho; exact hI
  | l :: ls, cs, cs', route, r, ho, hI => by
    simp only [analyseLits] at ho
    split at ho
    · cases ho
    · rename_i hl; cases ho; exact analyseLit_keeps h l hl hI
    · rename_i hl; cases ho; exact analyseLit_keeps h l hl hI
    · rename_i hl; exact analyseLits_keeps h ls ho (analyseLit_keeps h l hl hI)
end

theorem analyseDecls_keeps {E : RouteEnv} {I : List Field → Prop} (h : ProgKeeps E.prog I) {k : Nat} {file : FileId} {name : Str} :
    ∀ (ds : List FuncDecl) {cs cs' : List Field} {route : Route} {r : Res Route}, analyseDecls E k file name ds cs route = some (cs', r) → I cs → I cs'
  | [], cs, cs', route, r, ho, hI => by simp only [analyseDecls] at ho; cases ho; exact hI
  | d :: ds, cs, cs', route, r, ho, hI => by
    have hd : ∀ {cs1 r1}, analyseDecl E k file name d cs route = some (cs1, r1) → I cs1 := by
      intro cs1 r1 h1
      unfold analyseDecl at h1
      split at h1
      · split at h1
        · exact analyseLits_keeps h _ h1 hI
        · exact analyse_keeps h h1 hI
      · cases h1; exact hI
    simp only [analyseDecls] at ho
    split at ho
    · cases ho
    · rename_i hl; cases ho; exact hd hl
    · rename_i hl; cases ho; exact hd hl
    · rename_i hl; exact analyseDecls_keeps h ds ho (hd hl)

/-- The analysis of a route keeps the property. -/
theorem parseRoute_keeps {E : RouteEnv} {I : List Field → Prop} (h : ProgKeeps E.prog I) {k : Nat} {cs cs' : List Field} {route : Route} {r : Res Route}
    (ho : parseRoute E k cs route = some (cs', r)) (hI : I cs) : I cs' := by
  unfold parseRoute at ho
  simp only at ho
  split at ho
  · cases ho; exact hI
  · cases ho; exact hI
  · split at ho
    · cases ho; exact hI
    · split at ho
      · cases ho; exact hI
      · cases ho; exact hI
      · split at ho
        · cases ho; exact hI
        · split at ho
          · cases ho; exact hI
          · exact analyseDecls_keeps h _ ho hI

end Astra
