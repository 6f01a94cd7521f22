/-
C14 (source order), C15 (panics), C17 (termination of the helper traversal).
-/
import Verif.Props.ContextFunc
import Verif.Lemmas.HandlerInv
import Verif.Props.Enums

namespace Astra.Props
open Astra.Spec

theorem runCustoms_inert {ctx : Str} {view : CallView} {fs : List CustomFunc} (h : ∀ f ∈ fs, Inert f) (ops : Builder) (st : HState) :
    runCustoms ctx view false fs ops st = (st, ops, .ok .nil) := by
  induction fs generalizing ops st with
  | nil => rfl
  | cons f fs ih =>
    have hf := h f (by simp) ctx view st.route ops st.components
    simp only [runCustoms, Bool.false_eq_true, if_false]
    rw [hf]
    exact ih (fun g hg => h g (by simp [hg])) _ _

theorem passes_any {view : CallView} {ctx : Str} (h : PassesContext view ctx) :
    view.args.any (fun a => decide (a.ident = some ctx)) = true := by
  obtain ⟨a, h1, h2⟩ := h
  rw [List.any_eq_true]
  exact ⟨a, h1, by simpa using h2⟩

theorem not_passes_any {view : CallView} {ctx : Str} (h : ¬ PassesContext view ctx) :
    ¬ (view.args.any (fun a => decide (a.ident = some ctx)) = true) := by
  intro hany
  rw [List.any_eq_true] at hany
  obtain ⟨a, h1, h2⟩ := hany
  exact h ⟨a, h1, by simpa using h2⟩

/-! ### C14 -/

theorem findContextName_skip (pre ps : List (ParamTy × List Str)) (h : ∀ p ∈ pre, ¬ IsGinContext p.1 ∧ ∀ n, p.1 ≠ .named none n) :
    findContextName (pre ++ ps) = findContextName ps := by
  induction pre with
  | nil => rfl
  | cons q pre ih =>
    have ih := ih (fun p hp => h p (by simp [hp]))
    obtain ⟨h1, h2⟩ := h q (by simp)
    obtain ⟨t, names⟩ := q
    simp only [IsGinContext, not_or] at h1
    match t, h1, h2 with
    | .notPointer, _, _ => simpa only [List.cons_append, findContextName] using ih
    | .other, _, _ => simpa only [List.cons_append, findContextName] using ih
    | .named none n, _, h2 => exact absurd rfl (h2 n)
    | .named (some p) n, h1, _ =>
      simp only [List.cons_append, findContextName]
      rw [if_neg (by rintro ⟨rfl, rfl⟩; exact h1.1 rfl)]
      exact ih
    | .basic n, h1, _ =>
      simp only [List.cons_append, findContextName]
      rw [if_neg (by rintro rfl; exact h1.2 rfl)]
      exact ih

/-- The variable the analysis follows is the first parameter of type `*gin.Context`, and nothing else. -/
theorem context_parameter_found (P : Prog) (f : FuncId) (file : FileId) (ctx : Str) (hne : ctx ≠ []) :
    findContextName ((P.funcs f).params file) = .ok ctx ↔ ContextParam P f file ctx := by
  constructor
  · intro h
    refine ⟨hne, ?_⟩
    generalize (P.funcs f).params file = ps at h
    induction ps with
    | nil => cases h; exact absurd rfl hne
    | cons q ps ih =>
      obtain ⟨t, names⟩ := q
      have skip : ¬ IsGinContext t → (∀ n, t ≠ .named none n) → findContextName ps = .ok ctx →
          ∃ pre t' names' post, (t, names) :: ps = pre ++ (t', ctx :: names') :: post ∧ IsGinContext t' ∧
            ∀ p ∈ pre, ¬ IsGinContext p.1 ∧ ∀ n, p.1 ≠ .named none n := by
        intro h1 h2 h3
        obtain ⟨pre, t', names', post, rfl, h4, h5⟩ := ih h3
        refine ⟨(t, names) :: pre, t', names', post, rfl, h4, ?_⟩
        intro p hp
        rcases List.mem_cons.1 hp with rfl | hp
        · exact ⟨h1, h2⟩
        · exact h5 p hp
      match t, h with
      | .notPointer, h => exact skip (by simp [IsGinContext]) (by simp) (by simpa only [findContextName] using h)
      | .other, h => exact skip (by simp [IsGinContext]) (by simp) (by simpa only [findContextName] using h)
      | .named none n, h => cases h
      | .named (some p) n, h =>
        simp only [findContextName] at h
        split at h
        · rename_i hp
          obtain ⟨rfl, rfl⟩ := hp
          match names, h with
          | x :: names, h => cases h; exact ⟨[], _, names, ps, rfl, Or.inl rfl, by simp⟩
        · rename_i hp
          exact skip (by simpa [IsGinContext, ginPackage, ginContextType] using hp) (by simp) h
      | .basic n, h =>
        simp only [findContextName] at h
        split at h
        · rename_i hp
          subst hp
          match names, h with
          | x :: names, h => cases h; exact ⟨[], _, names, ps, rfl, Or.inr rfl, by simp⟩
        · rename_i hp
          exact skip (by simpa [IsGinContext, ginPackage, ginContextType] using hp) (by simp) h
  · rintro ⟨_, pre, t, names, post, h1, h2, h3⟩
    rw [h1, findContextName_skip pre _ h3]
    rcases h2 with rfl | rfl
    · simp only [findContextName]
      rw [if_pos ⟨rfl, rfl⟩]
    · simp only [findContextName]
      exact if_pos rfl

theorem runCustoms_leave {ctx : Str} {view : CallView} {fs : List CustomFunc} (h : ∀ f ∈ fs, Leaves f ctx view) (rest : List CustomFunc)
    (st : HState) : runCustoms ctx view false (fs ++ rest) [] st = runCustoms ctx view false rest [] st := by
  induction fs with
  | nil => rfl
  | cons f fs ih =>
    have hf := h f (by simp) st.route st.components
    simp only [List.cons_append, runCustoms, Bool.false_eq_true, if_false]
    rw [hf]
    exact ih (fun g hg => h g (by simp [hg]))

theorem runCustoms_allLeave {P : Prog} {ctx : Str} {view : CallView} (h : AllLeave P ctx view) (st : HState) :
    runCustoms ctx view false P.customs [] st = (st, [], .ok .nil) := by
  have := runCustoms_leave h [] st
  rwa [List.append_nil] at this

theorem callStep_takes {P : Prog} {ctx : Str} {file : FileId} {id : Nat} {e : Route → Route} (h : FirstTakes P ctx (P.view file id) e)
    (k : Nat) (rec : HRec) (st : HState) (hst : st.active = file) (err : Option Str) :
    ∃ comps, st.components <+: comps ∧
      callStep P k rec ctx file id st { err := err } = some ({ route := e st.route, components := comps, active := file }, .ok ({}, true)) := by
  obtain ⟨before, f, after, h1, h2, h3⟩ := h
  obtain ⟨ops, comps, hp, h4⟩ := h3 st.route st.components
  refine ⟨comps, hp, ?_⟩
  have hrun : runCustoms ctx (P.view file id) false P.customs [] st = ({ st with route := e st.route, components := comps }, ops, .ok .given) := by
    rw [h1, runCustoms_leave h2]
    simp only [runCustoms, Bool.false_eq_true, if_false, h4]
  subst hst
  simp only [callStep, hrun]

/-- The type was translated before the components became these. -/
def Translated (Γ : TypeEnv) (t : GoType) (comps : List Field) : Prop :=
  ∃ pkg c c' r, Translates Γ c (some pkg) t (c', .ok r) ∧ c' <+: comps

theorem Translated.mono {Γ : TypeEnv} {t : GoType} {comps comps' : List Field} (h : Translated Γ t comps) (hp : comps <+: comps') :
    Translated Γ t comps' := by
  obtain ⟨pkg, c, c', r, h1, h2⟩ := h
  exact ⟨pkg, c, c', r, h1, h2.trans hp⟩

/-- The types of all arguments that context methods read as expressions were translated. -/
def TranslatedAll (P : Prog) (file : FileId) (ctx : Str) (nodes : List Node) (comps : List Field) : Prop :=
  ∀ (pkg m : Str) (args : List ArgView) (c : CtxCase) (i : Nat) (a : ArgView) (t : GoType), Calls P file ctx nodes pkg m args → ctxCase m = some c → c.ops[i]? = some .expressionResult → args[i]? = some a →
    a.type = .ok t → Translated P.types t comps

theorem TranslatedAll.mono {P : Prog} {file : FileId} {ctx : Str} {nodes : List Node} {comps comps' : List Field}
    (h : TranslatedAll P file ctx nodes comps) (hp : comps <+: comps') : TranslatedAll P file ctx nodes comps' :=
  fun pkg m args c i a t h1 h2 h3 h4 h5 => (h pkg m args c i a t h1 h2 h3 h4 h5).mono hp

theorem translated_other {P : Prog} {file : FileId} {ctx : Str} {children rest : List Node} {comps : List Field}
    (h1 : TranslatedAll P file ctx children comps) (h2 : TranslatedAll P file ctx rest comps) :
    TranslatedAll P file ctx (.other children :: rest) comps := by
  intro pkg m args c i a t hc hm hi ha ht
  cases hc with
  | under h => exact h1 _ _ _ _ _ _ _ h hm hi ha ht
  | later h => exact h2 _ _ _ _ _ _ _ h hm hi ha ht

/-- A function has one context parameter. -/
theorem contextParam_unique {P : Prog} {f : FuncId} {file : FileId} {ctx ctx' : Str} (h : ContextParam P f file ctx)
    (h' : ContextParam P f file ctx') : ctx = ctx' := by
  have h1 := (context_parameter_found P _ _ _ h.1).2 h
  have h2 := (context_parameter_found P _ _ _ h'.1).2 h'
  rw [h1] at h2
  cases h2
  rfl

theorem translated_helper {P : Prog} {file : FileId} {ctx : Str} {id : Nat} {children rest : List Node} {comps : List Field} {f : FuncId} {ctx' : Str}
    (hp : PassesContext (P.view file id) ctx) (ht : (P.view file id).target = .ok f)
    (hc : ContextParam P f (P.view file id).targetFile ctx')
    (h0 : TranslatedAll P (P.view file id).targetFile ctx' (P.funcs f).body comps)
    (h1 : TranslatedAll P file ctx children comps) (h2 : TranslatedAll P file ctx rest comps) :
    TranslatedAll P file ctx (.call id children :: rest) comps := by
  intro pkg m args c i a t hcall hm hi ha ht'
  cases hcall with
  | here h => exact absurd hp h
  | helper _ h4 h5 h6 =>
    rw [ht] at h4
    cases h4
    cases contextParam_unique hc h5
    exact h0 _ _ _ _ _ _ _ h6 hm hi ha ht'
  | inside _ h => exact h1 _ _ _ _ _ _ _ h hm hi ha ht'
  | later h => exact h2 _ _ _ _ _ _ _ h hm hi ha ht'

theorem translated_here {P : Prog} {file : FileId} {ctx : Str} {id : Nat} {children rest : List Node} {comps : List Field}
    (hp : ¬ PassesContext (P.view file id) ctx)
    (h0 : ∀ (m : Str), (P.view file id).func = .ok (true, m) → ∀ (c : CtxCase) (i : Nat) (a : ArgView) (t : GoType), ctxCase m = some c → c.ops[i]? = some .expressionResult →
      (P.view file id).args[i]? = some a → a.type = .ok t → Translated P.types t comps)
    (h1 : TranslatedAll P file ctx children comps) (h2 : TranslatedAll P file ctx rest comps) :
    TranslatedAll P file ctx (.call id children :: rest) comps := by
  intro pkg m args c i a t hcall hm hi ha ht
  cases hcall with
  | here _ h => exact h0 m h c i a t hm hi ha ht
  | helper h => exact absurd h hp
  | inside _ h => exact h1 _ _ _ _ _ _ _ h hm hi ha ht
  | later h => exact h2 _ _ _ _ _ _ _ h hm hi ha ht

theorem no_customs_take {P : Prog} {ctx : Str} {view : CallView} {e : Route → Route} (h : P.customs = []) : ¬ FirstTakes P ctx view e := by
  rintro ⟨before, f, after, h1, _⟩
  rw [h] at h1
  cases before <;> cases h1

theorem runOps_translates {Γ : TypeEnv} {k : Nat} {pkg : Str} {args : List ArgView} {ops : Builder} :
    ∀ {st st' : List Field} {vs : List ParamVal}, runOps Γ k pkg args ops st = some (st', .ok vs) →
      ∀ i a t, (i, Op.expressionResult) ∈ ops → args[i]? = some a → a.type = .ok t → Translated Γ t st' := by
  induction ops with
  | nil => intro st st' vs _ i a t h; cases h
  | cons x ops ih =>
    obtain ⟨j, op⟩ := x
    intro st st' vs h i a t hm ha ht
    simp only [runOps] at h
    split at h
    · cases h
    · cases h
    · cases h
    · rename_i st1 v hr
      split at h
      · cases h
      · rename_i hs
        cases h
        rcases List.mem_cons.1 hm with heq | hm
        · cases heq
          simp only [runOp, ha, ht] at hr
          split at hr
          · cases hr
          · rename_i ht'
            cases hr
            refine ⟨pkg, _, _, _, ⟨k, ht'⟩, ?_⟩
            exact runOps_keeps (I := fun c => st1 <+: c)
              (fun a _ t _ k st pkg st' r h hI => hI.trans (typeResult_prefix Γ true k _ _ _ _ _ _ h)) hs (List.prefix_refl _)
          · cases hr
          · cases hr
        · exact ih hs i a t hm ha ht
      · cases h
      · cases h

theorem contextCall_translates {P : Prog} {k : Nat} {pkg : Str} {view : CallView} {m : Str} {st st' : HState} {loc loc' : Local} {b : Bool}
    (h : contextCall P k pkg view [] m st loc = some (st', .ok (loc', b))) (hok : loc'.err = none) {c : CtxCase} {i : Nat} {a : ArgView}
    {t : GoType} (hm : ctxCase m = some c) (hi : c.ops[i]? = some .expressionResult) (ha : view.args[i]? = some a) (ht : a.type = .ok t) :
    Translated P.types t st'.components := by
  simp only [contextCall, hm] at h
  split at h
  · cases h
  · rename_i hb
    cases h
    simp only [build] at hb
    split at hb
    · cases hb
    · cases hb
    · cases hb
    · rename_i hr
      have hmem : (i, Op.expressionResult) ∈ Builder.chain [] c.ops := by
        rw [chain_reads_in_order]
        refine List.mem_of_getElem? (i := i) ?_
        rw [List.getElem?_mapIdx, hi]
        rfl
      have := runOps_translates hr i a t hmem ha ht
      split at hb <;> cases hb
      exact this
  · cases h; cases hok
  · cases h

theorem takes_not_leave {P : Prog} {ctx : Str} {view : CallView} {e : Route → Route} (h : FirstTakes P ctx view e) : ¬ AllLeave P ctx view := by
  intro hl
  obtain ⟨before, f, after, h1, _, h3⟩ := h
  obtain ⟨ops, comps', _, h4⟩ := h3 {} []
  have := hl f (by rw [h1]; simp) {} []
  rw [h4] at this
  exact absurd (congrArg CustomOut.res this) (by simp)

/-- Whether a function has a context parameter is settled. -/
theorem context_or_not {P : Prog} {f : FuncId} {file : FileId} {ctx : Str} (h : ContextParam P f file ctx) : ¬ NoContextParam P f file := by
  intro hn
  obtain ⟨_, pre, t, names, post, h1, h2, _⟩ := h
  exact (hn (t, ctx :: names) (by rw [h1]; simp)).1 h2

theorem no_context_found {P : Prog} {f : FuncId} {file : FileId} (h : NoContextParam P f file) :
    findContextName ((P.funcs f).params file) = .ok [] := by
  have := findContextName_skip ((P.funcs f).params file) [] h
  rwa [List.append_nil] at this

/-- Whether the last node is a call that is not followed does not depend on how one looks at it. -/
theorem changes_end_unique {P : Prog} {file : FileId} {ctx : Str} {b b' : Bool} {nodes : List Node} {es : List (Route → Route)}
    (h : ChangesTo P file ctx b nodes es b') : ∀ {b2' es2}, ChangesTo P file ctx b nodes es2 b2' → b' = b2' := by
  induction h with
  | nil => intro _ _ h; cases h; rfl
  | other _ _ ih1 ih2 =>
    intro _ _ h
    cases h with
    | other k1 k2 => cases ih1 k1; exact ih2 k2
  | custom hc _ _ ih1 ih2 =>
    intro _ _ h
    cases h with
    | custom _ k1 k2 => cases ih1 k1; exact ih2 k2
    | helper hl | plain hl | unsupported hl | context hl | unresolved hl | lost hl | noContext hl | brokenHelper hl => exact absurd hl (takes_not_leave hc)
  | helper hl hp ht hc _ _ _ ih0 ih1 ih2 =>
    intro _ _ h
    cases h with
    | custom hc => exact absurd hl (takes_not_leave hc)
    | helper _ _ _ _ _ k1 k2 => cases ih1 k1; exact ih2 k2
    | plain _ h | unsupported _ h | context _ h | unresolved _ h => exact absurd hp h
    | lost _ _ h => rw [ht] at h; cases h
    | noContext _ _ h hf hn => rw [ht] at h; cases h; rw [hf] at hc; exact absurd hn (context_or_not hc)
    | brokenHelper _ _ h hf hc' k0 =>
      rw [ht] at h; cases h
      rw [hf] at hc ih0
      cases contextParam_unique hc hc'
      cases ih0 k0
  | plain hl hp hf _ _ ih1 ih2 =>
    intro _ _ h
    cases h with
    | custom hc => exact absurd hl (takes_not_leave hc)
    | plain _ _ _ k1 k2 => cases ih1 k1; exact ih2 k2
    | unsupported _ _ h | context _ _ h | unresolved _ _ h => rw [hf] at h; cases h
    | helper _ h | lost _ h | noContext _ h | brokenHelper _ h => exact absurd h hp
  | unsupported hl hp hf hm _ _ ih1 ih2 =>
    intro _ _ h
    cases h with
    | custom hc => exact absurd hl (takes_not_leave hc)
    | plain _ _ h | unresolved _ _ h => rw [hf] at h; cases h
    | unsupported _ _ _ _ k1 k2 => cases ih1 k1; exact ih2 k2
    | context _ _ _ _ k1 k2 => cases ih1 k1; exact ih2 k2
    | helper _ h | lost _ h | noContext _ h | brokenHelper _ h => exact absurd h hp
  | context hl hp hf hd _ _ ih1 ih2 =>
    intro _ _ h
    cases h with
    | custom hc => exact absurd hl (takes_not_leave hc)
    | plain _ _ h | unresolved _ _ h => rw [hf] at h; cases h
    | unsupported _ _ _ _ k1 k2 => cases ih1 k1; exact ih2 k2
    | context _ _ _ _ k1 k2 => cases ih1 k1; exact ih2 k2
    | helper _ h | lost _ h | noContext _ h | brokenHelper _ h => exact absurd h hp
  | unresolved hl hp hf _ ih =>
    intro _ _ h
    cases h with
    | custom hc => exact absurd hl (takes_not_leave hc)
    | plain _ _ h | unsupported _ _ h | context _ _ h => rw [hf] at h; cases h
    | unresolved _ _ _ k => exact ih k
    | helper _ h | lost _ h | noContext _ h | brokenHelper _ h => exact absurd h hp
  | lost hl hp ht _ _ ih =>
    intro _ _ h
    cases h with
    | custom hc => exact absurd hl (takes_not_leave hc)
    | plain _ h | unsupported _ h | context _ h | unresolved _ h => exact absurd hp h
    | lost _ _ _ _ k => exact ih k
    | helper _ _ h | noContext _ _ h | brokenHelper _ _ h => rw [ht] at h; cases h
  | noContext hl hp ht hfile hn _ ih =>
    intro _ _ h
    cases h with
    | custom hc => exact absurd hl (takes_not_leave hc)
    | plain _ h | unsupported _ h | context _ h | unresolved _ h => exact absurd hp h
    | lost _ _ h => rw [ht] at h; cases h
    | helper _ _ h hc => rw [ht] at h; cases h; rw [hfile] at hc; exact absurd hn (context_or_not hc)
    | noContext _ _ _ _ _ k => exact ih k
    | brokenHelper _ _ h _ hc => rw [ht] at h; cases h; exact absurd hn (context_or_not hc)
  | brokenHelper hl hp ht hfile hc _ _ ih0 ih =>
    intro _ _ h
    cases h with
    | custom hc => exact absurd hl (takes_not_leave hc)
    | plain _ h | unsupported _ h | context _ h | unresolved _ h => exact absurd hp h
    | lost _ _ h => rw [ht] at h; cases h
    | helper _ _ h hc' k0 =>
      rw [ht] at h; cases h
      rw [hfile] at hc' k0
      cases contextParam_unique hc hc'
      cases ih0 k0
    | noContext _ _ h _ hn => rw [ht] at h; cases h; exact absurd hn (context_or_not hc)
    | brokenHelper _ _ _ _ _ _ k => exact ih k

theorem changes_of_analysed {P : Prog} {file : FileId} {ctx : Str} {b b' : Bool} {nodes : List Node} {es : List Entry}
    (h : AnalysedTo P file ctx b nodes es b') : ChangesTo P file ctx b nodes (es.map Entry.addTo) b' := by
  induction h with
  | nil => exact .nil
  | other _ _ ih1 ih2 => rw [List.map_append]; exact .other ih1 ih2
  | custom hc _ _ _ ih1 ih2 => rw [List.map_cons, List.map_append]; exact .custom hc ih1 ih2
  | helper hl hp ht hc _ _ _ ih0 ih1 ih2 =>
    rw [List.map_append, List.map_append]; exact .helper hl hp ht hc ih0 ih1 ih2
  | plain hl hp hf _ _ ih1 ih2 => rw [List.map_append]; exact .plain hl hp hf ih1 ih2
  | unsupported hl hp hf hm _ _ ih1 ih2 => rw [List.map_append]; exact .unsupported hl hp hf hm ih1 ih2
  | context hl hp hf hd _ _ ih1 ih2 => rw [List.map_cons, List.map_append]; exact .context hl hp hf hd ih1 ih2
  | unresolved hl hp hf _ ih => exact .unresolved hl hp hf ih
  | lost hl hp ht hf _ ih => exact .lost hl hp ht hf ih
  | noContext hl hp ht hf hn _ ih => exact .noContext hl hp ht hf hn ih
  | brokenHelper hl hp ht hf hc _ _ ih0 ih => rw [List.map_append]; exact .brokenHelper hl hp ht hf hc ih0 ih

/-- The calls at which the analysis goes no further are not followed. -/
theorem unresolved_not_followed {P : Prog} {file : FileId} {ctx : Str} {id : Nat} {m : Str} (hl : AllLeave P ctx (P.view file id))
    (hp : ¬ PassesContext (P.view file id) ctx) (hf : (P.view file id).func = .err m) : ¬ Followed P file ctx id := by
  rintro (⟨e, h⟩ | ⟨_, x, h⟩ | ⟨h, _⟩)
  · exact takes_not_leave h hl
  · rw [hf] at h; cases h
  · exact hp h

theorem lost_not_followed {P : Prog} {file : FileId} {ctx : Str} {id : Nat} {m : Str} (hl : AllLeave P ctx (P.view file id))
    (hp : PassesContext (P.view file id) ctx) (ht : (P.view file id).target = .err m) : ¬ Followed P file ctx id := by
  rintro (⟨e, h⟩ | ⟨h, _⟩ | ⟨_, f, ctx', es, h, _⟩)
  · exact takes_not_leave h hl
  · exact h hp
  · rw [ht] at h; cases h

theorem noContext_not_followed {P : Prog} {file : FileId} {ctx : Str} {id : Nat} {f : FuncId} (hl : AllLeave P ctx (P.view file id))
    (hp : PassesContext (P.view file id) ctx) (ht : (P.view file id).target = .ok f) (hfile : (P.view file id).targetFile = file)
    (hn : NoContextParam P f file) : ¬ Followed P file ctx id := by
  rintro (⟨e, h⟩ | ⟨h, _⟩ | ⟨_, f', ctx', es, h, hc, _⟩)
  · exact takes_not_leave h hl
  · exact h hp
  · rw [ht] at h; cases h
    rw [hfile] at hc
    exact context_or_not hc hn

theorem broken_not_followed {P : Prog} {file : FileId} {ctx ctx' : Str} {id : Nat} {f : FuncId} {es0 : List (Route → Route)}
    (hl : AllLeave P ctx (P.view file id))
    (hp : PassesContext (P.view file id) ctx) (ht : (P.view file id).target = .ok f) (hfile : (P.view file id).targetFile = file)
    (hc : ContextParam P f file ctx') (h0 : ChangesTo P file ctx' true (P.funcs f).body es0 false) : ¬ Followed P file ctx id := by
  rintro (⟨e, h⟩ | ⟨h, _⟩ | ⟨_, f', ctx'', es, h, hc', h0'⟩)
  · exact takes_not_leave h hl
  · exact h hp
  · rw [ht] at h; cases h
    rw [hfile] at hc' h0'
    cases contextParam_unique hc hc'
    exact absurd (changes_end_unique h0 (changes_of_analysed h0')) (by decide)

theorem translated_stop {P : Prog} {file : FileId} {ctx : Str} {id : Nat} {children rest : List Node} {comps : List Field}
    (h0 : ∀ m, (P.view file id).func = .ok (true, m) → PassesContext (P.view file id) ctx)
    (h1 : ∀ f ctx', PassesContext (P.view file id) ctx → (P.view file id).target = .ok f → ContextParam P f (P.view file id).targetFile ctx' →
      TranslatedAll P (P.view file id).targetFile ctx' (P.funcs f).body comps)
    (hf : ¬ Followed P file ctx id) (h2 : TranslatedAll P file ctx rest comps) :
    TranslatedAll P file ctx (.call id children :: rest) comps := by
  intro pkg m args c i a t hcall hm hi ha ht'
  cases hcall with
  | here h h' => exact absurd (h0 m h') h
  | helper h3 h4 h5 h6 => exact h1 _ _ h3 h4 h5 _ _ _ _ _ _ _ h6 hm hi ha ht'
  | inside h _ => exact absurd h hf
  | later h => exact h2 _ _ _ _ _ _ _ h hm hi ha ht'

theorem changes_inspect_all (P : Prog) {file : FileId} {ctx : Str} {b b' : Bool} {nodes : List Node} {es : List (Route → Route)}
    (h : ChangesTo P file ctx b nodes es b') :
    ∃ k0, ∀ k, k0 ≤ k → ∀ (st : HState) (err : Option Str), st.active = file → (b = true ↔ err = none) → ∃ comps err', st.components <+: comps ∧
      (b' = true ↔ err' = none) ∧
      (P.customs = [] → TranslatedAll P file ctx nodes comps) ∧
      inspectNodes P k (parseHelper P k) ctx file nodes st { err := err } =
        some ({ route := es.foldl (fun r e => e r) st.route, components := comps, active := file }, .ok { err := err' }) := by
  induction h with
  | nil =>
    refine ⟨0, fun k _ st err hst hb => ⟨st.components, err, List.prefix_refl _, hb, (fun _ _ _ _ _ _ _ _ h => nomatch h), ?_⟩⟩
    subst hst
    simp only [inspectNodes, List.foldl_nil]
  | @other file ctx b b1 b2 children rest es es' h1 h2 ih1 ih2 =>
    obtain ⟨k1, ih1⟩ := ih1
    obtain ⟨k2, ih2⟩ := ih2
    refine ⟨max k1 k2, fun k hk st err hst _ => ?_⟩
    obtain ⟨c1, x1, p1, b1, t1, e1⟩ := ih1 k (by omega) st none hst (by simp)
    obtain ⟨c2, x2, p2, b2, t2, e2⟩ := ih2 k (by omega) { route := es.foldl (fun r e => e r) st.route, components := c1, active := file } x1 rfl b1
    refine ⟨c2, x2, p1.trans p2, b2, fun hno => translated_other ((t1 hno).mono p2) (t2 hno), ?_⟩
    simp only [inspectNodes, inspectNode, e1]
    rw [e2, List.foldl_append]
  | @custom file ctx b b1 b2 id children rest e es es' hc h1 h2 ih1 ih2 =>
    obtain ⟨k1, ih1⟩ := ih1
    obtain ⟨k2, ih2⟩ := ih2
    refine ⟨max k1 k2, fun k hk st err hst _ => ?_⟩
    obtain ⟨c0, p0, hcall⟩ := callStep_takes hc k (parseHelper P k) st hst err
    obtain ⟨c1, x1, p1, b1, t1, e1⟩ := ih1 k (by omega) { route := e st.route, components := c0, active := file } none rfl (by simp)
    obtain ⟨c2, x2, p2, b2, t2, e2⟩ := ih2 k (by omega) { route := es.foldl (fun r e => e r) (e st.route), components := c1, active := file } x1 rfl b1
    refine ⟨c2, x2, p0.trans (p1.trans p2), b2, fun hno => absurd hc (no_customs_take hno), ?_⟩
    simp only [inspectNodes, inspectNode, hcall, e1, e2, List.foldl_append, List.foldl_cons]
  | @helper file ctx b b1 b2 id children rest f ctx' es0 es es' hl hp ht hc h0 h1 h2 ih0 ih1 ih2 =>
    obtain ⟨k0, ih0⟩ := ih0
    obtain ⟨k1, ih1⟩ := ih1
    obtain ⟨k2, ih2⟩ := ih2
    refine ⟨max (k0 + 1) (max k1 k2), fun k hk st err hst _ => ?_⟩
    obtain ⟨k', rfl⟩ : ∃ k', k = k' + 1 := ⟨k - 1, by omega⟩
    obtain ⟨c0, x0, p0, b0, t0, e0⟩ := ih0 k' (by omega) { st with active := (P.view file id).targetFile } none rfl (by simp)
    cases b0.1 rfl
    obtain ⟨c1, x1, p1, b1, t1, e1⟩ := ih1 (k' + 1) (by omega) { route := es0.foldl (fun r e => e r) st.route, components := c0, active := file } none rfl (by simp)
    obtain ⟨c2, x2, p2, b2, t2, e2⟩ := ih2 (k' + 1) (by omega)
      { route := es.foldl (fun r e => e r) (es0.foldl (fun r e => e r) st.route), components := c1, active := file } x1 rfl b1
    refine ⟨c2, x2, p0.trans (p1.trans p2), b2, fun hno => translated_helper hp ht hc ((t0 hno).mono (p1.trans p2)) ((t1 hno).mono p2) (t2 hno), ?_⟩
    have hrec : parseHelper P (k' + 1) { st with active := (P.view file id).targetFile } false f (P.view file id).targetFile =
        some ({ route := es0.foldl (fun r e => e r) st.route, components := c0, active := (P.view file id).targetFile }, .ok ()) := by
      show parseFunctionWith P k' (parseHelper P k') false _ false f _ = _
      have hne := hc.1
      have hn := (context_parameter_found P _ _ _ hne).2 hc
      cases ctx' with
      | nil => exact absurd rfl hne
      | cons ch ctx' =>
        simp only [parseFunctionWith, hn, Bool.false_eq_true, false_and, and_false, if_false, inspectNode]
        rw [e0]
        simp only [Local.given, Option.getD_none, Bool.false_eq_true, if_false]
    have hcall : callStep P (k' + 1) (parseHelper P (k' + 1)) ctx file id st { err := err } =
        some ({ route := es0.foldl (fun r e => e r) st.route, components := c0, active := file }, .ok ({}, true)) := by
      simp only [callStep, hst, runCustoms_allLeave hl, if_pos (passes_any hp), ht]
      rw [hrec]
    simp only [inspectNodes, inspectNode, hcall, e1, e2, List.foldl_append]
  | @plain file ctx b b1 b2 id children rest n es es' hl hp hf h1 h2 ih1 ih2 =>
    obtain ⟨k1, ih1⟩ := ih1
    obtain ⟨k2, ih2⟩ := ih2
    refine ⟨max k1 k2, fun k hk st err hst _ => ?_⟩
    obtain ⟨c1, x1, p1, b1, t1, e1⟩ := ih1 k (by omega) st none hst (by simp)
    obtain ⟨c2, x2, p2, b2, t2, e2⟩ := ih2 k (by omega) { route := es.foldl (fun r e => e r) st.route, components := c1, active := file } x1 rfl b1
    refine ⟨c2, x2, p1.trans p2, b2, fun hno => translated_here hp (by rw [hf]; rintro m h; cases h) ((t1 hno).mono p2) (t2 hno), ?_⟩
    have hcall : callStep P k (parseHelper P k) ctx file id st { err := err } = some (st, .ok ({}, true)) := by
      simp only [callStep, hst, runCustoms_allLeave hl, if_neg (not_passes_any hp), hf]
    simp only [inspectNodes, inspectNode, hcall, e1, e2, List.foldl_append]
  | @unsupported file ctx b b1 b2 id children rest m es es' hl hp hf hm h1 h2 ih1 ih2 =>
    obtain ⟨k1, ih1⟩ := ih1
    obtain ⟨k2, ih2⟩ := ih2
    refine ⟨max k1 k2, fun k hk st err hst _ => ?_⟩
    obtain ⟨c1, x1, p1, b1, t1, e1⟩ := ih1 k (by omega) st none hst (by simp)
    obtain ⟨c2, x2, p2, b2, t2, e2⟩ := ih2 k (by omega) { route := es.foldl (fun r e => e r) st.route, components := c1, active := file } x1 rfl b1
    refine ⟨c2, x2, p1.trans p2, b2, fun hno => translated_here hp (by
      rw [hf]
      rintro _ ⟨⟩ c i a t hcase
      rw [(ctxCase_supported _).2 hm] at hcase
      cases hcase) ((t1 hno).mono p2) (t2 hno), ?_⟩
    have hcall : callStep P k (parseHelper P k) ctx file id st { err := err } = some (st, .ok ({}, true)) := by
      simp only [callStep, hst, runCustoms_allLeave hl, if_neg (not_passes_any hp), hf]
      rw [unsupported_call_adds_nothing P k _ _ m hm]
    simp only [inspectNodes, inspectNode, hcall, e1, e2, List.foldl_append]
  | @context file ctx b b1 b2 id children rest m e es es' hl hp hf hd h1 h2 ih1 ih2 =>
    obtain ⟨k0, ih0⟩ := context_call_documented_partial P _ _ m e hd
    obtain ⟨k1, ih1⟩ := ih1
    obtain ⟨k2, ih2⟩ := ih2
    refine ⟨max k0 (max k1 k2), fun k hk st err hst _ => ?_⟩
    obtain ⟨c0, p0, e0⟩ := ih0 k (by omega) st { err := err } rfl
    obtain ⟨c1, x1, p1, b1, t1, e1⟩ := ih1 k (by omega) { st with route := e.addTo st.route, components := c0 } none hst (by simp)
    obtain ⟨c2, x2, p2, b2, t2, e2⟩ := ih2 k (by omega) { route := es.foldl (fun r e => e r) (e.addTo st.route), components := c1, active := file } x1 rfl b1
    refine ⟨c2, x2, p0.trans (p1.trans p2), b2, fun hno => translated_here hp (by
      rw [hf]
      rintro _ ⟨⟩ c i a t hcase hi ha ht
      exact (contextCall_translates e0 rfl hcase hi ha ht).mono (p1.trans p2)) ((t1 hno).mono p2) (t2 hno), ?_⟩
    have hcall : callStep P k (parseHelper P k) ctx file id st { err := err } =
        some ({ st with route := e.addTo st.route, components := c0 }, .ok ({}, true)) := by
      simp only [callStep, hst, runCustoms_allLeave hl, if_neg (not_passes_any hp), hf]
      simpa only [hst] using e0
    simp only [inspectNodes, inspectNode, hcall, e1, e2, List.foldl_append, List.foldl_cons]
  | @unresolved file ctx b b2 id children rest m es' hl hp hf h1 ih =>
    obtain ⟨k1, ih⟩ := ih
    refine ⟨k1, fun k hk st err hst _ => ?_⟩
    obtain ⟨c1, x1, p1, b1, t1, e1⟩ := ih k hk st (some m) hst (by simp)
    refine ⟨c1, x1, p1, b1, fun hno => translated_stop (by rw [hf]; rintro m h; cases h) (fun _ _ h => absurd h hp)
      (unresolved_not_followed hl hp hf) (t1 hno), ?_⟩
    have hcall : callStep P k (parseHelper P k) ctx file id st { err := err } = some (st, .ok ({ err := some m }, false)) := by
      simp only [callStep, hst, runCustoms_allLeave hl, if_neg (not_passes_any hp), hf]
    simp only [inspectNodes, inspectNode, hcall, e1]
  | @lost file ctx b b2 id children rest m es' hl hp ht hfile h1 ih =>
    obtain ⟨k1, ih⟩ := ih
    refine ⟨k1, fun k hk st err hst _ => ?_⟩
    obtain ⟨c1, x1, p1, b1, t1, e1⟩ := ih k hk st (some m) hst (by simp)
    refine ⟨c1, x1, p1, b1, fun hno => translated_stop (fun _ _ => hp) (fun _ _ _ h => by rw [ht] at h; cases h)
      (lost_not_followed hl hp ht) (t1 hno), ?_⟩
    have hcall : callStep P k (parseHelper P k) ctx file id st { err := err } = some (st, .ok ({ err := some m }, false)) := by
      simp only [callStep, hst, runCustoms_allLeave hl, if_pos (passes_any hp), ht, hfile]
      cases st; cases hst; rfl
    simp only [inspectNodes, inspectNode, hcall, e1]
  | @noContext file ctx b b2 id children rest f es' hl hp ht hfile hn h1 ih =>
    obtain ⟨k1, ih⟩ := ih
    refine ⟨k1 + 1, fun k hk st err hst _ => ?_⟩
    obtain ⟨k', rfl⟩ : ∃ k', k = k' + 1 := ⟨k - 1, by omega⟩
    obtain ⟨c1, x1, p1, b1, t1, e1⟩ := ih (k' + 1) (by omega) st (some c!"failed to find context variable name") hst (by simp)
    refine ⟨c1, x1, p1, b1, fun hno => translated_stop (fun _ _ => hp)
      (fun _ _ _ h hc => by rw [ht] at h; cases h; rw [hfile] at hc; exact absurd hn (context_or_not hc))
      (noContext_not_followed hl hp ht hfile hn) (t1 hno), ?_⟩
    have hcall : callStep P (k' + 1) (parseHelper P (k' + 1)) ctx file id st { err := err } =
        some (st, .ok ({ err := some c!"failed to find context variable name" }, false)) := by
      simp only [callStep, hst, runCustoms_allLeave hl, if_pos (passes_any hp), ht, hfile]
      rw [show parseHelper P (k' + 1) = parseFunctionWith P k' (parseHelper P k') false from rfl]
      simp only [parseFunctionWith, no_context_found hn, Bool.false_eq_true, false_and, if_false]
      cases st; cases hst; rfl
    simp only [inspectNodes, inspectNode, hcall, e1]
  | @brokenHelper file ctx b b2 id children rest f ctx' es0 es' hl hp ht hfile hc h0 h1 ih0 ih =>
    obtain ⟨k0, ih0⟩ := ih0
    obtain ⟨k1, ih⟩ := ih
    refine ⟨max (k0 + 1) k1, fun k hk st err hst _ => ?_⟩
    obtain ⟨k', rfl⟩ : ∃ k', k = k' + 1 := ⟨k - 1, by omega⟩
    obtain ⟨c0, x0, p0, b0, t0, e0⟩ := ih0 k' (by omega) { st with active := file } none rfl (by simp)
    obtain ⟨m, rfl⟩ : ∃ m, x0 = some m := by
      cases x0 with
      | none => exact absurd (b0.2 rfl) (by decide)
      | some m => exact ⟨m, rfl⟩
    obtain ⟨c1, x1, p1, b1, t1, e1⟩ := ih (k' + 1) (by omega)
      { route := es0.foldl (fun r e => e r) st.route, components := c0, active := file } (some m) rfl (by simp)
    refine ⟨c1, x1, p0.trans p1, b1, fun hno => translated_stop (fun _ _ => hp)
      (fun f' ctx'' _ h hc' => by
        rw [ht] at h; cases h
        rw [hfile] at hc' ⊢
        cases contextParam_unique hc hc'
        exact (t0 hno).mono p1)
      (broken_not_followed hl hp ht hfile hc h0) (t1 hno), ?_⟩
    have hrec : parseHelper P (k' + 1) { st with active := file } false f file =
        some ({ route := es0.foldl (fun r e => e r) st.route, components := c0, active := file }, .err m) := by
      show parseFunctionWith P k' (parseHelper P k') false _ false f _ = _
      have hne := hc.1
      have hn := (context_parameter_found P _ _ _ hne).2 hc
      cases ctx' with
      | nil => exact absurd rfl hne
      | cons ch ctx' =>
        simp only [parseFunctionWith, hn, Bool.false_eq_true, false_and, if_false, inspectNode]
        rw [e0]
        simp only [Local.given, Option.getD_none]
    have hcall : callStep P (k' + 1) (parseHelper P (k' + 1)) ctx file id st { err := err } =
        some ({ route := es0.foldl (fun r e => e r) st.route, components := c0, active := file }, .ok ({ err := some m }, false)) := by
      simp only [callStep, hst, runCustoms_allLeave hl, if_pos (passes_any hp), ht, hfile]
      rw [hrec]
    simp only [inspectNodes, inspectNode, hcall, e1, List.foldl_append]

theorem changes_inspect (P : Prog) {file : FileId} {ctx : Str} {b b' : Bool} {nodes : List Node} {es : List (Route → Route)}
    (h : ChangesTo P file ctx b nodes es b') :
    ∃ k0, ∀ k, k0 ≤ k → ∀ (st : HState) (err : Option Str), st.active = file → (b = true ↔ err = none) →
      ∃ comps err', st.components <+: comps ∧ (b' = true ↔ err' = none) ∧
      inspectNodes P k (parseHelper P k) ctx file nodes st { err := err } =
        some ({ route := es.foldl (fun r e => e r) st.route, components := comps, active := file }, .ok { err := err' }) := by
  obtain ⟨k0, h0⟩ := changes_inspect_all P h
  refine ⟨k0, fun k hk st err hst hb => ?_⟩
  obtain ⟨comps, err', h1, h2, _, h3⟩ := h0 k hk st err hst hb
  exact ⟨comps, err', h1, h2, h3⟩

/-- An analysis has at most one outcome. -/
theorem ends_unique {P : Prog} {comps : List Field} {route : Route} {f : FuncId} {file : FileId} {o o' : HState × Res Unit}
    (h : Ends P comps route f file o) (h' : Ends P comps route f file o') : o = o' := by
  obtain ⟨k, h⟩ := h
  obtain ⟨k', h'⟩ := h'
  have h1 := parseFunction_le P (Nat.le_max_left k k') _ _ _ _ _ h
  have h2 := parseFunction_le P (Nat.le_max_right k k') _ _ _ _ _ h'
  exact Option.some.inj (h1.symm.trans h2)

/-- The documentation of the handler is set before its body is read. -/
theorem route_with_doc (P : Prog) (f : FuncId) (route : Route) :
    (if funcDoc P f ≠ [] then { route with doc := trimSpace (funcDoc P f) } else route) = { route with doc := docOf P f route.doc } := by
  unfold funcDoc docOf
  cases hd : (P.funcs f).doc with
  | none => simp
  | some d =>
    simp only
    have hf' : trimSpace (formatDoc d) = commentText d := trimBy_idem _ _
    have hc : formatDoc d = commentText d := rfl
    rw [hc] at hf' ⊢
    by_cases hf : commentText d = []
    · rw [if_neg (by simpa using hf), if_pos hf]
    · rw [if_pos hf, if_neg hf, hf']

/-- What the analysis of a function reports: an error if its last node is a call that is not followed, else an error if there is no response, else
success. -/
def Reported (settled : Bool) (out : Route) (res : Res Unit) : Prop :=
  if settled then res = if out.returnTypes = [] then .err c!"return type not found" else .ok () else ∃ m, res = .err m

/-- C88: with custom functions registered, the analysis of a handler ends, and the route is the initial one (with the documentation of the handler)
with all changes applied in source order: at each call that of the first custom function that recognises it, and the documented contribution
only if none does. Missing: errors of custom functions and routes of their own, which are lost (`custom_error_lost`). -/
theorem custom_functions_take_precedence_partial (P : Prog) (f : FuncId) (file : FileId) (ctx : Str) (es : List (Route → Route)) (b : Bool)
    (hctx : ContextParam P f file ctx) (h : ChangesTo P file ctx true (P.funcs f).body es b) (comps : List Field) (route : Route) :
    ∃ comps' out res, comps <+: comps' ∧ out = es.foldl (fun r e => e r) { route with doc := docOf P f route.doc } ∧
      Reported b out res ∧ Ends P comps route f file ({ route := out, components := comps', active := file }, res) := by
  obtain ⟨k0, hk⟩ := changes_inspect P h
  obtain ⟨c, err, p, hb, e⟩ := hk k0 (Nat.le_refl _)
    { route := { route with doc := docOf P f route.doc }, components := comps, active := file } none rfl (by simp)
  have hne := hctx.1
  have hn := (context_parameter_found P _ _ _ hne).2 hctx
  cases ctx with
  | nil => exact absurd rfl hne
  | cons ch ctx =>
    cases err with
    | some m =>
      have hb : b = false := by cases b with | false => rfl | true => cases hb.1 rfl
      subst hb
      refine ⟨c, _, .err m, p, rfl, ⟨m, rfl⟩, k0, ?_⟩
      simp only [parseFunction, parseFunctionWith, hn, true_and, route_with_doc, inspectNode]
      rw [e]
      simp only [Local.given, Option.getD_none]
    | none =>
      cases hb.2 rfl
      refine ⟨c, _, _, p, rfl, rfl, k0, ?_⟩
      simp only [parseFunction, parseFunctionWith, hn, true_and, route_with_doc, inspectNode]
      rw [e]
      simp only [Local.given, Option.getD_none, Bool.false_eq_true, if_false, and_true]
      split <;> rfl

/-- C14: the analysis of a handler ends, and the route is the initial one (with the documentation of the handler) with the contributions of all context
calls applied in source order, those of the helpers that get the context among them. (Not those in the arguments of calls whose function is not
known.) It succeeds if there is a response, unless the last node is a call whose function is not known; the error changes nothing. -/
theorem handler_source_order (P : Prog) (f : FuncId) (file : FileId) (ctx : Str) (es : List Entry) (b : Bool)
    (hctx : ContextParam P f file ctx) (h : AnalysedTo P file ctx true (P.funcs f).body es b) (comps : List Field) (route : Route) :
    ∃ comps' out res, comps <+: comps' ∧ out = es.foldl (fun r e => e.addTo r) { route with doc := docOf P f route.doc } ∧
      Reported b out res ∧ Ends P comps route f file ({ route := out, components := comps', active := file }, res) := by
  obtain ⟨comps', out, res, h1, h2, h3⟩ := custom_functions_take_precedence_partial P f file ctx _ b hctx (changes_of_analysed h) comps route
  rw [List.foldl_map] at h2
  exact ⟨comps', out, res, h1, h2, h3⟩

/-! A program with a handler (function 0), a helper (function 1) that gets the context, a broken handler (2), a handler
that calls itself (3) and one whose context parameter has no name (4). Functions 6 to 9 are for calls that are not followed. -/

def demoCall (id : Nat) : CallView :=
  match id with
  | 0 => { func := .ok (true, c!"Query"), args := [{ value := .ok c!"id", type := .ok (.basic .string c!"string") }] }
  | 1 => { args := [{ ident := some c!"c" }], target := .ok 1 }
  | 2 => { func := .ok (true, c!"JSON"), args := jsonArgs }
  | 3 => { func := .ok (true, c!"JSON"), args := [{ value := .err c!"value not retrievable", type := .ok (.basic .int c!"int") }] }
  | 4 => { args := [{ ident := some c!"c" }], target := .ok 3 }
  | 5 => { func := .ok (true, c!"Status"), args := [{ value := .err c!"value not retrievable", type := .ok (.basic .int c!"int") }] }
  | 6 => { func := .err c!"built-in function", args := [{}] }
  | 7 => { args := [{ ident := some c!"c" }], target := .err c!"not implemented yet" }
  | 8 => { args := [{ ident := some c!"c" }], target := .ok 6 }
  | 9 => { args := [{ ident := some c!"c" }], target := .ok 7 }
  | _ => {}

def ctxParams : List (ParamTy × List Str) := [(.named (some ginPackage) ginContextType, [c!"c"])]

def demoFunc (f : FuncId) : FuncInfo :=
  match f with
  | 0 => { params := fun _ => ctxParams, body := [.other [.call 0 []], .other [.call 1 [.other []]]], doc := some c!"Get.\n" }
  | 1 => { params := fun _ => ctxParams, body := [.call 2 [.other []]] }
  | 2 => { params := fun _ => ctxParams, body := [.call 3 [], .other []] }
  | 3 => { params := fun _ => ctxParams, body := [.call 4 []] }
  | 4 => { params := fun _ => [(.named (some ginPackage) ginContextType, [])] }
  | 5 => { params := fun _ => ctxParams, body := [.call 5 [.other []]] }
  | 6 => { params := fun _ => [] }
  | 7 => { params := fun _ => ctxParams, body := [.call 2 [.call 6 []]] }
  | 8 => { params := fun _ => ctxParams, body := [.other [.call 6 [.call 0 []]], .call 7 [.call 0 []], .call 8 [], .call 9 [.call 0 []], .call 0 [], .call 6 []] }
  | 9 => { params := fun _ => ctxParams, body := [.call 6 [.call 0 []], .call 2 []] }
  | _ => {}

def demo : Prog := { types := shopEnv, filePkg := fun _ => c!"shop", funcs := demoFunc, view := fun _ => demoCall }

theorem demo_json : Documented shopEnv c!"shop" jsonArgs c!"JSON"
    { responses := [{ statusCode := 200, contentType := c!"application/json", field := { type := c!"string" } }] } :=
  .json (by simp) ⟨jsonArgs[0], c!"200", rfl, rfl, by decide⟩
    ⟨jsonArgs[1], _, [], [], { type := c!"string", package := some c!"shop" }, rfl, rfl, ⟨0, rfl⟩, rfl⟩

/-- The hypotheses of `handler_source_order` hold for handler 0: the query parameter, then the response of the helper. -/
theorem demo_analysed : AnalysedTo demo 0 c!"c" true (demo.funcs 0).body
    [{ queryParams := [{ name := c!"id", field := { type := c!"string" } }] },
     { responses := [{ statusCode := 200, contentType := c!"application/json", field := { type := c!"string" } }] }] true := by
  have hq : Documented demo.types (demo.filePkg 0) (demo.view 0 0).args c!"Query"
      { queryParams := [{ name := c!"id", field := { type := c!"string" } }] } := .query (by simp) ⟨_, rfl, rfl⟩
  have hn0 : ¬ PassesContext (demo.view 0 0) c!"c" := by
    rintro ⟨a, ha, hi⟩
    simp only [demo, demoCall, List.mem_singleton] at ha
    subst ha; cases hi
  have hn2 : ¬ PassesContext (demo.view 0 2) c!"c" := by
    rintro ⟨a, ha, hi⟩
    simp only [demo, demoCall, jsonArgs, List.mem_cons, List.not_mem_nil, or_false] at ha
    rcases ha with rfl | rfl <;> cases hi
  have hl : ∀ call, AllLeave demo c!"c" call := by intro call f hf; cases hf
  have hother : AnalysedTo demo 0 c!"c" true [.other []] [] true := .other (es := []) (es' := []) .nil .nil
  have h2 : AnalysedTo demo 0 c!"c" true (demo.funcs 1).body
      [{ responses := [{ statusCode := 200, contentType := c!"application/json", field := { type := c!"string" } }] }] true :=
    .context (es := []) (es' := []) (hl _) hn2 rfl demo_json hother .nil
  have h1 : AnalysedTo demo 0 c!"c" true [.call 1 [.other []]]
      [{ responses := [{ statusCode := 200, contentType := c!"application/json", field := { type := c!"string" } }] }] true :=
    .helper (f := 1) (ctx' := c!"c") (es0 := [{ responses := [{ statusCode := 200, contentType := c!"application/json", field := { type := c!"string" } }] }])
      (es := []) (es' := []) (hl _) ⟨{ ident := some c!"c" }, by simp [demo, demoCall], rfl⟩ rfl
      ((context_parameter_found demo 1 0 c!"c" (by decide)).1 rfl) h2 hother .nil
  exact .other (es := [_]) (es' := [_]) (.context (es := []) (es' := []) (hl _) hn0 rfl hq .nil .nil) (.other (es := [_]) (es' := []) h1 .nil)

example : ContextParam demo 0 0 c!"c" := (context_parameter_found demo 0 0 c!"c" (by decide)).1 rfl

/-- A handler in which most calls are not followed (function 8): a conversion or a builtin function (call 6), a method that gets the context
(call 7), a function without a parameter for it (call 8) and a helper that ends with a builtin function (call 9). The hypotheses of
`handler_source_order` hold: the response of the helper, then the query parameter that is not read inside another call. -/
theorem demo_not_followed : AnalysedTo demo 0 c!"c" true (demo.funcs 8).body
    [{ responses := [{ statusCode := 200, contentType := c!"application/json", field := { type := c!"string" } }] },
     { queryParams := [{ name := c!"id", field := { type := c!"string" } }] }] false := by
  have hq : Documented demo.types (demo.filePkg 0) (demo.view 0 0).args c!"Query"
      { queryParams := [{ name := c!"id", field := { type := c!"string" } }] } := .query (by simp) ⟨_, rfl, rfl⟩
  have hn0 : ¬ PassesContext (demo.view 0 0) c!"c" := by
    rintro ⟨a, ha, hi⟩
    simp only [demo, demoCall, List.mem_singleton] at ha
    subst ha; cases hi
  have hn6 : ¬ PassesContext (demo.view 0 6) c!"c" := by
    rintro ⟨a, ha, hi⟩
    simp only [demo, demoCall, List.mem_singleton] at ha
    subst ha; cases hi
  have hn2 : ¬ PassesContext (demo.view 0 2) c!"c" := by
    rintro ⟨a, ha, hi⟩
    simp only [demo, demoCall, jsonArgs, List.mem_cons, List.not_mem_nil, or_false] at ha
    rcases ha with rfl | rfl <;> cases hi
  have hl : ∀ call, AllLeave demo c!"c" call := by intro call f hf; cases hf
  have h7 : AnalysedTo demo 0 c!"c" true (demo.funcs 7).body
      [{ responses := [{ statusCode := 200, contentType := c!"application/json", field := { type := c!"string" } }] }] false :=
    .context (es := []) (es' := []) (hl _) hn2 rfl demo_json (.unresolved (hl _) hn6 rfl .nil) .nil
  refine .other (es := []) (.unresolved (hl _) hn6 rfl .nil) (.lost (hl _) ⟨{ ident := some c!"c" }, by simp [demo, demoCall], rfl⟩ rfl rfl
    (.noContext (f := 6) (hl _) ⟨{ ident := some c!"c" }, by simp [demo, demoCall], rfl⟩ rfl rfl (fun p hp => by cases hp)
    (.brokenHelper (f := 7) (ctx' := c!"c") (es0 := [_]) (hl _) ⟨{ ident := some c!"c" }, by simp [demo, demoCall], rfl⟩ rfl rfl
      ((context_parameter_found demo 7 0 c!"c" (by decide)).1 rfl) h7
    (.context (es := []) (es' := []) (hl _) hn0 rfl hq .nil (.unresolved (hl _) hn6 rfl .nil)))))

/-- C14, negation: `string(c.Query("id"))`. Not every call of a context method in the source of a handler is documented, although the call itself is
documented elsewhere, and the analysis of the handler succeeds. -/
theorem not_every_call_documented : ¬ ∀ (P : Prog) (f : FuncId) (file : FileId) (ctx : Str) (id : Nat) (m : Str) (e : Entry)
    (comps : List Field) (route : Route) (st : HState), ContextParam P f file ctx → P.customs = [] →
    Node.hasCallIn id (P.funcs f).body → ¬ PassesContext (P.view file id) ctx → (P.view file id).func = .ok (true, m) →
    Documented P.types (P.filePkg file) (P.view file id).args m e → Ends P comps route f file (st, .ok ()) →
    ∀ q ∈ e.queryParams, q ∈ st.route.queryParams := by
  intro h
  have hn0 : ¬ PassesContext (demo.view 0 0) c!"c" := by
    rintro ⟨a, ha, hi⟩
    simp only [demo, demoCall, List.mem_singleton] at ha
    subst ha; cases hi
  have hr : (parseFunction demo 1 [] {} 9 0).map (fun x => (x.1.route.queryParams, x.2)) = some ([], .ok ()) := by decide +kernel
  cases hp : parseFunction demo 1 [] {} 9 0 with
  | none => rw [hp] at hr; cases hr
  | some x =>
    obtain ⟨st, res⟩ := x
    rw [hp] at hr
    simp only [Option.map_some, Option.some.injEq, Prod.mk.injEq] at hr
    obtain ⟨h1, rfl⟩ := hr
    have := h demo 9 0 c!"c" 0 c!"Query" { queryParams := [{ name := c!"id", field := { type := c!"string" } }] } [] {} st
      ((context_parameter_found demo 9 0 c!"c" (by decide)).1 rfl) rfl (by simp [demo, demoFunc, Node.hasCallIn, Node.hasCall]) hn0 rfl
      (.query (by simp) ⟨_, rfl, rfl⟩) ⟨1, hp⟩ _ (List.mem_singleton.mpr rfl)
    rw [h1] at this
    cases this

/-! ### C15 -/

/-- What the analysis relies on in order not to panic: context parameters have names, the traversal does not panic on any
call, and the arguments of every call of a supported context method can be resolved. -/
structure Resolvable (P : Prog) : Prop where
  params : ∀ f file m, findContextName ((P.funcs f).params file) ≠ .panic m
  func : ∀ file id m, (P.view file id).func ≠ .panic m
  target : ∀ file id m, (P.view file id).target ≠ .panic m
  context : ∀ file id m, (P.view file id).func = .ok (true, m) → m ∈ supportedMethods →
    ∃ e, Documented P.types (P.filePkg file) (P.view file id).args m e
  customs : ∀ f ∈ P.customs, Inert f

theorem callStep_no_panic {P : Prog} (hP : Resolvable P) (k : Nat) (rec : HRec)
    (hrec : ∀ st f file st' m, rec st false f file ≠ some (st', .panic m))
    (ctx : Str) (file : FileId) (id : Nat) (st : HState) (loc : Local) (hloc : loc.nilRoute = false) (st' : HState) (r : Res (Local × Bool))
    (h : callStep P k rec ctx file id st loc = some (st', r)) : ∃ loc' b, r = .ok (loc', b) ∧ loc'.nilRoute = false := by
  simp only [callStep, hloc, runCustoms_inert hP.customs] at h
  split at h
  · cases ht : (P.view st.active id).target with
    | panic m => exact absurd ht (hP.target _ _ _)
    | err e => rw [ht] at h; cases h; exact ⟨_, _, rfl, rfl⟩
    | ok g =>
      rw [ht] at h
      simp only at h
      cases hr : rec { st with active := (P.view st.active id).targetFile } false g (P.view st.active id).targetFile with
      | none => rw [hr] at h; cases h
      | some z =>
        obtain ⟨s2, r2⟩ := z
        rw [hr] at h
        cases r2 with
        | err e => cases h; exact ⟨_, _, rfl, rfl⟩
        | ok u => cases h; exact ⟨_, _, rfl, rfl⟩
        | panic m => exact absurd hr (hrec _ _ _ _ _)
  · cases hf : (P.view st.active id).func with
    | panic m => exact absurd hf (hP.func _ _ _)
    | err e => rw [hf] at h; cases h; exact ⟨_, _, rfl, rfl⟩
    | ok x =>
      obtain ⟨b, m⟩ := x
      rw [hf] at h
      cases b with
      | false => cases h; exact ⟨_, _, rfl, rfl⟩
      | true =>
        simp only at h
        by_cases hm : m ∈ supportedMethods
        · obtain ⟨e, he⟩ := hP.context _ _ _ hf hm
          obtain ⟨k0, hk0⟩ := context_call_documented_partial P _ _ m e he
          obtain ⟨c, _, hc⟩ := hk0 (max k0 k) (Nat.le_max_left _ _) st loc hloc
          have := contextCall_mono P (Nat.le_max_right k0 k) _ _ _ _ _ _ _ h
          rw [hc] at this
          cases this
          exact ⟨_, _, rfl, rfl⟩
        · rw [unsupported_call_adds_nothing P k _ _ m hm] at h
          cases h
          exact ⟨_, _, rfl, hloc⟩

mutual
theorem inspectNode_no_panic {P : Prog} (hP : Resolvable P) (k : Nat) (rec : HRec)
    (hrec : ∀ st f file st' m, rec st false f file ≠ some (st', .panic m)) (ctx : Str) (file : FileId) :
    ∀ (n : Node) (st : HState) (loc : Local), loc.nilRoute = false → ∀ (st' : HState) (r : Res Local),
      inspectNode P k rec ctx file n st loc = some (st', r) → ∃ loc', r = .ok loc' ∧ loc'.nilRoute = false
  | .other children, st, loc, hloc, st', r, h => by
    simp only [inspectNode] at h
    exact inspectNodes_no_panic hP k rec hrec ctx file children _ { loc with err := none } hloc _ _ h
  | .call id children, st, loc, hloc, st', r, h => by
    simp only [inspectNode] at h
    cases hc : callStep P k rec ctx file id st loc with
    | none => rw [hc] at h; cases h
    | some x =>
      obtain ⟨s1, r1⟩ := x
      obtain ⟨l1, b, rfl, hl1⟩ := callStep_no_panic hP k rec hrec ctx file id st loc hloc s1 r1 hc
      rw [hc] at h
      cases b with
      | false => cases h; exact ⟨l1, rfl, hl1⟩
      | true => exact inspectNodes_no_panic hP k rec hrec ctx file children s1 l1 hl1 _ _ h
theorem inspectNodes_no_panic {P : Prog} (hP : Resolvable P) (k : Nat) (rec : HRec)
    (hrec : ∀ st f file st' m, rec st false f file ≠ some (st', .panic m)) (ctx : Str) (file : FileId) :
    ∀ (ns : List Node) (st : HState) (loc : Local), loc.nilRoute = false → ∀ (st' : HState) (r : Res Local),
      inspectNodes P k rec ctx file ns st loc = some (st', r) → ∃ loc', r = .ok loc' ∧ loc'.nilRoute = false
  | [], st, loc, hloc, st', r, h => by simp only [inspectNodes] at h; cases h; exact ⟨loc, rfl, hloc⟩
  | n :: ns, st, loc, hloc, st', r, h => by
    simp only [inspectNodes] at h
    cases hc : inspectNode P k rec ctx file n st loc with
    | none => rw [hc] at h; cases h
    | some x =>
      obtain ⟨s1, r1⟩ := x
      obtain ⟨l1, rfl, hl1⟩ := inspectNode_no_panic hP k rec hrec ctx file n st loc hloc s1 r1 hc
      rw [hc] at h
      exact inspectNodes_no_panic hP k rec hrec ctx file ns s1 l1 hl1 _ _ h
end

theorem parseFunctionWith_no_panic {P : Prog} (hP : Resolvable P) (k : Nat) (rec : HRec)
    (hrec : ∀ st f file st' m, rec st false f file ≠ some (st', .panic m)) (top : Bool) (st : HState) (f : FuncId) (file : FileId)
    (st' : HState) (m : Str) : parseFunctionWith P k rec top st false f file ≠ some (st', .panic m) := by
  intro h
  simp only [parseFunctionWith] at h
  split at h
  · rename_i hp; exact absurd hp (hP.params _ _ _)
  · cases h
  · cases h
  · split at h
    · cases h
    · rename_i hi; obtain ⟨_, hr, _⟩ := inspectNode_no_panic hP k rec hrec _ _ _ _ _ (by rfl) _ _ hi; cases hr
    · rename_i hi; obtain ⟨_, hr, _⟩ := inspectNode_no_panic hP k rec hrec _ _ _ _ _ (by rfl) _ _ hi; cases hr
    · rename_i hi
      obtain ⟨l1, hr, hl⟩ := inspectNode_no_panic hP k rec hrec _ _ _ _ _ (by rfl) _ _ hi
      cases hr
      split at h
      · cases h
      · rw [if_neg (by simp [hl])] at h
        split at h <;> cases h

theorem parseHelper_no_panic {P : Prog} (hP : Resolvable P) (k : Nat) : ∀ st f file st' m, parseHelper P k st false f file ≠ some (st', .panic m) := by
  induction k with
  | zero => intro st f file st' m h; cases h
  | succ k ih => intro st f file st' m; exact parseFunctionWith_no_panic hP k _ ih false st f file st' m

/-- C15 for handlers whose context calls can be resolved. Missing: handlers that compile but have a context call with an
argument the analysis cannot resolve, or a context parameter without name; there it is false, see below. -/
theorem analysis_never_panics_partial (P : Prog) (hP : Resolvable P) (comps : List Field) (route : Route) (f : FuncId) (file : FileId)
    (st' : HState) (m : Str) : ¬ Ends P comps route f file (st', .panic m) := by
  rintro ⟨k, h⟩
  exact parseFunctionWith_no_panic hP k _ (parseHelper_no_panic hP k) true _ _ _ _ _ h

/-- C15 is false: `c.JSON(code, x)` with a `code` whose value is not found, followed by any other node. -/
theorem unresolved_status_panics : ∃ st', Ends demo [] {} 2 0 (st', .panic c!"nil pointer dereference") := ⟨_, 0, rfl⟩

/-- C15 is false: `c.Status(code)` with a `code` whose value is not found, even as the last statement. -/
theorem unresolved_status_last_panics : ∃ st', Ends demo [] {} 5 0 (st', .panic c!"nil pointer dereference") := ⟨_, 0, rfl⟩

/-- C15 is false: a handler whose context parameter has no name. -/
theorem unnamed_context_panics : ∃ st', Ends demo [] {} 4 0 (st', .panic c!"index out of range") := ⟨_, 0, rfl⟩

/-- The program without the broken functions, for which the hypotheses of `analysis_never_panics_partial` hold. -/
def soundDemo : Prog := { demo with
  view := fun _ id => if id ≤ 2 then demoCall id else {}
  funcs := fun f => if f ≤ 1 then demoFunc f else {} }

example : Resolvable soundDemo where
  params := by
    intro f file m
    match f with
    | 0 => simp [soundDemo, demoFunc, ctxParams, findContextName]
    | 1 => simp [soundDemo, demoFunc, ctxParams, findContextName]
    | n + 2 => simp [soundDemo, findContextName]
  func := by
    intro file id m
    match id with
    | 0 => simp [soundDemo, demoCall]
    | 1 => simp [soundDemo, demoCall]
    | 2 => simp [soundDemo, demoCall]
    | n + 3 => simp [soundDemo]
  target := by
    intro file id m
    match id with
    | 0 => simp [soundDemo, demoCall]
    | 1 => simp [soundDemo, demoCall]
    | 2 => simp [soundDemo, demoCall]
    | n + 3 => simp [soundDemo]
  context := by
    intro file id m hf hm
    match id with
    | 0 => cases hf; exact ⟨_, .query (by simp) ⟨_, rfl, rfl⟩⟩
    | 1 => cases hf
    | 2 => cases hf; exact ⟨_, demo_json⟩
    | n + 3 => simp [soundDemo] at hf
  customs := by intro f hf; cases hf

/-! ### C17 -/

theorem translation_ends {Γ : TypeEnv} {pkg : Option Str} {t : GoType} (h : ¬ Diverges Γ [] pkg t) (st : List Field) :
    ∃ k o, typeResult Γ true k st pkg [] t = some o := by
  obtain ⟨k, hk⟩ := Classical.not_forall.1 h
  cases ho : typeResult Γ true k [] pkg [] t with
  | none => exact absurd ho hk
  | some o =>
    obtain ⟨c, r⟩ := o
    obtain ⟨k0, hk0⟩ := translates_enough ⟨k, ho⟩
    obtain ⟨d, _, hd⟩ := hk0 k0 (Nat.le_refl _) st
    exact ⟨k0, _, hd⟩

theorem runOps_ends {Γ : TypeEnv} {pkg : Str} {args : List ArgView} (hT : ∀ a ∈ args, ∀ t, a.type = .ok t → ¬ Diverges Γ [] (some pkg) t)
    (b : Builder) : ∀ st, ∃ k o, runOps Γ k pkg args b st = some o := by
  induction b with
  | nil => intro st; exact ⟨0, _, rfl⟩
  | cons x b ih =>
    obtain ⟨i, op⟩ := x
    intro st
    have h1 : ∃ k o, runOp Γ k pkg args i op st = some o := by
      cases op with
      | ignored => exact ⟨0, _, rfl⟩
      | statusCode =>
        simp only [runOp]
        refine ⟨0, ?_⟩
        split
        · exact ⟨_, rfl⟩
        · split <;> exact ⟨_, rfl⟩
      | value =>
        simp only [runOp]
        refine ⟨0, ?_⟩
        split
        · exact ⟨_, rfl⟩
        · split <;> exact ⟨_, rfl⟩
      | expressionResult =>
        cases ha : args[i]? with
        | none => exact ⟨0, _, by simp only [runOp, ha]; rfl⟩
        | some a =>
          cases ht : a.type with
          | err e => exact ⟨0, _, by simp only [runOp, ha, ht]; rfl⟩
          | panic e => exact ⟨0, _, by simp only [runOp, ha, ht]; rfl⟩
          | ok t =>
            obtain ⟨k, ⟨s2, r⟩, ho⟩ := translation_ends (hT a (List.mem_of_getElem? ha) t ht) st
            cases r with
            | ok r => exact ⟨k, _, by simp only [runOp, ha, ht, ho]; rfl⟩
            | err r => exact ⟨k, _, by simp only [runOp, ha, ht, ho]; rfl⟩
            | panic r => exact ⟨k, _, by simp only [runOp, ha, ht, ho]; rfl⟩
    obtain ⟨k1, ⟨s1, r1⟩, h1⟩ := h1
    cases r1 with
    | err e => exact ⟨k1, _, by simp only [runOps, h1]; rfl⟩
    | panic e => exact ⟨k1, _, by simp only [runOps, h1]; rfl⟩
    | ok v =>
      obtain ⟨k2, ⟨s2, r2⟩, h2⟩ := ih s1
      have h1' := runOp_mono Γ (Nat.le_max_left k1 k2) _ _ _ _ _ _ h1
      have h2' := runOps_mono Γ (Nat.le_max_right k1 k2) _ _ _ _ _ h2
      cases r2 <;> exact ⟨max k1 k2, _, by simp only [runOps, h1', h2']; rfl⟩

theorem contextCall_ends {P : Prog} {pkg : Str} {view : CallView}
    (hT : ∀ a ∈ view.args, ∀ t, a.type = .ok t → ¬ Diverges P.types [] (some pkg) t) (ops : Builder) (m : Str) (st : HState) (loc : Local) :
    ∃ k o, contextCall P k pkg view ops m st loc = some o := by
  cases hc : ctxCase m with
  | none => exact ⟨0, _, by simp only [contextCall, hc]; rfl⟩
  | some c =>
    obtain ⟨k, ⟨s1, r1⟩, hk⟩ := runOps_ends hT (ops.chain c.ops) st.components
    refine ⟨k, ?_⟩
    simp only [contextCall, hc]
    have hb : ∃ o, build P.types k pkg view.args (ops.chain c.ops) c.mapper (if loc.nilRoute = true then none else some st.route) st.components = some o := by
      simp only [build, hk]
      cases r1 with
      | err e => exact ⟨_, rfl⟩
      | panic e => exact ⟨_, rfl⟩
      | ok vs =>
        simp only
        cases c.mapper vs with
        | none => exact ⟨_, rfl⟩
        | some f => cases (if loc.nilRoute = true then none else some st.route) <;> exact ⟨_, rfl⟩
    obtain ⟨⟨s2, r2⟩, hb⟩ := hb
    rw [hb]
    cases r2 <;> exact ⟨_, rfl⟩

theorem callStep_ends {P : Prog}
    (hT : ∀ file id, ∀ a ∈ (P.view file id).args, ∀ t, a.type = .ok t → ¬ Diverges P.types [] (some (P.filePkg file)) t)
    (ctx : Str) (file : FileId) (id : Nat)
    (hrec : ∀ file' g, PassesContext (P.view file' id) ctx → (P.view file' id).target = .ok g → ∀ st n file'', ∃ k o, parseHelper P k st n g file'' = some o)
    (st : HState) (loc : Local) : ∃ k o, callStep P k (parseHelper P k) ctx file id st loc = some o := by
  simp only [callStep]
  rcases hc : runCustoms ctx (P.view st.active id) loc.nilRoute P.customs [] st with ⟨s1, ops, r⟩
  match r with
  | .err e => exact ⟨0, _, rfl⟩
  | .panic m => exact ⟨0, _, rfl⟩
  | .ok .given => exact ⟨0, _, rfl⟩
  | .ok (.fresh r) => exact ⟨0, _, rfl⟩
  | .ok .nil =>
    simp only
    by_cases hp : PassesContext (P.view st.active id) ctx
    · simp only [if_pos (passes_any hp)]
      cases ht : (P.view st.active id).target with
      | err e => exact ⟨0, _, rfl⟩
      | panic m => exact ⟨0, _, rfl⟩
      | ok g =>
        obtain ⟨k, ⟨s2, r2⟩, hk⟩ := hrec _ g hp ht { s1 with active := (P.view st.active id).targetFile } loc.nilRoute (P.view st.active id).targetFile
        refine ⟨k, ?_⟩
        simp only [hk]
        cases r2 <;> exact ⟨_, rfl⟩
    · simp only [if_neg (not_passes_any hp)]
      cases hf : (P.view st.active id).func with
      | err e => exact ⟨0, _, rfl⟩
      | panic m => exact ⟨0, _, rfl⟩
      | ok x =>
        obtain ⟨b, m⟩ := x
        cases b with
        | false => exact ⟨0, _, rfl⟩
        | true => exact contextCall_ends (hT _ _) _ _ _ _

mutual
theorem inspectNode_ends {P : Prog}
    (hT : ∀ file id, ∀ a ∈ (P.view file id).args, ∀ t, a.type = .ok t → ¬ Diverges P.types [] (some (P.filePkg file)) t)
    (ctx : Str) (file : FileId) : ∀ (n : Node) (_ : ∀ id, Node.hasCall id n →
      ∀ file' g, PassesContext (P.view file' id) ctx → (P.view file' id).target = .ok g → ∀ st n file'', ∃ k o, parseHelper P k st n g file'' = some o)
    (st : HState) (loc : Local), ∃ k o, inspectNode P k (parseHelper P k) ctx file n st loc = some o
  | .other children, hrec, st, loc => by
    obtain ⟨k, o, h⟩ := inspectNodes_ends hT ctx file children (fun id hid => hrec id (by simpa only [Node.hasCall] using hid)) st { loc with err := none }
    exact ⟨k, o, by simpa only [inspectNode] using h⟩
  | .call id children, hrec, st, loc => by
    obtain ⟨k1, ⟨s1, r1⟩, h1⟩ := callStep_ends hT ctx file id (hrec id (by simp only [Node.hasCall, true_or])) st loc
    match r1, h1 with
    | .err e, h1 => exact ⟨k1, _, by simp only [inspectNode, h1]; rfl⟩
    | .panic m, h1 => exact ⟨k1, _, by simp only [inspectNode, h1]; rfl⟩
    | .ok (l, false), h1 => exact ⟨k1, _, by simp only [inspectNode, h1]; rfl⟩
    | .ok (l, true), h1 =>
      obtain ⟨k2, o, h2⟩ := inspectNodes_ends hT ctx file children
        (fun id hid => hrec id (by simp only [Node.hasCall]; exact Or.inr hid)) s1 l
      have h1' := callStep_mono P (Nat.le_max_left k1 k2) _ _ (parseHelper_le P (Nat.le_max_left k1 k2)) _ _ _ _ _ _ h1
      have h2' := inspectNodes_mono P (Nat.le_max_right k1 k2) _ _ (parseHelper_le P (Nat.le_max_right k1 k2)) _ _ _ _ _ _ h2
      exact ⟨max k1 k2, o, by simp only [inspectNode, h1', h2']⟩
theorem inspectNodes_ends {P : Prog}
    (hT : ∀ file id, ∀ a ∈ (P.view file id).args, ∀ t, a.type = .ok t → ¬ Diverges P.types [] (some (P.filePkg file)) t)
    (ctx : Str) (file : FileId) : ∀ (ns : List Node) (_ : ∀ id, Node.hasCallIn id ns →
      ∀ file' g, PassesContext (P.view file' id) ctx → (P.view file' id).target = .ok g → ∀ st n file'', ∃ k o, parseHelper P k st n g file'' = some o)
    (st : HState) (loc : Local), ∃ k o, inspectNodes P k (parseHelper P k) ctx file ns st loc = some o
  | [], _, st, loc => ⟨0, _, by simp only [inspectNodes]; rfl⟩
  | n :: ns, hrec, st, loc => by
    obtain ⟨k1, ⟨s1, r1⟩, h1⟩ := inspectNode_ends hT ctx file n (fun id hid => hrec id (by simp only [Node.hasCallIn]; exact Or.inl hid)) st loc
    match r1, h1 with
    | .err e, h1 => exact ⟨k1, _, by simp only [inspectNodes, h1]; rfl⟩
    | .panic m, h1 => exact ⟨k1, _, by simp only [inspectNodes, h1]; rfl⟩
    | .ok l, h1 =>
      obtain ⟨k2, o, h2⟩ := inspectNodes_ends hT ctx file ns
        (fun id hid => hrec id (by simp only [Node.hasCallIn]; exact Or.inr hid)) s1 l
      have h1' := inspectNode_mono P (Nat.le_max_left k1 k2) _ _ (parseHelper_le P (Nat.le_max_left k1 k2)) _ _ _ _ _ _ h1
      have h2' := inspectNodes_mono P (Nat.le_max_right k1 k2) _ _ (parseHelper_le P (Nat.le_max_right k1 k2)) _ _ _ _ _ _ h2
      exact ⟨max k1 k2, o, by simp only [inspectNodes, h1', h2']⟩
end

theorem parseFunctionWith_ends {P : Prog}
    (hT : ∀ file id, ∀ a ∈ (P.view file id).args, ∀ t, a.type = .ok t → ¬ Diverges P.types [] (some (P.filePkg file)) t) (f : FuncId)
    (ih : ∀ g, HelperOf P g f → ∀ st n file, ∃ k o, parseHelper P k st n g file = some o)
    (top : Bool) (st : HState) (n : Bool) (file : FileId) : ∃ k o, parseFunctionWith P k (parseHelper P k) top st n f file = some o := by
  simp only [parseFunctionWith]
  split
  · exact ⟨0, _, rfl⟩
  · exact ⟨0, _, rfl⟩
  · exact ⟨0, _, rfl⟩
  · rename_i ctx hne hn
    have hctx : ContextParam P f file ctx := (context_parameter_found P f file ctx (fun h => hne (by rw [h]))).1 hn
    obtain ⟨k, ⟨s1, r1⟩, h⟩ := inspectNode_ends hT ctx file (.other (P.funcs f).body)
      (fun id hid file' g hp ht st n file'' => ih g ⟨file, file', id, ctx, hctx, by simpa only [Node.hasCall] using hid, hp, ht⟩ st n file'')
      { st with
        active := file
        route := if top = true ∧ funcDoc P f ≠ [] then { st.route with doc := trimSpace (funcDoc P f) } else st.route }
      { nilRoute := n, err := none }
    refine ⟨k, ?_⟩
    rw [h]
    cases r1 with
    | err e => exact ⟨_, rfl⟩
    | panic m => exact ⟨_, rfl⟩
    | ok l =>
      simp only
      cases l.err with
      | some e => exact ⟨_, rfl⟩
      | none =>
        simp only
        split
        · exact ⟨_, rfl⟩
        · split <;> exact ⟨_, rfl⟩

/-- C17 for programs without a cycle of helpers: if no infinite chain of helpers passes on the context, and the types of
the arguments of calls can be translated, the analysis of every handler ends. Missing: recursive helpers, for which it is
false, see below, and recursive types (property C18). -/
theorem helper_traversal_terminates_partial (P : Prog)
    (hT : ∀ file id, ∀ a ∈ (P.view file id).args, ∀ t, a.type = .ok t → ¬ Diverges P.types [] (some (P.filePkg file)) t)
    (hH : WellFounded (HelperOf P)) (comps : List Field) (route : Route) (f : FuncId) (file : FileId) :
    ∃ o, Ends P comps route f file o := by
  have key : ∀ f st n file, ∃ k o, parseHelper P k st n f file = some o := by
    intro f
    induction f using hH.induction with
    | h f ih =>
      intro st n file
      obtain ⟨k, o, h⟩ := parseFunctionWith_ends hT f ih false st n file
      exact ⟨k + 1, o, h⟩
  obtain ⟨k, o, h⟩ := parseFunctionWith_ends hT f (fun g _ => key g) true { route := route, components := comps, active := file } false file
  exact ⟨o, k, h⟩

/-- C17 is false: the analysis of a handler that calls itself with the context never ends. -/
theorem recursive_helper_diverges : ∀ comps route o, ¬ Ends demo comps route 3 0 o := by
  have key : ∀ k st n file, parseHelper demo k st n 3 file = none := by
    intro k
    induction k with
    | zero => intros; rfl
    | succ k ih =>
      intro st n file
      show parseFunctionWith demo k (parseHelper demo k) false st n 3 file = none
      have hb : (demo.funcs 3).body = [.call 4 []] := rfl
      have hp : findContextName ((demo.funcs 3).params file) = .ok c!"c" := rfl
      simp only [parseFunctionWith, hp, hb, inspectNode, inspectNodes, callStep]
      have hc : demo.customs = [] := rfl
      simp only [hc, runCustoms]
      have hv : ∀ a, demo.view a 4 = { args := [{ ident := some c!"c" }], target := .ok 3 } := fun _ => rfl
      simp only [hv, List.any_cons, decide_true, Bool.true_or, if_true, ih]
  rintro comps route o ⟨k, h⟩
  have := parseHelper_le demo (Nat.le_refl k)
  simp only [parseFunction] at h
  have hb : (demo.funcs 3).body = [.call 4 []] := rfl
  have hp : findContextName ((demo.funcs 3).params 0) = .ok c!"c" := rfl
  simp only [parseFunctionWith, hp, hb, inspectNode, inspectNodes, callStep] at h
  have hc : demo.customs = [] := rfl
  simp only [hc, runCustoms] at h
  have hv : ∀ a, demo.view a 4 = { args := [{ ident := some c!"c" }], target := .ok 3 } := fun _ => rfl
  simp only [hv, List.any_cons, decide_true, Bool.true_or, if_true, key] at h
  cases h

example : WellFounded (HelperOf soundDemo) := by
  refine Subrelation.wf (r := fun g f : Nat => g = 1 ∧ f = 0) ?_ ⟨fun f => ⟨f, ?_⟩⟩
  · rintro g f ⟨file, file', id, ctx, h1, h2, h3, h4⟩
    match f with
    | 0 =>
      simp only [soundDemo, demoFunc, Nat.zero_le, if_true, Node.hasCallIn, Node.hasCall, or_false] at h2
      rcases h2 with rfl | rfl
      · cases h4
      · cases h4; exact ⟨rfl, rfl⟩
    | 1 =>
      simp only [soundDemo, demoFunc, Nat.le_refl, if_true, Node.hasCallIn, Node.hasCall, or_false] at h2
      subst h2
      cases h4
    | n + 2 => simp [soundDemo, Node.hasCallIn] at h2
  · rintro g ⟨rfl, rfl⟩
    exact ⟨_, by rintro g ⟨_, h⟩; cases h⟩

example : ∀ file id, ∀ a ∈ (soundDemo.view file id).args, ∀ t, a.type = .ok t → ¬ Diverges soundDemo.types [] (some (soundDemo.filePkg file)) t := by
  intro file id a ha t ht hd
  have hd := hd 0
  match id with
  | 0 =>
    simp only [soundDemo, demoCall, Nat.zero_le, if_true, List.mem_singleton] at ha
    subst ha; cases ht; exact (nomatch (show some _ = none from hd))
  | 1 =>
    simp only [soundDemo, demoCall, Nat.le_succ, if_true, List.mem_singleton] at ha
    subst ha; cases ht
  | 2 =>
    simp only [soundDemo, demoCall, Nat.le_refl, if_true, jsonArgs, List.mem_cons, List.not_mem_nil, or_false] at ha
    rcases ha with rfl | rfl
    · cases ht; exact (nomatch (show some _ = none from hd))
    · cases ht; exact (nomatch (show some _ = none from hd))
  | n + 3 => simp [soundDemo] at ha

end Astra.Props
