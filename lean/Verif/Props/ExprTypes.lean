/-
C71, C73, C74, C75: types of arguments, names, helper functions, and the contribution of a call read off its syntax.
-/
import Verif.Props.Expr
import Verif.Props.Handler

namespace Astra.Props
open Spec

/-! ### Types -/

theorem denoted_type {E : ExprEnv} {file : FileId} {e : GoExpr} {t : GoType} (h : DenotesType E file e t) :
    ∃ t', exprType E file 0 e = .ok t' ∧ behind t' = behind t := by
  induction h with
  | name hb _ =>
    obtain ⟨I, _, h1, _, _, h3⟩ := findObject_bound hb
    exact ⟨_, by simp only [exprType, h1, h3, Res.bind], rfl⟩
  | qualified hb _ =>
    obtain ⟨I, _, h1, _, h2, _⟩ := findObject_bound hb
    exact ⟨_, by simp only [exprType, h1, h2, Res.bind], rfl⟩
  | pointer _ ih =>
    obtain ⟨t', h1, h2⟩ := ih
    exact ⟨t', by simp only [exprType, h1], by simp only [behind, h2]⟩
  | array hI hp ht => exact ⟨_, by simp only [exprType, ownPkg_of hI, Res.bind, findType, hp, if_true, ht], rfl⟩
  | map hI hp ht => exact ⟨_, by simp only [exprType, ownPkg_of hI, Res.bind, findType, hp, if_true, ht], rfl⟩

/-- C71, partial: the type found for an argument is the one that the rules of Go give it, up to pointers. Missing: other
expressions, see below. -/
theorem expr_type_partial (E : ExprEnv) (file : FileId) (e : GoExpr) (t : GoType) (h : HasType E file e t) :
    ∃ t', exprType E file 0 e = .ok t' ∧ behind t' = behind t := by
  have hbi : ∀ name, name ∉ builtinNames → ¬ (name = c!"new" ∨ name = c!"make") ∧ ¬ name = c!"len" := by
    intro name h
    simp only [builtinNames, List.mem_cons, List.not_mem_nil, or_false, not_or] at h
    exact ⟨by simp [h.1, h.2.1], h.2.2⟩
  induction h with
  | lit hI hp ht => exact ⟨_, by simp only [exprType, ownPkg_of hI, Res.bind, findType, hp, if_true, ht], rfl⟩
  | name hb =>
    obtain ⟨I, _, h1, _, _, h3⟩ := findObject_bound hb
    exact ⟨_, by simp only [exprType, h1, h3, Res.bind], rfl⟩
  | field hb =>
    obtain ⟨I, _, h1, _, h2, _⟩ := findObject_bound hb
    exact ⟨_, by simp only [exprType, h1, h2, Res.bind], rfl⟩
  | address _ ih =>
    obtain ⟨t', h1, h2⟩ := ih
    exact ⟨t', by simp only [exprType, h1], by simp only [behind, h2]⟩
  | arith _ _ ih =>
    obtain ⟨t', h1, h2⟩ := ih
    exact ⟨t', by simp only [exprType, h1], h2⟩
  | deref _ ih =>
    obtain ⟨t', h1, h2⟩ := ih
    exact ⟨t', by simp only [exprType, h1], by simpa only [behind] using h2⟩
  | composite hd =>
    obtain ⟨t', h1, h2⟩ := denoted_type hd
    exact ⟨t', by simp only [exprType, h1], h2⟩
  | new _ _ hd =>
    obtain ⟨t', h1, h2⟩ := denoted_type hd
    exact ⟨t', by simp only [exprType, true_or, if_true, firstType, h1], by simp only [behind, h2]⟩
  | make _ _ hd =>
    obtain ⟨t', h1, h2⟩ := denoted_type hd
    exact ⟨t', by simp only [exprType, or_true, if_true, firstType, h1], h2⟩
  | len _ _ => exact ⟨_, by simp only [exprType]; rfl, rfl⟩
  | @call id name o sig t args hn hb hk hr =>
    obtain ⟨I, _, h1, _, h2, _⟩ := findObject_bound hb
    exact ⟨t, by simp only [exprType, (hbi _ hn).1, (hbi _ hn).2, if_false, returnType, calleeObj, h1, h2, Res.bind, hk, hr,
      List.getElem?_cons_zero], rfl⟩
  | @method x id sel o sig t args hb hk hr =>
    obtain ⟨I, _, h1, _, h2, _⟩ := findObject_bound hb
    exact ⟨t, by simp only [exprType, returnType, calleeObj, h1, h2, Res.bind, hk, hr, List.getElem?_cons_zero], rfl⟩

/-- `&Item{}`, `new(Item)` and `item`. -/
example : HasType appEnv 0 (.unary c!"&" (.composite (some (.ident (appId 68) c!"Item")))) (.pointer (.named (some c!"app") c!"Item" [])) :=
  .address (.composite (.name (o := { kind := .typeName, name := c!"Item", type := .named (some c!"app") c!"Item" [], pkg := some c!"app", pos := 71 })
    (appBound (pos := 68) rfl) rfl))
example : HasType appEnv 0 (.star (.ident (appId 67) c!"item")) (.named (some c!"app") c!"Item" []) :=
  .deref (.name (o := { kind := .var, name := c!"item", type := .pointer (.named (some c!"app") c!"Item" []), pkg := some c!"app", pos := 70 })
    (appBound (pos := 67) rfl))

/-! What is not covered. -/

/-- A function of the program named `len` is taken for the predeclared one. -/
theorem not_type_shadowed : ∃ o sig, BoundTo appEnv 0 (appId 80) o ∧ o.kind = .func sig ∧ sig.results = [.basic .string c!"string"] ∧
    exprType appEnv 0 0 (.call (.ident (appId 80) c!"len") []) = .ok (.basic .int c!"int") :=
  ⟨_, _, appBound (pos := 80) rfl, rfl, rfl, rfl⟩

/-- A function of the program named `make` without parameters ends the program. -/
theorem not_type_shadowed_panic (E : ExprEnv) (file : FileId) (id : NodeId) :
    exprType E file 0 (.call (.ident id c!"make") []) = .panic c!"index out of range" := rfl

/-- What is received from a channel is given the type of the channel. -/
theorem not_type_receive (E : ExprEnv) (file : FileId) (x : GoExpr) : exprType E file 0 (.unary c!"<-" x) = exprType E file 0 x := by
  simp only [exprType]

/-- A conversion is not understood: what is called is not a function. -/
theorem not_type_conversion : ∃ o, BoundTo appEnv 0 (appId 81) o ∧ o.kind = .typeName ∧ ∀ x,
    exprType appEnv 0 0 (.call (.ident (appId 81) c!"int64") [x]) = .err c!"invalid node type" :=
  ⟨_, appBound (pos := 81) rfl, rfl, fun _ => rfl⟩

/-- Indexing, slicing, operators on two operands, type assertions, function literals and composite literals of unnamed struct
types are not understood. -/
theorem not_type_other (E : ExprEnv) (file : FileId) (id : NodeId) :
    exprType E file 0 (.other id) = .err c!"unsupported expression type" ∧
    exprType E file 0 (.composite (some (.other id))) = .err c!"unsupported expression type" :=
  ⟨rfl, rfl⟩

/-! ### Names -/

theorem chain_ne_nil {x : GoExpr} (h : chain x = some []) : False := by
  cases x with
  | selector x _ _ =>
    simp only [chain, Option.map_eq_some_iff] at h
    obtain ⟨l, _, hl⟩ := h
    simp at hl
  | _ => simp [chain] at h

theorem varNameLoop_chain (E : ExprEnv) (file : FileId) : ∀ (x : GoExpr) (names : List Str), names ≠ [] →
    (chain x = none → varNameLoop E file names x = {}) ∧
    ∀ a rest, chain x = some (a :: rest) →
      (∀ p, E.imports file a = some p →
        varNameLoop E file names x = { package := some p, type := (rest ++ names).getLastD [], names := (rest ++ names).dropLast }) ∧
      (E.imports file a = none →
        varNameLoop E file names x = { package := some (E.pkgOf file), type := (rest ++ names).getLastD [], names := a :: (rest ++ names).dropLast })
  | .ident id name, names, hn => by
    refine ⟨fun h => by simp [chain] at h, fun a rest h => ?_⟩
    simp only [chain, Option.some.injEq, List.cons.injEq] at h
    obtain ⟨rfl, rfl⟩ := h
    refine ⟨fun p hp => by simp only [varNameLoop, hp, List.nil_append], fun hp => ?_⟩
    obtain ⟨b, names', rfl⟩ : ∃ b names', names = b :: names' := by cases names with | nil => exact absurd rfl hn | cons b l => exact ⟨b, l, rfl⟩
    simp only [varNameLoop, hp, List.nil_append]
    simp [List.dropLast]
  | .selector x id sel, names, hn => by
    have := varNameLoop_chain E file x (sel :: names) (by simp)
    refine ⟨fun h => ?_, fun a rest h => ?_⟩
    · simp only [chain, Option.map_eq_none_iff] at h
      simp only [varNameLoop]
      exact this.1 h
    · simp only [chain, Option.map_eq_some_iff] at h
      obtain ⟨l, hl, he⟩ := h
      obtain ⟨b, l', rfl⟩ : ∃ b l', l = b :: l' := by
        cases l with
        | nil => exact absurd hl (fun h => chain_ne_nil h)
        | cons b l' => exact ⟨b, l', rfl⟩
      simp only [List.cons_append, List.cons.injEq] at he
      obtain ⟨rfl, rfl⟩ := he
      simp only [varNameLoop, List.append_assoc, List.cons_append, List.nil_append]
      exact this.2 _ _ hl
  | .lit .., names, _ => ⟨fun _ => rfl, fun a rest h => by simp [chain] at h⟩
  | .star .., names, _ => ⟨fun _ => rfl, fun a rest h => by simp [chain] at h⟩
  | .unary .., names, _ => ⟨fun _ => rfl, fun a rest h => by simp [chain] at h⟩
  | .composite .., names, _ => ⟨fun _ => rfl, fun a rest h => by simp [chain] at h⟩
  | .arrayType .., names, _ => ⟨fun _ => rfl, fun a rest h => by simp [chain] at h⟩
  | .mapType .., names, _ => ⟨fun _ => rfl, fun a rest h => by simp [chain] at h⟩
  | .call .., names, _ => ⟨fun _ => rfl, fun a rest h => by simp [chain] at h⟩
  | .other .., names, _ => ⟨fun _ => rfl, fun a rest h => by simp [chain] at h⟩

/-- C73: the parts of a name `a.b.….z`: the type is the last name; the package is that of the import `a`, which is then not part of
the names, or else that of the file. -/
theorem var_name_parts (E : ExprEnv) (file : FileId) (e : GoExpr) (a : Str) (rest : List Str) (h : chain e = some (a :: rest)) :
    (rest = [] → extractVarName E file e = { package := some (E.pkgOf file), type := a }) ∧
    ∀ mid z, rest = mid ++ [z] →
      (∀ p, E.imports file a = some p → extractVarName E file e = { package := some p, type := z, names := mid }) ∧
      (E.imports file a = none → extractVarName E file e = { package := some (E.pkgOf file), type := z, names := a :: mid }) := by
  cases e with
  | ident id name =>
    simp only [chain, Option.some.injEq, List.cons.injEq] at h
    obtain ⟨rfl, rfl⟩ := h
    exact ⟨fun _ => rfl, fun mid z hz => by simp at hz⟩
  | selector x id sel =>
    simp only [chain, Option.map_eq_some_iff] at h
    obtain ⟨l, hl, he⟩ := h
    obtain ⟨b, l', rfl⟩ : ∃ b l', l = b :: l' := by
      cases l with
      | nil => exact absurd hl (fun h => chain_ne_nil h)
      | cons b l' => exact ⟨b, l', rfl⟩
    simp only [List.cons_append, List.cons.injEq] at he
    obtain ⟨rfl, rfl⟩ := he
    refine ⟨fun h => by simp at h, fun mid z hz => ?_⟩
    have hz2 := List.append_inj' hz rfl
    obtain ⟨rfl, hz3⟩ := hz2
    simp only [List.cons.injEq, and_true] at hz3
    subst hz3
    have := (varNameLoop_chain E file x [sel] (by simp)).2 b l' hl
    simp only [extractVarName]
    simpa using this
  | _ => simp [chain] at h

/-- C73: anything else has no name. -/
theorem var_name_none (E : ExprEnv) (file : FileId) (e : GoExpr) (h : chain e = none) : extractVarName E file e = {} := by
  cases e with
  | ident id name => simp [chain] at h
  | selector x id sel =>
    simp only [chain, Option.map_eq_none_iff] at h
    exact (varNameLoop_chain E file x [sel] (by simp)).1 h
  | _ => rfl

example : chain (.selector (.selector (.ident (appId 1) c!"http") (appId 2) c!"DefaultClient") (appId 3) c!"Timeout") =
    some (c!"http" :: ([c!"DefaultClient"] ++ [c!"Timeout"])) ∧ appEnv.imports 0 c!"http" = some c!"net/http" := ⟨rfl, rfl⟩

/-! ### Helper functions -/

theorem declaresFunc_find {E : ExprEnv} {file : FileId} {p name : Str} {f : FuncId} {file' : FileId} (h : DeclaresFunc E p name f file') :
    findDeclaration.inPackage E file p name = (.ok (.func f), file') := by
  obtain ⟨I, pos, s, hI, hpos, hs, hn, rfl, hu, hf⟩ := h
  have hfind : I.syn.find? (fun g => I.fileOf pos = g.name) = some s := by
    cases hg : I.syn.find? (fun g => I.fileOf pos = g.name) with
    | none =>
      have := List.find?_eq_none.1 hg s hs
      simp [hn] at this
    | some g =>
      have h1 := List.find?_some hg
      have h2 := List.mem_of_find?_eq_some hg
      rw [hu g h2 (by rw [hn]; simpa using (of_decide_eq_true h1).symm)]
  simp only [findDeclaration.inPackage, hI, findASTForType, hpos, hfind, hf]

/-- C74, partial: a helper that is called by its name and declared as a function in the same file, in another file of the package,
or in an imported package is found, with the file it is declared in. Missing: methods and function values, see below. -/
theorem helper_found_partial (E : ExprEnv) (file : FileId) (f : FuncId) (file' : FileId) :
    (∀ id name, E.astObj id = some (some (.func f)) → callTarget E file (.ident id name) = (.ok f, file)) ∧
    (∀ id name, E.astObj id = none → DeclaresFunc E (E.pkgOf file) name f file' → callTarget E file (.ident id name) = (.ok f, file')) ∧
    (∀ id x p id' name, E.imports file x = some p → DeclaresFunc E p name f file' →
      callTarget E file (.selector (.ident id x) id' name) = (.ok f, file')) := by
  refine ⟨fun id name h => ?_, fun id name h hd => ?_, fun id x p id' name h hd => ?_⟩
  · simp only [callTarget, findDeclaration, h]
  · simp only [callTarget, findDeclaration, h, declaresFunc_find hd]
  · simp only [callTarget, findDeclaration, h, declaresFunc_find hd]

example : DeclaresFunc appEnv (appEnv.pkgOf 0) c!"helper" 7 0 :=
  ⟨appInfo, 12, _, rfl, rfl, List.mem_singleton.2 rfl, rfl, rfl, fun _ hg _ => List.mem_singleton.1 hg, rfl⟩

/-- A method that is given the context is not found, so the analysis of the handler fails. -/
theorem not_helper_method (E : ExprEnv) (file : FileId) (id id' : NodeId) (x name : Str) (h : E.imports file x = none) :
    callTarget E file (.selector (.ident id x) id' name) = (.err c!"not implemented yet", file) := by
  simp only [callTarget, findDeclaration, h]

/-- Neither is a function held in a variable, `helper := func(c *gin.Context) { … }`. -/
theorem not_helper_value (E : ExprEnv) (file : FileId) (id : NodeId) (name : Str) (lhs rhs : List GoExpr)
    (h : E.astObj id = some (some (.assign lhs rhs))) : callTarget E file (.ident id name) = (.err c!"invalid node type", file) := by
  simp only [callTarget, findDeclaration, h]

/-! ### Calls -/

theorem typeStep_behind (Γ : TypeEnv) (adding : Bool) (rec : List Field → Option Str → Str → GoType → TOut Result) (st : List Field)
    (pkg : Option Str) (t : GoType) : typeStep Γ adding rec st pkg [] t = typeStep Γ adding rec st pkg [] (behind t) := by
  induction t using behind.induct with
  | case1 t ih => simp only [behind, typeStep]; exact ih
  | case2 t h => rw [behind]; exact h

theorem typeResult_behind (Γ : TypeEnv) (adding : Bool) (fuel : Nat) (st : List Field) (pkg : Option Str) (t : GoType) :
    typeResult Γ adding fuel st pkg [] t = typeResult Γ adding fuel st pkg [] (behind t) := by
  cases fuel <;> exact typeStep_behind ..

theorem translates_behind {Γ : TypeEnv} {c : List Field} {pkg : Option Str} {t t' : GoType} {o : List Field × Res Result}
    (h : behind t' = behind t) (ht : Translates Γ c pkg t o) : Translates Γ c pkg t' o := by
  obtain ⟨fuel, hf⟩ := ht
  refine ⟨fuel, ?_⟩
  rw [typeResult_behind, h, ← typeResult_behind]
  exact hf

/-- `a` shows at least what `b` shows, up to pointers. -/
def Sees (a b : ArgView) : Prop :=
  (∀ s, b.value = .ok s → a.value = .ok s) ∧ (∀ t, b.type = .ok t → ∃ t', a.type = .ok t' ∧ behind t' = behind t)

theorem documented_sees {Γ : TypeEnv} {pkg : Str} {as bs : List ArgView} (hs : ∀ (i : Nat) b, bs[i]? = some b → ∃ a, as[i]? = some a ∧ Sees a b)
    {m : Str} {e : Entry} (h : Documented Γ pkg bs m e) : Documented Γ pkg as m e := by
  have ms : ∀ {i code}, IsStatus bs i code → IsStatus as i code := by
    rintro i code ⟨b, s, hb, hv, ha⟩
    obtain ⟨a, h1, h2⟩ := hs i b hb
    exact ⟨a, s, h1, h2.1 s hv, ha⟩
  have mn : ∀ {i n}, IsName bs i n → IsName as i n := by
    rintro i n ⟨b, hb, hv⟩
    obtain ⟨a, h1, h2⟩ := hs i b hb
    exact ⟨a, h1, h2.1 n hv⟩
  have mf : ∀ {i f}, IsField Γ pkg bs i f → IsField Γ pkg as i f := by
    rintro i f ⟨b, t, c, c', r, hb, ht, htr, hf⟩
    obtain ⟨a, h1, h2⟩ := hs i b hb
    obtain ⟨t', h3, h4⟩ := h2.2 t ht
    exact ⟨a, t', c, c', r, h1, h3, translates_behind h4 htr, hf⟩
  cases h with
  | json hm h0 h1 => exact .json hm (ms h0) (mf h1)
  | xml h0 h1 => exact .xml (ms h0) (mf h1)
  | yaml h0 h1 => exact .yaml (ms h0) (mf h1)
  | protobuf h0 h1 => exact .protobuf (ms h0) (mf h1)
  | string h0 => exact .string (ms h0)
  | status hm h0 => exact .status hm (ms h0)
  | query hm h0 => exact .query hm (mn h0)
  | queryArray hm h0 => exact .queryArray hm (mn h0)
  | queryMap hm h0 => exact .queryMap hm (mn h0)
  | bindQuery hm h0 => exact .bindQuery hm (mf h0)
  | bind hm h0 => exact .bind hm (mf h0)
  | bindJSON hm h0 => exact .bindJSON hm (mf h0)
  | bindXML hm h0 => exact .bindXML hm (mf h0)
  | bindYAML hm h0 => exact .bindYAML hm (mf h0)
  | postForm hm h0 => exact .postForm hm (mn h0)
  | postFormArray hm h0 => exact .postFormArray hm (mn h0)
  | postFormMap hm h0 => exact .postFormMap hm (mn h0)
  | formFile h0 => exact .formFile (mn h0)
  | getHeader h0 => exact .getHeader (mn h0)
  | bindHeader hm h0 => exact .bindHeader hm (mf h0)
  | header h0 => exact .header (mn h0)

theorem truths_seen {E : ExprEnv} {file : FileId} : ∀ {args : List GoExpr} {truths : List Truth},
    AllHold E file args truths → ∃ k0, ∀ k, k0 ≤ k → ∀ (i : Nat) b, (truths.map Truth.view)[i]? = some b →
      ∃ a, (args.map (argView E file k))[i]? = some a ∧ Sees a b := by
  intro args truths h
  induction h with
  | nil => exact ⟨0, fun k _ i b hb => by simp at hb⟩
  | @cons e T args truths hT _ ih =>
    obtain ⟨k1, ih⟩ := ih
    have hv : ∃ k0, ∀ k, k0 ≤ k → ∀ s, T.view.value = .ok s → exprValue E file k e = .ok s := by
      cases hT' : T.value with
      | none =>
        refine ⟨0, fun k _ s hs => ?_⟩
        simp only [Truth.view, hT', Option.bind_none] at hs
        cases hs
      | some v =>
        obtain ⟨k0, hk⟩ := readable_value (hT.1 v hT')
        refine ⟨k0, fun k hkk s hs => ?_⟩
        obtain ⟨s', h1, h2⟩ := hk k hkk
        simp only [Truth.view, hT', Option.bind_some, h1] at hs
        cases hs
        exact h2
    obtain ⟨k0, hv⟩ := hv
    refine ⟨max k0 k1, fun k hk i b hb => ?_⟩
    cases i with
    | succ i =>
      simp only [List.map_cons, List.getElem?_cons_succ] at hb ⊢
      exact ih k (by omega) i b hb
    | zero =>
      simp only [List.map_cons, List.getElem?_cons_zero, Option.some.injEq] at hb ⊢
      subst hb
      refine ⟨_, rfl, hv k (by omega), fun t ht => ?_⟩
      cases hT' : T.type with
      | none => simp only [Truth.view, hT'] at ht; cases ht
      | some t0 =>
        simp only [Truth.view, hT'] at ht
        obtain rfl : t0 = t := Res.ok.inj ht
        exact expr_type_partial E file e t0 (hT.2 t0 hT')

/-- C75: a call of a supported method of the context whose arguments are of the supported kinds adds to the route the entry
that is documented for the values and types that Go gives the arguments. -/
theorem source_call_documented (P : Prog) (E : ExprEnv) (file : FileId) (pkg : Str) (fn : GoExpr) (args : List GoExpr)
    (truths : List Truth) (m : Str) (e : Entry) (ht : AllHold E file args truths)
    (h : Documented P.types pkg (truths.map Truth.view) m e) :
    ∃ d0, ∀ d, d0 ≤ d → ∃ k0, ∀ k, k0 ≤ k → ∀ st loc, loc.nilRoute = false → ∃ comps, st.components <+: comps ∧
      contextCall P k pkg (viewOf E file d fn args) [] m st loc =
        some ({ st with route := e.addTo st.route, components := comps }, .ok ({ saved := loc.saved }, true)) := by
  obtain ⟨d0, hd⟩ := truths_seen ht
  exact ⟨d0, fun d hdd => context_call_documented_partial P pkg (viewOf E file d fn args) m e (documented_sees (hd d hdd) h)⟩

/-- C75: the same inside a handler: where a program is analysed whose calls are seen as their syntax shows them, the call
contributes the documented entry (the rule `Analysed.context` of `handler_source_order`, C14). -/
theorem source_call_contributes (P : Prog) (E : ExprEnv) (file : FileId) (id : Nat) (fn : GoExpr) (args : List GoExpr)
    (truths : List Truth) (m : Str) (e : Entry) (ht : AllHold E file args truths)
    (h : Documented P.types (P.filePkg file) (truths.map Truth.view) m e) :
    ∃ d0, ∀ d, d0 ≤ d → P.view file id = viewOf E file d fn args → Documented P.types (P.filePkg file) (P.view file id).args m e := by
  obtain ⟨d0, hd⟩ := truths_seen ht
  exact ⟨d0, fun d hdd hv => by rw [hv]; exact documented_sees (hd d hdd) h⟩

/-- `c.JSON(http.StatusOK, &Item{})`. -/
example : ∃ truths, AllHold appEnv 0 [.selector (.ident (appId 2) c!"http") (appId 65) c!"StatusOK",
      .unary c!"&" (.composite (some (.ident (appId 68) c!"Item")))] truths ∧
    truths = [{ value := some (.int 200) }, { type := some (.pointer (.named (some c!"app") c!"Item" [])) }] := by
  refine ⟨_, .cons ⟨?_, fun t ht => by simp at ht⟩ (.cons ⟨fun t ht => by simp at ht, ?_⟩ .nil), rfl⟩
  · intro v hv
    cases hv
    refine .imported (appBound (pos := 65) rfl) rfl ⟨c!"net/http", httpInfo, rfl, rfl, ?_, ?_⟩
    · exact ⟨_, List.mem_singleton.2 rfl, rfl⟩
    · intro d hd _
      rw [List.mem_singleton.1 hd]
      exact ⟨_, rfl, rfl⟩
  · intro t ht
    cases ht
    exact .address (.composite (.name (o := { kind := .typeName, name := c!"Item", type := .named (some c!"app") c!"Item" [], pkg := some c!"app", pos := 71 })
      (appBound (pos := 68) rfl) rfl))

/-- The call is seen as a call of a method of the context. -/
theorem context_method_seen (E : ExprEnv) (file : FileId) (d : Nat) (x : GoExpr) (id : NodeId) (sel : Str) (args : List GoExpr) (o : Obj)
    (sig : Signature) (hb : BoundTo E file id o) (hk : o.kind = .func sig) :
    (viewOf E file d (.selector x id sel) args).func = .ok (decide (sig.recv = some c!"*github.com/gin-gonic/gin.Context"), o.name) := by
  obtain ⟨I, _, h1, _, h2, _⟩ := findObject_bound hb
  simp only [viewOf, calleeObj, h1, h2, Res.bind, hk]
  rfl

example : (viewOf appEnv 0 1 (.selector (.ident (appId 1) c!"c") (appId 90) c!"JSON") []).func = .ok (true, c!"JSON") := by decide +kernel

end Astra.Props
