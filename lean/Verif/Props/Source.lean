/-
C101: from the text of a handler to the file.
-/
import Verif.Spec.Source
import Verif.Props.ExprExact
import Verif.Props.HandlerDoc

namespace Astra.Props
open Astra.Spec

/-! ### What the analysis knows of a call does not change beyond some depth -/

theorem exprValue_deeper (X : ExprEnv) (file : FileId) : ∀ (d : Nat) (e : GoExpr),
    exprValue X file d e = .panic c!"stack overflow" ∨ exprValue X file (d + 1) e = exprValue X file d e := by
  have step : ∀ (d : Nat), (∀ e, exprValue X file d e = .panic c!"stack overflow" ∨ exprValue X file (d + 1) e = exprValue X file d e) →
      ∀ (I : PkgInfo) (name : Str) (o : Obj), objValue X file (exprValue X file d) I name o = .panic c!"stack overflow" ∨
        objValue X file (exprValue X file (d + 1)) I name o = objValue X file (exprValue X file d) I name o := by
    intro d ih I name o
    unfold objValue
    cases o.kind with
    | const v => exact Or.inr rfl
    | _ =>
      cases astAtPos I o.pos with
      | ok dn =>
        simp only [Res.bind]
        cases declValue X file name dn with
        | ok e => exact ih e
        | err m => exact Or.inr rfl
        | panic m => exact Or.inr rfl
      | err m => exact Or.inr rfl
      | panic m => exact Or.inr rfl
  intro d
  induction d with
  | zero => exact fun e => Or.inl rfl
  | succ d ih =>
    intro e
    cases e with
    | ident id name =>
      simp only [exprValue]
      cases ownPkg X file with
      | ok I =>
        simp only [Res.bind]
        cases findObject (X.pkgOf file) I id with
        | ok o => exact step d ih I name o
        | err m => exact Or.inr rfl
        | panic m => exact Or.inr rfl
      | err m => exact Or.inr rfl
      | panic m => exact Or.inr rfl
    | selector x id sel =>
      simp only [exprValue]
      cases ownPkg X file with
      | ok I =>
        simp only [Res.bind]
        cases findObject (X.pkgOf file) I id with
        | ok o =>
          simp only
          cases o.pkg with
          | none => exact Or.inr rfl
          | some p =>
            simp only
            cases X.load p with
            | error m => exact Or.inr rfl
            | ok J =>
              simp only
              cases findObjectFuzzy p J id sel with
              | ok o' => exact step d ih J sel o'
              | err m => exact Or.inr rfl
              | panic m => exact Or.inr rfl
        | err m => exact Or.inr rfl
        | panic m => exact Or.inr rfl
      | err m => exact Or.inr rfl
      | panic m => exact Or.inr rfl
    | _ => exact Or.inr rfl

theorem exprValue_settles (X : ExprEnv) (file : FileId) (e : GoExpr) : ∃ v d0, ∀ d, d0 ≤ d → exprValue X file d e = v := by
  by_cases h : ∃ d0, exprValue X file d0 e ≠ .panic c!"stack overflow"
  · obtain ⟨d0, h⟩ := h
    refine ⟨exprValue X file d0 e, d0, fun d hd => ?_⟩
    induction hd with
    | refl => rfl
    | @step d _ ih =>
      rcases exprValue_deeper X file d e with h' | h'
      · rw [ih] at h'; exact absurd h' h
      · rw [h', ih]
  · exact ⟨.panic c!"stack overflow", 0, fun d _ => Classical.byContradiction (fun hc => h ⟨d, hc⟩)⟩

theorem argViews_settle (X : ExprEnv) (file : FileId) : ∀ args : List GoExpr, ∃ vs d0, ∀ d, d0 ≤ d → args.map (argView X file d) = vs
  | [] => ⟨[], 0, fun _ _ => rfl⟩
  | e :: es => by
    obtain ⟨vs, d1, h1⟩ := argViews_settle X file es
    obtain ⟨v, d0, h0⟩ := exprValue_settles X file e
    refine ⟨{ argView X file 0 e with value := v } :: vs, max d0 d1, fun d hd => ?_⟩
    rw [List.map_cons, h1 d (by omega)]
    congr 1
    simp only [argView, h0 d (by omega)]

/-- C101: for every program text there is something that the analysis knows of its calls: looking deeper changes nothing beyond some depth. -/
theorem every_text_read (P : Prog) (X : ExprEnv) (src : CallTexts) (hp : P.filePkg = X.pkgOf) (hc : P.customs = []) :
    ∃ view, ReadFrom { P with view := view } X src := by
  have h : ∀ file id, ∃ v, ∃ d0, ∀ d, d0 ≤ d → v = viewOf X file d (src id).1 (src id).2 := by
    intro file id
    obtain ⟨vs, d0, h⟩ := argViews_settle X file (src id).2
    exact ⟨viewOf X file d0 (src id).1 (src id).2, d0, fun d hd => by simp only [viewOf, h d hd, h d0 (Nat.le_refl _)]⟩
  exact ⟨fun file id => Classical.choose (h file id), fun file id => Classical.choose_spec (h file id), hp, hc⟩

/-! ### From the text to the contributions -/

section
variable {P : Prog} {X : ExprEnv} {src : CallTexts} (hr : ReadFrom P X src)
include hr

theorem read_leaves (ctx : Str) (call : CallView) : AllLeave P ctx call := by
  intro f hf
  rw [hr.customs] at hf
  cases hf

theorem read_passes (file : FileId) (id : Nat) (ctx : Str) : PassesContext (P.view file id) ctx ↔ GetsContext ctx (src id).2 := by
  obtain ⟨d0, h⟩ := hr.calls file id
  rw [h d0 (Nat.le_refl _)]
  exact passes_context_iff X file d0 _ _ ctx

theorem read_func (file : FileId) (id : Nat) : (P.view file id).func =
    (calleeObj X file (src id).1).bind (fun (o, sig) => .ok (decide (sig.recv = some contextRecv), o.name)) := by
  obtain ⟨d0, h⟩ := hr.calls file id
  rw [h d0 (Nat.le_refl _)]
  rfl

theorem read_target (file : FileId) (id : Nat) : (P.view file id).target = (callTarget X file (src id).1).1 ∧
    (P.view file id).targetFile = (callTarget X file (src id).1).2 := by
  obtain ⟨d0, h⟩ := hr.calls file id
  rw [h d0 (Nat.le_refl _)]
  exact ⟨rfl, rfl⟩

theorem read_documented (file : FileId) (id : Nat) (truths : List Truth) (m : Str) (e : Entry) (ht : AllHold X file (src id).2 truths)
    (h : Documented P.types (X.pkgOf file) (truths.map Truth.view) m e) : Documented P.types (P.filePkg file) (P.view file id).args m e := by
  obtain ⟨d0, h0⟩ := hr.calls file id
  obtain ⟨d1, h1⟩ := source_call_contributes P X file id (src id).1 (src id).2 truths m e ht (by rw [hr.packages]; exact h)
  exact h1 (max d0 d1) (by omega) (h0 _ (by omega))
end

theorem calleeObj_bound {X : ExprEnv} {file : FileId} {fn : GoExpr} {id : NodeId} {o : Obj} (hn : CalleeName fn id) (hb : BoundTo X file id o) :
    calleeObj X file fn = (match o.kind with | .func sig => .ok (o, sig) | .builtin => .err c!"built-in function" | _ => .err c!"invalid node type") := by
  obtain ⟨I, _, h1, _, h2, _⟩ := findObject_bound hb
  cases hn <;> simp only [calleeObj, h1, h2, Res.bind] <;> cases o.kind <;> rfl

theorem callsMethod_seen {X : ExprEnv} {file : FileId} {fn : GoExpr} {m : Str} (h : CallsMethod X file fn m) :
    (calleeObj X file fn).bind (fun (o, sig) => .ok (decide (sig.recv = some contextRecv), o.name)) = .ok (true, m) := by
  obtain ⟨id, o, sig, hn, hb, hk, hrv, rfl⟩ := h
  rw [calleeObj_bound hn hb, hk]
  simp only [Res.bind, hrv]
  rfl

theorem callsFunction_seen {X : ExprEnv} {file : FileId} {fn : GoExpr} (h : CallsFunction X file fn) :
    ∃ n, (calleeObj X file fn).bind (fun (o, sig) => .ok (decide (sig.recv = some contextRecv), o.name)) = .ok (false, n) := by
  obtain ⟨id, o, sig, hn, hb, hk, hrv⟩ := h
  refine ⟨o.name, ?_⟩
  rw [calleeObj_bound hn hb, hk]
  simp only [Res.bind]
  rw [decide_eq_false (show ¬ sig.recv = some contextRecv from hrv)]

theorem callsOther_seen {X : ExprEnv} {file : FileId} {fn : GoExpr} (h : CallsOther X file fn) :
    ∃ m, (calleeObj X file fn).bind (fun (o, sig) => .ok (decide (sig.recv = some contextRecv), o.name)) = .err m := by
  rcases h with ⟨id, o, hn, hb, hk⟩ | h
  · rw [calleeObj_bound hn hb]
    cases hk' : o.kind with
    | func sig => exact absurd hk' (hk sig)
    | _ => exact ⟨_, rfl⟩
  · cases fn with
    | ident id name => exact absurd .plain (h id)
    | selector x id sel => exact absurd .selected (h id)
    | _ => exact ⟨_, rfl⟩

theorem callsDeclared_found {X : ExprEnv} {file file' : FileId} {fn : GoExpr} {f : FuncId} (h : CallsDeclared X file fn f file') :
    callTarget X file fn = (.ok f, file') := by
  cases h with
  | sameFile h => exact (helper_found_partial X file f file).1 _ _ h
  | samePackage h hd => exact (helper_found_partial X file f file').2.1 _ _ h hd
  | imported h hd => exact (helper_found_partial X file f file').2.2 _ _ _ _ _ h hd

theorem callsUndeclared_lost {X : ExprEnv} {file : FileId} {fn : GoExpr} (h : CallsUndeclared X file fn) :
    ∃ m, callTarget X file fn = (.err m, file) := by
  cases h with
  | member h => exact ⟨_, not_helper_method X file _ _ _ _ h⟩
  | @deep x id name h =>
    cases x with
    | ident id' n => exact absurd rfl (h id' n)
    | _ => exact ⟨_, rfl⟩
  | @localValue id name d h hd =>
    cases d with
    | func f => exact absurd rfl (hd f)
    | _ => exact ⟨c!"invalid node type", by simp only [callTarget, findDeclaration, h]⟩
  | literal => exact ⟨_, rfl⟩

/-- C101: the contributions of a handler as it is written are those that the analysis finds. -/
theorem text_analysed (P : Prog) (X : ExprEnv) (src : CallTexts) (hr : ReadFrom P X src) (file : FileId) (ctx : Str) (b b' : Bool)
    (nodes : List Node) (es : List Entry) (h : WrittenTo P X src file ctx b nodes es b') : AnalysedTo P file ctx b nodes es b' := by
  have hl := read_leaves hr
  induction h with
  | nil => exact .nil
  | other _ _ i1 i2 => exact .other i1 i2
  | @helper file ctx b b1 b2 id children rest f file' ctx' es0 es es' hg hd hc _ _ _ i0 i1 i2 =>
    obtain ⟨t1, t2⟩ := read_target hr file id
    rw [callsDeclared_found hd] at t1 t2
    exact .helper (hl _ _) ((read_passes hr _ _ _).2 hg) t1 (by rw [t2]; exact hc) (by rw [t2]; exact i0) i1 i2
  | @plain file ctx b b1 b2 id children rest es es' hg hf _ _ i1 i2 =>
    obtain ⟨n, hn⟩ := callsFunction_seen hf
    exact .plain (n := n) (hl _ _) (fun h => hg ((read_passes hr _ _ _).1 h)) (by rw [read_func hr, hn]) i1 i2
  | @unsupported file ctx b b1 b2 id children rest m es es' hg hf hm _ _ i1 i2 =>
    exact .unsupported (hl _ _) (fun h => hg ((read_passes hr _ _ _).1 h)) (by rw [read_func hr, callsMethod_seen hf]) hm i1 i2
  | @context file ctx b b1 b2 id children rest m truths e es es' hg hf ht hd _ _ i1 i2 =>
    exact .context (hl _ _) (fun h => hg ((read_passes hr _ _ _).1 h)) (by rw [read_func hr, callsMethod_seen hf])
      (read_documented hr file id truths m e ht hd) i1 i2
  | @unresolved file ctx b b2 id children rest es' hg hf _ i2 =>
    obtain ⟨n, hn⟩ := callsOther_seen hf
    exact .unresolved (m := n) (hl _ _) (fun h => hg ((read_passes hr _ _ _).1 h)) (by rw [read_func hr, hn]) i2
  | @lost file ctx b b2 id children rest es' hg hf _ i2 =>
    obtain ⟨m, hm⟩ := callsUndeclared_lost hf
    obtain ⟨t1, t2⟩ := read_target hr file id
    rw [hm] at t1 t2
    exact .lost (hl _ _) ((read_passes hr _ _ _).2 hg) t1 t2 i2
  | @noContext file ctx b b2 id children rest f es' hg hd hn _ i2 =>
    obtain ⟨t1, t2⟩ := read_target hr file id
    rw [callsDeclared_found hd] at t1 t2
    exact .noContext (hl _ _) ((read_passes hr _ _ _).2 hg) t1 t2 hn i2
  | @brokenHelper file ctx b b2 id children rest f ctx' es0 es' hg hd hc _ _ i0 i2 =>
    obtain ⟨t1, t2⟩ := read_target hr file id
    rw [callsDeclared_found hd] at t1 t2
    exact .brokenHelper (hl _ _) ((read_passes hr _ _ _).2 hg) t1 t2 hc i0 i2

/-- C101: the handler as it is written is what the analysis sees. -/
theorem written_handler_view (E : RouteEnv) (X : ExprEnv) (src : CallTexts) (hr : ReadFrom E.prog X src) (handler file : Str) (line : Int)
    (comment id : Str) (es : List Entry) (h : WrittenHandler E X src handler file line comment id es) :
    HandlerView E handler file line comment id es := by
  obtain ⟨fileId, name, f, named, ctx, b, h1, h2, h3, h4, h5⟩ := h
  exact ⟨fileId, name, f, named, ctx, h1, h2, ⟨b, text_analysed E.prog X src hr _ _ _ _ _ _ h3⟩, h4, h5⟩

/-- C101: a service with gin routers and an OpenAPI output that comes after no other OpenAPI output; a run that succeeds, whatever faults it
survived. For each allowed entry of the routers with a documented method, whose templated path and method no other entry has: if the handler is
written as `WrittenHandler` says, then in the document whose text is in the file the operation of the entry has its comment and its name, shows
what each of its calls of methods of the context does, for the values and types that the arguments have in Go, and shows nothing else. Missing: the
calls that `WrittenHandler` leaves out, see `not_every_text_call_documented`. -/
theorem run_documents_text_partial (L : Lib) (E : ParseCtx → RouteEnv) (X : ParseCtx → ExprEnv) (src : CallTexts)
    (hE : ByModel L E) (hread : ∀ c, ReadFrom (E c).prog (X c) src) (U : FPath → Prop) (hL : Tame L U)
    (hch : ∀ n, ValidChoice (L.choices.route n)) (getwd : Str) (φ : Faults)
    (w w' : World Proc) (d : FPath)
    (hd : DirAt w.cwd w.st.svc.workDir d) (hg : resolve w.cwd getwd = some w.cwd) (hnames : ProperNames w.fs) (hc : ∀ x ∈ w.cwd, '/' ∉ x)
    (routers : List (List RouteInfo)) (hin : Each GinInput w.st.svc.inputs routers) (hroutes : w.st.svc.routes = [])
    (hnd : DistinctRoutes (allowed w.st.svc.denyList routers.flatten))
    (before after : List Output) (o : Output) (hout : w.st.svc.outputs = before ++ o :: after) (hown : OwnCells w.st.svc.outputs)
    (hbefore : ∀ b ∈ before, Plain b) (loc : Nat) (ho : o.generate = .openapi loc) (q : FPath) (hq : OutputPlace d w.st.svc o.generate q)
    (hplace : OwnPlace w.cwd d w.st.svc after q) (hU : ¬ U q)
    (h : Astra.parseAll L getwd φ w = (w', .ok ())) :
    ∃ doc text, w'.fs.look q = some (.file text) ∧
      L.render (isYaml (withExtension [c!".json", c!".yaml", c!".yml"] (w.st.svc.cells.getD loc []))) doc = .ok text ∧
      ∀ i ∈ allowed w.st.svc.denyList routers.flatten, i.method ∈ documentedMethods →
        (∀ j ∈ allowed w.st.svc.denyList routers.flatten, openapiPath j.path = openapiPath i.path → j.method = i.method → j = i) →
        ∃ (relative : Str) (mains : List Str), L.rel i.file = .ok relative ∧ mains.length = routers.length ∧ ∀ (comment id : Str) (es : List Entry),
          (∀ main ∈ mains, ∀ c, c = { workDir := workDirAfter getwd w.st.svc, mainPkg := main, customFuncs := w.st.svc.customFuncs } →
            WrittenHandler (E c) (X c) src i.handler relative i.line comment id es) →
            ∃ op, Document.operation doc (openapiPath i.path) i.method = some op ∧ op.description = comment ∧ op.operationId = id ∧
              (∀ e ∈ es, Shows op e) ∧ ShowsOnly op i.path es := by
  obtain ⟨doc, text, h1, h2, h3⟩ := run_documents_handler L E hE U hL hch getwd φ w w' d hd hg hnames hc routers hin hroutes hnd before after o
    hout hown hbefore loc ho q hq hplace hU h
  refine ⟨doc, text, h1, h2, fun i hi hm huniq => ?_⟩
  obtain ⟨relative, mains, hrel, hlen, h4⟩ := h3 i hi hm huniq
  refine ⟨relative, mains, hrel, hlen, fun comment id es hv => ?_⟩
  exact h4 comment id es (fun main hmain => written_handler_view _ (X _) src (hread _) _ _ _ _ _ _ (hv main hmain _ rfl))

end Astra.Props
