/-
What the parts of the pipeline leave alone in the process state: the inputs, the outputs and the log.
-/
import Verif.Lemmas.Keeps

namespace Astra
open Run

/-- The states agree in everything but the routes, the components, the temporary package, the captured variables, the configuration and
the name table. -/
def SameSettings (p p' : Proc) : Prop :=
  ∃ routes components tempMain cells config names,
    p' = { p with svc := { p.svc with routes, components, tempMain, cells, config }, names }

/-- A property of the process state that depends only on the settings. -/
def OnIO (S : Proc → Prop) : Prop := ∀ p p' : Proc, S p → SameSettings p p' → S p'

/-- A property of file trees that all calls keep. -/
structure ClosedFS (P : FS → Prop) : Prop where
  mkdir : ∀ fs q, P fs → q ≠ [] → fs.look q = none → fs.look q.dropLast = some .dir → P (fs.put q .dir)
  create : ∀ fs q, P fs → q ≠ [] → fs.look q.dropLast = some .dir → fs.look q ≠ some .dir → P (fs.put q (.file []))
  write : ∀ fs q t, P fs → fs.isFile q = true → P (fs.put q (.file t))
  mkdirs : ∀ fs q n, P fs → (ancestors q).any fs.isFile = false → P (fs.mkdirs ((ancestors q).take n))
  del : ∀ fs q, P fs → P (fs.del q)
  delPart : ∀ fs q keep, P fs → P (fs.delPart keep q)
  move : ∀ fs a b, P fs → fs.look a ≠ none → b ≠ [] → ¬ a <+: b → fs.look b.dropLast = some .dir → P (fs.move a b)

/-- Any file tree. -/
def anyFS (_ : FS) : Prop := True

theorem closed_anyFS : ClosedFS anyFS := by constructor <;> (intros; trivial)

section
variable {c : FPath} {S : Proc → Prop} {P : FS → Prop}

theorem keepsIO_modifySvc (hS : OnIO S) {f : Service → Service}
    (h : ∀ s, ∃ routes components tempMain cells config, f s = { s with routes, components, tempMain, cells, config }) :
    Keeps (Inv c S P) anyVal (modifySvc f) :=
  keeps_modifySvc (fun p hp => by
    obtain ⟨r, cs, t, ce, cf, e⟩ := h p.svc
    exact hS p _ hp ⟨r, cs, t, ce, cf, p.names, by rw [e]⟩)

theorem keepsIO_stat {p : Str} : Keeps (Inv c S P) anyVal (osStat p : Prg FNode) := keeps_stat (fun _ _ _ _ _ _ => trivial)
theorem keepsIO_mkdir (hP : ClosedFS P) {p : Str} : Keeps (Inv c S P) anyVal (osMkdir p : Prg Unit) :=
  keeps_mkdir (fun fs q h _ h1 h2 h3 => hP.mkdir fs q h h1 h2 h3)
theorem keepsIO_mkdirAll (hP : ClosedFS P) {p : Str} : Keeps (Inv c S P) anyVal (osMkdirAll p : Prg Unit) :=
  keeps_mkdirAll (fun fs q n h _ h1 => hP.mkdirs fs q n h h1)
theorem keepsIO_create (hP : ClosedFS P) {p : Str} : Keeps (Inv c S P) anyVal (osCreate p : Prg Unit) :=
  keeps_create (fun fs q h _ h1 h2 h3 => hP.create fs q h h1 h2 h3)
theorem keepsIO_write (hP : ClosedFS P) {p t : Str} : Keeps (Inv c S P) anyVal (osWrite p t : Prg Unit) :=
  keeps_write (fun fs q _ h _ h1 => hP.write fs q _ h h1)
theorem keepsIO_writeFile (hP : ClosedFS P) {p t : Str} : Keeps (Inv c S P) anyVal (osWriteFile p t : Prg Unit) :=
  keeps_writeFile (fun fs q h _ h1 h2 h3 => hP.create fs q h h1 h2 h3) (fun fs q _ h _ h1 => hP.write fs q _ h h1)
theorem keepsIO_removeAll (hP : ClosedFS P) {p : Str} : Keeps (Inv c S P) anyVal (osRemoveAll p : Prg Unit) :=
  keeps_removeAll (fun fs q h _ => ⟨hP.del fs q h, fun k => hP.delPart fs q k h⟩)
theorem keepsIO_rename (hP : ClosedFS P) {a b : Str} : Keeps (Inv c S P) anyVal (osRename a b : Prg Unit) :=
  keeps_rename (fun fs a b h _ _ h1 h2 h3 h4 => hP.move fs a b h h1 h2 h3 h4)
theorem keepsIO_readFile {p : Str} : Keeps (Inv c S P) anyVal (osReadFile p : Prg Str) := keeps_readFile (fun _ _ _ _ _ _ => trivial)
theorem keepsIO_readDir {p : Str} : Keeps (Inv c S P) anyVal (osReadDir p : Prg (List Str)) := keeps_readDir (fun _ _ _ _ _ => trivial)
theorem keepsIO_getSvc : Keeps (Inv c S P) anyVal getSvc := keeps_getSvc (fun _ _ => trivial)

theorem keepsIO_setupAstraDir (hP : ClosedFS P) : Keeps (Inv c S P) anyVal setupAstraDir := by
  unfold setupAstraDir setupGitIgnore
  refine Keeps.seq keepsIO_getSvc (fun s => Keeps.seq (keepsIO_mkdirAll hP) (fun _ => Keeps.seq keepsIO_getSvc (fun s => ?_)))
  refine Keeps.seq (Keeps.try' keepsIO_stat) (fun r => ?_)
  cases r with
  | ok n => exact Keeps.pure trivial
  | error e => exact Keeps.seq (keepsIO_create hP) (fun _ => keepsIO_write hP)

theorem keepsIO_cache (hP : ClosedFS P) (L : Lib) : Keeps (Inv c S P) anyVal (cache L) := by
  unfold cache
  refine Keeps.seq keepsIO_getSvc (fun s => ?_)
  have hrest : Keeps (Inv c S P) anyVal (do
      osCreate (cachePathOf s)
      match cacheText L (cachePathOf s) s with
      | none => Run.panic
      | some text => osWrite (cachePathOf s) text) := by
    refine Keeps.seq (keepsIO_create hP) (fun _ => ?_)
    cases cacheText L (cachePathOf s) s with
    | none => exact Keeps.panic
    | some t => exact keepsIO_write hP
  refine Keeps.seq (Keeps.try' keepsIO_stat) (fun r => ?_)
  cases r with
  | error e => exact hrest
  | ok n =>
    refine Keeps.seq (A := anyVal) ?_ (fun _ => hrest)
    unfold clearCache
    exact Keeps.seq keepsIO_getSvc (fun s => Keeps.seq keepsIO_stat (fun _ => keepsIO_removeAll hP))

theorem keepsIO_cacheIfEnabled (hP : ClosedFS P) (L : Lib) : Keeps (Inv c S P) anyVal (cacheIfEnabled L) := by
  unfold cacheIfEnabled
  refine Keeps.seq keepsIO_getSvc (fun s => ?_)
  split
  · exact keepsIO_cache hP L
  · exact Keeps.pure trivial

theorem keepsIO_copyMainFiles (hP : ClosedFS P) (wd target : Str) (names : List Str) (pkg : Str) :
    Keeps (Inv c S P) anyVal (copyMainFiles wd target names pkg) := by
  induction names generalizing pkg with
  | nil => exact Keeps.pure trivial
  | cons n names ih =>
    unfold copyMainFiles
    split
    · exact Keeps.seq keepsIO_readFile (fun t => Keeps.seq (keepsIO_writeFile hP) (fun _ => ih pkg))
    · split
      · exact Keeps.seq keepsIO_readFile (fun t => ih _)
      · exact ih pkg

theorem keepsIO_setupTempMainPackage (hP : ClosedFS P) (hS : OnIO S) : Keeps (Inv c S P) anyVal setupTempMainPackage := by
  unfold setupTempMainPackage
  refine Keeps.seq keepsIO_getSvc (fun s => Keeps.seq (Keeps.try' keepsIO_stat) (fun r => ?_))
  have hrest : Keeps (Inv c S P) anyVal (do
      osMkdir (pathJoin [astraDirPath s, mainReplacement])
      let names ← osReadDir s.workDir
      let pkgName ← copyMainFiles s.workDir (pathJoin [astraDirPath s, mainReplacement]) names []
      modifySvc (fun s => { s with tempMain := pathJoin [pkgName, mainReplacementPath] })) :=
    Keeps.seq (keepsIO_mkdir hP) (fun _ => Keeps.seq keepsIO_readDir (fun names => Keeps.seq (keepsIO_copyMainFiles hP _ _ _ _) (fun pkg =>
      keepsIO_modifySvc hS (fun s => ⟨_, _, _, _, _, rfl⟩))))
  cases r with
  | ok n => exact Keeps.seq (keepsIO_removeAll hP) (fun _ => hrest)
  | error e => exact hrest

theorem keepsIO_getMainPackageName (hP : ClosedFS P) (hS : OnIO S) : Keeps (Inv c S P) anyVal getMainPackageName := by
  unfold getMainPackageName
  refine Keeps.seq keepsIO_getSvc (fun s => Keeps.seq (A := anyVal) ?_ (fun _ => Keeps.seq keepsIO_getSvc (fun _ => Keeps.pure trivial)))
  split
  · exact keepsIO_setupTempMainPackage hP hS
  · exact Keeps.pure trivial

theorem keepsIO_ginCreateRoutes (_ : ClosedFS P) (hS : OnIO S) (L : Lib) (r : Option (List RouteInfo)) : Keeps (Inv c S P) anyVal (ginCreateRoutes L r) := by
  unfold ginCreateRoutes
  refine Keeps.seq keepsIO_getSvc (fun s => ?_)
  cases r with
  | none => exact Keeps.panic
  | some infos =>
    refine Keeps.seq (keepsIO_modifySvc hS (fun s => ⟨_, _, _, _, _, rfl⟩)) (fun _ => ?_)
    split
    · exact Keeps.pure trivial
    · exact Keeps.throw _

theorem keepsIO_ginParseLoop (hP : ClosedFS P) (hS : OnIO S) (L : Lib) (n i : Nat) : Keeps (Inv c S P) anyVal (ginParseLoop L n i) := by
  induction n generalizing i with
  | zero => exact Keeps.pure trivial
  | succ n ih =>
    unfold ginParseLoop
    refine Keeps.seq keepsIO_getSvc (fun s => ?_)
    split
    · exact Keeps.pure trivial
    · rename_i route _
      refine Keeps.seq (A := anyVal) ?_ (fun _ => Keeps.seq keepsIO_getSvc (fun s => ?_))
      · split
        · exact Keeps.seq (keepsIO_getMainPackageName hP hS) (fun _ => Keeps.pure trivial)
        · exact Keeps.pure trivial
      · refine Keeps.seq (keepsIO_modifySvc hS (fun s => ⟨_, _, _, _, _, rfl⟩)) (fun _ => ?_)
        split
        · exact Keeps.throw _
        · exact Keeps.panic
        · exact Keeps.seq (keepsIO_modifySvc hS (fun s => ⟨_, _, _, _, _, rfl⟩)) (fun _ => ih _)

theorem keepsIO_getCell (loc : Nat) : Keeps (Inv c S P) anyVal (getCell loc) :=
  Keeps.seq keepsIO_getSvc (fun _ => Keeps.pure trivial)

theorem keepsIO_setCell (hS : OnIO S) (loc : Nat) (v : Str) : Keeps (Inv c S P) anyVal (setCell loc v) :=
  keepsIO_modifySvc hS (fun _ => ⟨_, _, _, _, _, rfl⟩)

theorem keepsIO_jsonGenerate (hP : ClosedFS P) (hS : OnIO S) (loc : Nat) : Keeps (Inv c S P) anyVal (jsonGenerate loc) := by
  unfold jsonGenerate
  exact Keeps.seq keepsIO_getSvc (fun _ => Keeps.seq (keepsIO_getCell _) (fun _ => Keeps.seq (keepsIO_setCell hS _ _) (fun _ => keepsIO_writeFile hP)))

theorem keepsIO_openApiGenerate (hP : ClosedFS P) (hS : OnIO S) (L : Lib) (loc : Nat) : Keeps (Inv c S P) anyVal (openApiGenerate L loc) := by
  unfold openApiGenerate
  refine Keeps.bind (A := anyVal) (Keeps.get (fun _ _ => trivial)) (fun p _ => ?_)
  simp only
  split
  · exact Keeps.throw _
  · exact Keeps.panic
  · refine Keeps.seq (A := anyVal) (Keeps.modify (fun w hw => ⟨hw.1, hS _ _ hw.2.1 ⟨_, _, _, _, _, _, rfl⟩, hw.2.2⟩) trivial) (fun _ => ?_)
    refine Keeps.seq (keepsIO_getCell _) (fun _ => Keeps.seq (keepsIO_setCell hS _ _) (fun _ => ?_))
    split
    · exact Keeps.throw _
    · exact Keeps.seq (keepsIO_setCell hS _ _) (fun _ => keepsIO_writeFile hP)

theorem keepsIO_azureFiles (hP : ClosedFS P) (d : Str) (rs : List Route) : Keeps (Inv c S P) anyVal (azureFiles d rs) := by
  induction rs with
  | nil => exact Keeps.pure trivial
  | cons r rs ih =>
    unfold azureFiles
    exact Keeps.seq (keepsIO_mkdir hP) (fun _ => Keeps.seq (keepsIO_writeFile hP) (fun _ => ih))

theorem keepsIO_azureGenerate (hP : ClosedFS P) (dir : Str) : Keeps (Inv c S P) anyVal (azureGenerate dir) := by
  unfold azureGenerate setupTempOutputDir moveTempOutputDir
  refine Keeps.seq (A := anyVal) (Keeps.seq keepsIO_getSvc (fun _ => Keeps.seq (keepsIO_mkdir hP) (fun _ => Keeps.pure trivial))) (fun t => ?_)
  refine Keeps.seq keepsIO_getSvc (fun _ => Keeps.seq (keepsIO_azureFiles hP _ _) (fun _ => Keeps.seq keepsIO_getSvc (fun s => ?_)))
  refine Keeps.seq (Keeps.try' keepsIO_stat) (fun st => Keeps.seq (A := anyVal) ?_ (fun _ => keepsIO_rename hP))
  split
  · exact Keeps.pure trivial
  · exact keepsIO_removeAll hP

theorem keepsIO_action (hP : ClosedFS P) (hS : OnIO S) {L : Lib} (hL : ∀ id, Keeps (Inv c S P) anyVal (L.custom id)) (a : Action) : Keeps (Inv c S P) anyVal (a.run L) := by
  cases a with
  | ginCreate r => exact keepsIO_ginCreateRoutes hP hS L r
  | ginParse => exact Keeps.seq keepsIO_getSvc (fun s => keepsIO_ginParseLoop hP hS L _ _)
  | openapi loc => exact keepsIO_openApiGenerate hP hS L loc
  | json loc => exact keepsIO_jsonGenerate hP hS loc
  | azure dir => exact keepsIO_azureGenerate hP dir
  | custom id => exact hL id
  | missing => exact Keeps.panic

theorem keepsIO_teardown (hP : ClosedFS P) : Keeps (Inv c S P) anyVal (do
    let s ← getSvc
    let _ ← Run.try_ (if s.cacheEnabled = false ∧ s.cliMode = .none then cleanupAstraDir else cleanupTempMainPackage)
    Pure.pure () : Prg Unit) := by
  refine Keeps.seq keepsIO_getSvc (fun s => Keeps.seq (Keeps.try' (A := anyVal) ?_) (fun _ => Keeps.pure trivial))
  split
  · unfold cleanupAstraDir
    exact Keeps.seq keepsIO_getSvc (fun s => keepsIO_removeAll hP)
  · unfold cleanupTempMainPackage
    refine Keeps.seq keepsIO_getSvc (fun s => Keeps.seq (Keeps.try' keepsIO_stat) (fun r => ?_))
    split
    · exact keepsIO_removeAll hP
    · exact Keeps.pure trivial

/-- Log lines do not matter either. -/
def OnSettings (S : Proc → Prop) : Prop := OnIO S ∧ ∀ p e, S p → S { p with log := p.log ++ [e] }

theorem keepsIO_runAll (hP : ClosedFS P) (hS : OnSettings S) {L : Lib} (hL : ∀ id, Keeps (Inv c S P) anyVal (L.custom id)) (ev : Nat → Event)
    (i : Nat) (as : List Action) : Keeps (Inv c S P) anyVal (runAll L ev i as) := by
  induction as generalizing i with
  | nil => exact Keeps.pure trivial
  | cons a as ih =>
    exact Keeps.seq (keeps_logEvent (fun p hp => hS.2 p _ hp)) (fun _ => Keeps.seq (keepsIO_action hP hS.1 hL a) (fun _ => ih (i + 1)))

theorem keepsIO_stepCreate (hP : ClosedFS P) (hS : OnSettings S) {L : Lib} (hL : ∀ id, Keeps (Inv c S P) anyVal (L.custom id)) :
    Keeps (Inv c S P) anyVal (stepCreate L) :=
  Keeps.seq (keeps_logEvent (fun p hp => hS.2 p _ hp)) (fun _ => Keeps.seq keepsIO_getSvc (fun _ => Keeps.seq (keepsIO_runAll hP hS hL _ _ _)
    (fun _ => keepsIO_cacheIfEnabled hP L)))

theorem keepsIO_stepParse (hP : ClosedFS P) (hS : OnSettings S) {L : Lib} (hL : ∀ id, Keeps (Inv c S P) anyVal (L.custom id)) :
    Keeps (Inv c S P) anyVal (stepParse L) :=
  Keeps.seq (keeps_logEvent (fun p hp => hS.2 p _ hp)) (fun _ => Keeps.seq keepsIO_getSvc (fun _ => Keeps.seq (keepsIO_runAll hP hS hL _ _ _)
    (fun _ => keepsIO_cacheIfEnabled hP L)))

theorem keepsIO_stepClean (hP : ClosedFS P) (hS : OnSettings S) (L : Lib) : Keeps (Inv c S P) anyVal (stepClean L) :=
  Keeps.seq (keeps_logEvent (fun p hp => hS.2 p _ hp)) (fun _ => Keeps.seq (keepsIO_getMainPackageName hP hS.1) (fun _ =>
    Keeps.seq (keepsIO_modifySvc hS.1 (fun _ => ⟨_, _, _, _, _, rfl⟩)) (fun _ => keepsIO_cacheIfEnabled hP L)))

theorem keepsIO_stepGenerate (hP : ClosedFS P) (hS : OnSettings S) {L : Lib} (hL : ∀ id, Keeps (Inv c S P) anyVal (L.custom id)) :
    Keeps (Inv c S P) anyVal (stepGenerate L) :=
  Keeps.seq (keeps_logEvent (fun p hp => hS.2 p _ hp)) (fun _ => Keeps.seq keepsIO_getSvc (fun _ => Keeps.seq (keepsIO_runAll hP hS hL _ _ _)
    (fun _ => keepsIO_cacheIfEnabled hP L)))

end

end Astra
