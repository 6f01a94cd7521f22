/-
Model of the pipeline: parse.go, setup.go, createRoutes.go, parseRoutes.go, clean.go, generate.go, teardown.go, dir.go,
mainPackage.go, cache.go, the generator functions of outputs/json, outputs/openapi and outputs/azureFunctions, and the generate
command of the CLI (cli/astra/cmd/generate.go, rebind.go).
-/
import Verif.Model.FS
import Verif.Model.Codec
import Verif.Model.OpenApiJson
import Verif.Model.Clean
import Verif.Model.Paths

namespace Astra

/-- The log lines that mark the steps: setup.go:10, createRoutes.go:5, 7, parseRoutes.go:6, 8, clean.go:8, generate.go:5, 7,
teardown.go:6. Inputs and outputs are identified by their position. -/
inductive Event where
  | setup | createRoutes | parseRoutes | clean | generate | teardown
  | create (i : Nat) | parse (i : Nat) | output (i : Nat)
  deriving Repr, DecidableEq

/-- The state of a process: the service, the global name table of outputs/openapi/components.go:12 and the log. -/
structure Proc where
  svc : Service := {}
  names : List (Str × Str) := []
  log : List Event := []

/-- What parsing a route may use besides the route and the components. inputs/gin/parseRoute.go:21-31. -/
structure ParseCtx where
  workDir : Str
  mainPkg : Str
  customFuncs : List CustomFunc

/-- The parts that are modelled elsewhere or belong to libraries. The source code under analysis is part of `parse`: it does not
change during a run. The functions that createRoutes.go:6-14, parseRoutes.go:7-15, generate.go:6-14 and cache.go:44, 98 call. -/
structure Lib where
  /-- reading a JSON number into a Go `any` -/
  f64 : Str → Str
  /-- createRoute.go:18-28: `os.Getwd` and `filepath.Rel` -/
  rel : Str → Except Str Str
  /-- parseRoute.go:26-31: does the analysis of the route ask for the main package? -/
  usesMain : Route → Bool
  /-- parseRoute.go:21-161: the analysis of a route, see Model/Handler -/
  parse : ParseCtx → List Field → Route → List Field × Res Route
  /-- the choices of the Go runtime in outputs/openapi/generate.go -/
  choices : Choices
  /-- outputs/openapi/generate.go:306: the text that gopkg.in/yaml.v3 prints for a tree of values -/
  yamlText : Json → Except Str Str
  /-- the text of the service in a YAML cache, and reading it -/
  yamlEnc : Service → Str
  yamlDec : Str → Option CacheData
  /-- functions of the user -/
  custom : Nat → Run Proc Unit

/-- outputs/openapi/generate.go:302-310: the text of the document, as YAML or JSON. -/
def Lib.render (L : Lib) (yaml : Bool) (d : Document) : Except Str Str := if yaml then L.yamlText (encDocument true d) else .ok (docText d)

/-- A step of the pipeline: the functions with a `*Service` receiver of setup.go:9-42 and the like, and io.go:4. -/
abbrev Prg (α : Type) := Run Proc α

/-- Write a log line. As at setup.go:10. -/
def logEvent (e : Event) : Prg Unit := Run.modify (fun p => { p with log := p.log ++ [e] })

/-- The service. The receiver `s` of setup.go:9. -/
def getSvc : Prg Service := do
  let p ← Run.get
  pure p.svc

/-- Change the service. The receiver `s` of setup.go:9. -/
def modifySvc (f : Service → Service) : Prg Unit := Run.modify (fun p => { p with svc := f p.svc })

/-! ### dir.go -/

/-- dir.go:14. -/
def astraDir : Str := c!".astra"

/-- dir.go:17-19 `getAstraDirPath`. -/
def astraDirPath (s : Service) : Str := pathJoin [s.workDir, astraDir]

/-- dir.go:66-83 `setupGitIgnore`. -/
def setupGitIgnore : Prg Unit := do
  let s ← getSvc
  let path := pathJoin [astraDirPath s, c!".gitignore"]
  match ← Run.try_ (osStat path) with
  | .ok _ => pure ()
  | .error _ => do
    osCreate path
    osWrite path c!"*\n"

/-- dir.go:22-32 `setupAstraDir`. -/
def setupAstraDir : Prg Unit := do
  let s ← getSvc
  osMkdirAll (astraDirPath s)
  setupGitIgnore

/-- dir.go:86-92 `cleanupAstraDir`. -/
def cleanupAstraDir : Prg Unit := do
  let s ← getSvc
  osRemoveAll (astraDirPath s)

/-- dir.go:34-43 `SetupTempOutputDir`. -/
def setupTempOutputDir (dirPath : Str) : Prg Str := do
  let s ← getSvc
  let tempDir := pathJoin [astraDirPath s, dirPath]
  osMkdir tempDir
  pure tempDir

/-- Is the error `fs.ErrNotExist`? dir.go:50. -/
def isNotExist : Except Err FNode → Bool
  | .error (.errno .noent) => true
  | _ => false

/-- dir.go:45-63 `MoveTempOutputDir`. -/
def moveTempOutputDir (dirPath outputDir : Str) : Prg Unit := do
  let s ← getSvc
  let source := pathJoin [astraDirPath s, dirPath]
  let destination := pathJoin [s.workDir, outputDir]
  let st ← Run.try_ (osStat destination)
  (if isNotExist st then pure () else osRemoveAll destination)
  osRename source destination

/-! ### cache.go -/

/-- cache.go:17. -/
def cacheFileName : Str := c!"cache.json"

/-- cache.go:23-28, 66-71, 119-124: the cache path. -/
def cachePathOf (s : Service) : Str := if s.cachePath ≠ [] then s.cachePath else pathJoin [astraDirPath s, cacheFileName]

/-- cache.go:43, 98: is the path that of a YAML file? -/
def isYaml (p : Str) : Bool := hasSuffix p c!".yaml" || hasSuffix p c!".yml"

/-- cache.go:116-136 `ClearCache`. -/
def clearCache : Prg Unit := do
  let s ← getSvc
  let _ ← osStat (cachePathOf s)
  osRemoveAll (cachePathOf s)

/-- cache.go:42-50: the text of the cache. yaml.v3 does not know the function fields of inputs and outputs to be excluded (they
have only a json tag), and panics on functions. Simplification: `json.Marshal` does not fail, since the values of the model have
JSON forms. -/
def cacheText (L : Lib) (path : Str) (s : Service) : Option Str :=
  if isYaml path then (if s.inputs = [] ∧ s.outputs.isEmpty then some (L.yamlEnc s) else none) else some (marshal (encService s))

/-- cache.go:20-59 `Cache`. -/
def cache (L : Lib) : Prg Unit := do
  let s ← getSvc
  let path := cachePathOf s
  match ← Run.try_ (osStat path) with
  | .ok _ => clearCache
  | .error _ => pure ()
  osCreate path
  match cacheText L path s with
  | none => Run.panic
  | some text => osWrite path text

/-- cache.go:88-113: what is read from the text of a cache. -/
def decodeCache (L : Lib) (path text : Str) : Except Err CacheData :=
  if hasSuffix path c!".json" then
    match (decodeText text).bind (decService L.f64) with
    | none => .error (.msg c!"invalid JSON")
    | some d => .ok d
  else if isYaml path then
    match L.yamlDec text with
    | none => .error (.msg c!"invalid YAML")
    | some d => .ok d
  else .error (.msg c!"unsupported file format")

/-- cache.go:107-111: the parts that are taken over. -/
def CacheData.into (d : CacheData) (s : Service) : Service :=
  { s with inputs := d.inputs, outputs := d.outputs, config := d.config, routes := d.routes, components := d.components }

/-- cache.go:88-113 `LoadCacheFromCustomPath`. -/
def loadCacheFrom (L : Lib) (path : Str) : Prg Unit := do
  let text ← osReadFile path
  match decodeCache L path text with
  | .error e => Run.throw e
  | .ok d => modifySvc d.into

/-- cache.go:63-83 `LoadCache`. -/
def loadCache (L : Lib) : Prg Unit := do
  let s ← getSvc
  let _ ← osStat (cachePathOf s)
  loadCacheFrom L (cachePathOf s)

/-- The end of createRoutes.go, parseRoutes.go, clean.go, generate.go and setup.go: cache if enabled. -/
def cacheIfEnabled (L : Lib) : Prg Unit := do
  let s ← getSvc
  if s.cacheEnabled then cache L else pure ()

/-! ### mainPackage.go -/

/-- mainPackage.go:13. -/
def mainReplacement : Str := c!"astramain"

/-- mainPackage.go:14. -/
def mainReplacementPath : Str := astraDir ++ '/' :: mainReplacement

/-- mainPackage.go:50: the renamed package clause. -/
def renamePackage (text : Str) : Str := replaceAll text c!"package main" (c!"package " ++ mainReplacement)

/-- mainPackage.go:58: the module path in the first line of a go.mod file. -/
def modulePath (text : Str) : Str := replaceFirst ((split '\n' text).headD []) c!"module " []

/-- mainPackage.go:35-60: the loop over the files of the working directory; returns the module path. -/
def copyMainFiles (workDir target : Str) : List Str → Str → Prg Str
  | [], pkgName => pure pkgName
  | name :: names, pkgName =>
    if hasSuffix name c!".go" then do
      let text ← osReadFile (pathJoin [workDir, name])
      osWriteFile (pathJoin [target, name]) (renamePackage text)
      copyMainFiles workDir target names pkgName
    else if hasSuffix name c!".mod" then do
      let text ← osReadFile (pathJoin [workDir, name])
      copyMainFiles workDir target names (modulePath text)
    else copyMainFiles workDir target names pkgName

/-- mainPackage.go:17-68 `setupTempMainPackage`. -/
def setupTempMainPackage : Prg Unit := do
  let s ← getSvc
  let target := pathJoin [astraDirPath s, mainReplacement]
  match ← Run.try_ (osStat target) with
  | .ok _ => osRemoveAll target
  | .error _ => pure ()
  osMkdir target
  let names ← osReadDir s.workDir
  let pkgName ← copyMainFiles s.workDir target names []
  modifySvc (fun s => { s with tempMain := pathJoin [pkgName, mainReplacementPath] })

/-- mainPackage.go:71-80 `cleanupTempMainPackage`. -/
def cleanupTempMainPackage : Prg Unit := do
  let s ← getSvc
  let target := pathJoin [astraDirPath s, mainReplacement]
  match ← Run.try_ (osStat target) with
  | .ok _ => osRemoveAll target
  | .error _ => pure ()

/-- mainPackage.go:83-91 `GetMainPackageName`. -/
def getMainPackageName : Prg Str := do
  let s ← getSvc
  (if s.tempMain = [] then setupTempMainPackage else pure ())
  let s ← getSvc
  pure s.tempMain

/-! ### Inputs -/

/-- inputs/gin/createRoutes.go:17-47: see Model/Routes; a nil router panics. -/
def ginCreateRoutes (L : Lib) (router : Option (List RouteInfo)) : Prg Unit := do
  let s ← getSvc
  match router with
  | none => Run.panic
  | some infos =>
    let r := createRoutes s.denyList L.rel infos s.routes
    modifySvc (fun s => { s with routes := r.1 })
    match r.2 with
    | none => pure ()
    | some e => Run.throw (.msg e)

/-- inputs/gin/parseRoutes.go:14-25: the loop of `ParseRoutes` from index `i` for `n` more routes. -/
def ginParseLoop (L : Lib) : Nat → Nat → Prg Unit
  | 0, _ => pure ()
  | n + 1, i => do
    let s ← getSvc
    match s.routes[i]? with
    | none => pure ()
    | some route =>
      (if L.usesMain route then do
        let _ ← getMainPackageName
        pure ()
      else pure ())
      let s ← getSvc
      let r := L.parse { workDir := s.workDir, mainPkg := s.tempMain, customFuncs := s.customFuncs } s.components route
      modifySvc (fun s => { s with components := r.1 })
      match r.2 with
      | .err e => Run.throw (.msg e)
      | .panic _ => Run.panic
      | .ok route' => do
        modifySvc (fun s => { s with routes := replaceRoute s.routes route' })
        ginParseLoop L n (i + 1)

/-- inputs/gin/parseRoutes.go:11-30 `ParseRoutes`. -/
def ginParseRoutesM (L : Lib) : Prg Unit := do
  let s ← getSvc
  ginParseLoop L s.routes.length 0

/-! ### Outputs -/

/-- The captured variable of a generator function. outputs/json/generate.go:21, outputs/openapi/generate.go:25. -/
def getCell (loc : Nat) : Prg Str := do
  let s ← getSvc
  pure (s.cells.getD loc [])

/-- Assign the captured variable. outputs/json/generate.go:21, outputs/openapi/generate.go:25. -/
def setCell (loc : Nat) (v : Str) : Prg Unit := modifySvc (fun s => { s with cells := s.cells.set loc v })

/-- outputs/json/generate.go:36-39: the default extension of the JSON output. -/
def jsonExt (p : Str) : Str := if hasSuffix p c!".json" then p else p ++ c!".json"

/-- outputs/openapi/generate.go:297-300: the default extension of the OpenAPI output. -/
def openApiExt (p : Str) : Str :=
  if hasSuffix p c!".json" || hasSuffix p c!".yaml" || hasSuffix p c!".yml" then p else p ++ c!".json"

/-- outputs/json/generate.go:21-52 `Generate`. -/
def jsonGenerate (loc : Nat) : Prg Unit := do
  let s ← getSvc
  let text := marshalIndent (encJsonOutput s.routes s.components)
  let p ← getCell loc
  setCell loc (pathJoin [s.workDir, jsonExt p])
  osWriteFile (pathJoin [s.workDir, jsonExt p]) text

/-- formatTypes.go:129-133: the merged type mapping. -/
def TypeMaps.merged (m : TypeMaps) : List (Str × TypeFormat) :=
  match m.full with
  | some f => f
  | none => mapsCopy (mapsCopy [] predefinedTypeMap) m.custom

/-- outputs/openapi/generate.go:25-327 `Generate`; the document itself is in Model/OpenApi. Simplification: the merged type mapping
is not stored (it is the same when it is built again, unless an option is applied in between). -/
def openApiGenerate (L : Lib) (loc : Nat) : Prg Unit := do
  let p ← Run.get
  let s := p.svc
  match generateDoc L.choices p.names { config := s.config, routes := s.routes, components := s.components, types := s.maps.merged } with
  | .err e => Run.throw (.msg e)
  | .panic _ => Run.panic
  | .ok doc => do
    Run.modify (fun p => { p with
      names := (match makeNames L.choices.groups s.components p.names with | .ok names => names | _ => p.names)
      svc := { p.svc with config := p.svc.config.map (fun c => { c with description := doc.info.description }) } })
    let path ← getCell loc
    setCell loc (openApiExt path)
    match L.render (isYaml (openApiExt path)) doc with
    | .error e => Run.throw (.msg e)
    | .ok text => do
      setCell loc (pathJoin [s.workDir, openApiExt path])
      osWriteFile (pathJoin [s.workDir, openApiExt path]) text

/-- outputs/azureFunctions/generate.go:12. -/
def azureTemp : Str := c!"azure"
/-- outputs/azureFunctions/generate.go:13. -/
def azureFile : Str := c!"function.json"

/-- outputs/azureFunctions/associatedMethods.go:5-7, outputs/azureFunctions/generate.go:15-25, 50-65: the function file of a route. Simplification: methods are ASCII. -/
def azureDocument (r : Route) : Json :=
  .obj (members [⟨false, c!"bindings", .arr [
    .obj (members [⟨false, c!"type", .str c!"httpTrigger"⟩, ⟨false, c!"direction", .str c!"in"⟩, ⟨false, c!"name", .str c!"req"⟩,
      ⟨true, c!"methods", .arr [.str (r.method.map Char.toLower), .str c!"options"]⟩, ⟨true, c!"route", .str (convertRoute r)⟩]),
    .obj (members [⟨false, c!"type", .str c!"http"⟩, ⟨false, c!"direction", .str c!"out"⟩, ⟨false, c!"name", .str c!"res"⟩])]⟩])

/-- outputs/azureFunctions/generate.go:38-39: the name of the function of a route. -/
def azureName (r : Route) : Str := (split '.' r.handler).getLast?.getD []

/-- outputs/azureFunctions/generate.go:37-80: the loop over the routes. -/
def azureFiles (tempDir : Str) : List Route → Prg Unit
  | [] => pure ()
  | r :: rs => do
    let dir := pathJoin [tempDir, azureName r]
    let file := pathJoin [dir, azureFile]
    osMkdir dir
    osWriteFile file (marshalIndent (azureDocument r))
    azureFiles tempDir rs

/-- outputs/azureFunctions/generate.go:27-91 `Generate`. -/
def azureGenerate (directoryPath : Str) : Prg Unit := do
  let tempDir ← setupTempOutputDir azureTemp
  let s ← getSvc
  azureFiles tempDir s.routes
  moveTempOutputDir azureTemp directoryPath

/-! ### The steps -/

/-- io.go:4: run a service function; calling a nil function panics. -/
def Action.run (L : Lib) : Action → Prg Unit
  | .ginCreate router => ginCreateRoutes L router
  | .ginParse => ginParseRoutesM L
  | .openapi loc => openApiGenerate L loc
  | .json loc => jsonGenerate loc
  | .azure dir => azureGenerate dir
  | .custom id => L.custom id
  | .missing => Run.panic

/-- createRoutes.go:6-14, parseRoutes.go:7-15, generate.go:6-14: run the functions in order; `ev` is the log line. -/
def runAll (L : Lib) (ev : Nat → Event) : Nat → List Action → Prg Unit
  | _, [] => pure ()
  | i, a :: as => do
    logEvent (ev i)
    a.run L
    runAll L ev (i + 1) as

/-- setup.go:9-42 `Setup`. -/
def setup (L : Lib) (getwd : Str) : Prg Unit := do
  logEvent .setup
  setupAstraDir
  modifySvc (fun s => if s.workDir = [] then { s with workDir := getwd } else s)
  cacheIfEnabled L

/-- createRoutes.go:4-26 `CreateRoutes`. -/
def stepCreate (L : Lib) : Prg Unit := do
  logEvent .createRoutes
  let s ← getSvc
  runAll L .create 0 (s.inputs.map (·.createRoutes))
  cacheIfEnabled L

/-- parseRoutes.go:5-27 `ParseRoutes`. -/
def stepParse (L : Lib) : Prg Unit := do
  logEvent .parseRoutes
  let s ← getSvc
  runAll L .parse 0 (s.inputs.map (·.parseRoutes))
  cacheIfEnabled L

/-- clean.go:7-45 `Clean`. -/
def stepClean (L : Lib) : Prg Unit := do
  logEvent .clean
  let mainPkg ← getMainPackageName
  modifySvc (fun s => { s with components := s.components.map (cleanField mainPkg), routes := s.routes.map (cleanRoute mainPkg) })
  cacheIfEnabled L

/-- generate.go:4-27 `Generate`. -/
def stepGenerate (L : Lib) : Prg Unit := do
  logEvent .generate
  let s ← getSvc
  runAll L .output 0 (s.outputs.map (·.generate))
  cacheIfEnabled L

/-- teardown.go:5-28 `Teardown`: errors are only logged. -/
def teardown : Prg Unit := do
  logEvent .teardown
  let s ← getSvc
  let _ ← Run.try_ (if s.cacheEnabled = false ∧ s.cliMode = .none then cleanupAstraDir else cleanupTempMainPackage)
  pure ()

/-- parse.go:12-22, 47-57: inputs and outputs must be given. -/
def checkIO : Prg Unit := do
  let s ← getSvc
  if s.inputs = [] then Run.throw (.msg c!"input not set")
  else if s.outputs.isEmpty then Run.throw (.msg c!"output not set") else pure ()

/-- parse.go:9-39 `SetupParse`. -/
def setupParse (L : Lib) (getwd : Str) : Prg Unit := do
  checkIO
  setup L getwd
  stepCreate L

/-- parse.go:44-86 `CompleteParse`. -/
def completeParse (L : Lib) : Prg Unit := do
  checkIO
  stepParse L
  stepClean L
  stepGenerate L
  teardown

/-- parse.go:91-109 `Parse`. -/
def parseAll (L : Lib) (getwd : Str) : Prg Unit := do
  setupParse L getwd
  completeParse L

/-! ### The CLI -/

/-- rebind.go:28-41 `rebindInputs`: on an error the inputs bound so far remain. -/
def rebindInputs : List Input → Service → Service × Option Str
  | [], s => (s, none)
  | i :: is, s => if i.mode = modeGin then rebindInputs is (withGinInput none s) else (s, some c!"input mode not found")

/-- A string in the configuration: absent or of another type is not ok. cli/astra/cmd/rebind.go:46-75. -/
def configStr (c : List (Str × Json)) (k : Str) : Str × Bool :=
  match aget c k with
  | some (.str v) => (v, true)
  | _ => ([], false)

/-- rebind.go:46-75 `rebindOutputs`. -/
def rebindOutputs : List Output → Service → Service × Option Str
  | [], s => (s, none)
  | o :: os, s =>
    if o.mode = modeAzure then
      let v := configStr o.configuration keyDirectoryPath
      if v.2 ∨ v.1 = [] then (s, some c!"output directory path is required") else rebindOutputs os (withAzureOutput v.1 s)
    else if o.mode = modeJson then
      let v := configStr o.configuration keyFilePath
      if ¬ v.2 ∨ v.1 = [] then (s, some c!"output file path is required") else rebindOutputs os (withJsonOutput v.1 s)
    else if o.mode = modeOpenApi then
      let v := configStr o.configuration keyFilePath
      if ¬ v.2 ∨ v.1 = [] then (s, some c!"output file path is required") else rebindOutputs os (withOpenApiOutput v.1 s)
    else (s, some c!"output mode not found")

/-- rebind.go:12-24 `rebindOptions`. -/
def rebindOptions (s : Service) : Service × Option Str :=
  match rebindInputs s.inputs { s with inputs := [] } with
  | (s, some e) => (s, some e)
  | (s, none) => rebindOutputs s.outputs { s with outputs := [] }

/-- cli/astra/cmd/generate.go:27-60: the generate command; `getwd` is the working directory of the command, `cacheFile` and `dir` its
flags. -/
def cliGenerate (L : Lib) (getwd cacheFile dir : Str) : Prg Unit := do
  let wd := if isAbs dir then dir else pathJoin [getwd, dir]
  Run.modify (fun _ => { svc := newService [.cliBuilder, .workDir wd] })
  loadCacheFrom L cacheFile
  let s ← getSvc
  let r := rebindOptions s
  modifySvc (fun _ => r.1)
  match r.2 with
  | some e => Run.throw (.msg e)
  | none => completeParse L

end Astra
