/-
Model of service.go, new.go, options.go, io.go, input.go, output.go, logger.go, cache/cache.go, cli/cli.go, inputs/inputs.go,
outputs/outputs.go and the option functions of listing.go, config.go, formatTypes.go and contextFuncBuilder.go: the service value and
its options.
-/
import Verif.Model.Json
import Verif.Model.Config
import Verif.Model.TypeMapping
import Verif.Model.Routes
import Verif.Model.Handler

namespace Astra

/-- io.go:4 `ServiceFunction`: the functions that inputs and outputs carry. `loc` is the location of the captured variable
`filePath` (outputs/json/generate.go:21, outputs/openapi/generate.go:25): the function writes to it. `ginCreate none` is the nil
router of rebind.go:34. `missing` is the nil function of an input or output read from the cache. `custom` are functions of the user. -/
inductive Action where
  | ginCreate (router : Option (List RouteInfo))
  | ginParse
  | openapi (loc : Nat)
  | json (loc : Nat)
  | azure (directoryPath : Str)
  | custom (id : Nat)
  | missing
  deriving Repr, DecidableEq

/-- input.go:4-8 `Input`. -/
structure Input where
  mode : Str
  createRoutes : Action := .missing
  parseRoutes : Action := .missing
  deriving Repr, DecidableEq

/-- output.go:5-9 `Output`. The values of the configuration map have type `any`. -/
structure Output where
  mode : Str
  generate : Action := .missing
  configuration : List (Str × Json) := []
  deriving Repr

/-- service.go:11-17: `CLIMode`. -/
inductive CLIMode where
  | none | setup | builder
  deriving Repr, DecidableEq

/-- zerolog's levels as chosen by logger.go:15-38. -/
inductive LogLevel where
  | trace | debug | info | warn | error | fatal | panic
  deriving Repr, DecidableEq

/-- The logger: which logger it is (0 is the default) and its level. logger.go:7-38. -/
structure Logger where
  id : Nat := 0
  level : LogLevel := .info
  deriving Repr, DecidableEq

/-- service.go:20-47 `Service`. `cells` are the captured variables of the generator functions. -/
structure Service where
  inputs : List Input := []
  outputs : List Output := []
  log : Logger := {}
  config : Option Config := none
  routes : List Route := []
  components : List Field := []
  tempMain : Str := []
  workDir : Str := []
  cacheEnabled : Bool := false
  cachePath : Str := []
  cliMode : CLIMode := .none
  denyList : List (Str → Bool) := []
  customFuncs : List CustomFunc := []
  maps : TypeMaps := {}
  cells : List Str := []

/-- inputs/inputs.go:10: the input mode. -/
def modeGin : Str := c!"gin"
/-- outputs/outputs.go:11. -/
def modeAzure : Str := c!"azureFunctions"
/-- outputs/outputs.go:12. -/
def modeJson : Str := c!"json"
/-- outputs/outputs.go:13. -/
def modeOpenApi : Str := c!"openapi"

/-- io.go:13. -/
def keyFilePath : Str := c!"filePath"
/-- io.go:14. -/
def keyDirectoryPath : Str := c!"directoryPath"

/-- The options of the packages astra, inputs, outputs, cache and cli. inputs/inputs.go:27-33, outputs/outputs.go:27-61,
cache/cache.go:6-18, cli/cli.go:7-20, logger.go:7-38, options.go:4-8, listing.go:5-25, config.go:53-57, formatTypes.go:110-126,
contextFuncBuilder.go:83-87. -/
inductive Opt where
  | ginInput (router : Option (List RouteInfo))
  | azureOutput (directoryPath : Str)
  | openApiOutput (filePath : Str)
  | jsonOutput (filePath : Str)
  | customLogger (l : Logger)
  | customLogLevel (level : Str)
  | config (c : Option Config)
  | workDir (wd : Str)
  | cache
  | cachePath (p : Str)
  | cli
  | cliBuilder
  | deny (d : DenyOption)
  | customFunc (f : CustomFunc)
  | typeMapping (entries : List (Str × TypeFormat))

/-- logger.go:18-37: the level of a level name; unknown names mean `info`. -/
def logLevelOf (level : Str) : LogLevel :=
  if level = c!"trace" then .trace else if level = c!"debug" then .debug else if level = c!"info" then .info
  else if level = c!"warn" then .warn else if level = c!"error" then .error else if level = c!"fatal" then .fatal
  else if level = c!"panic" then .panic else .info

/-- inputs/inputs.go:13-33: `WithGinInput`. -/
def withGinInput (router : Option (List RouteInfo)) (s : Service) : Service :=
  { s with inputs := s.inputs ++ [{ mode := modeGin, createRoutes := .ginCreate router, parseRoutes := .ginParse }] }

/-- outputs/outputs.go:16-35: `WithAzureFunctionsOutput`. -/
def withAzureOutput (dir : Str) (s : Service) : Service :=
  { s with outputs := s.outputs ++ [{ mode := modeAzure, generate := .azure dir, configuration := [(keyDirectoryPath, .str dir)] }] }

/-- outputs/outputs.go:37-48 `WithOpenAPIOutput`. Simplification: each option value is applied once, so the captured variable is
allocated when the option is applied. -/
def withOpenApiOutput (filePath : Str) (s : Service) : Service :=
  { s with
    outputs := s.outputs ++ [{ mode := modeOpenApi, generate := .openapi s.cells.length, configuration := [(keyFilePath, .str filePath)] }]
    cells := s.cells ++ [filePath] }

/-- outputs/outputs.go:50-61 `WithJSONOutput`. -/
def withJsonOutput (filePath : Str) (s : Service) : Service :=
  { s with
    outputs := s.outputs ++ [{ mode := modeJson, generate := .json s.cells.length, configuration := [(keyFilePath, .str filePath)] }]
    cells := s.cells ++ [filePath] }

/-- The effect of an option: logger.go:7-38, options.go:4-8, cache/cache.go:6-18, cli/cli.go:7-20, listing.go:5-25,
config.go:47-57, formatTypes.go:110-126, contextFuncBuilder.go:83-87, inputs/inputs.go:27-33, outputs/outputs.go:27-61. -/
def Opt.apply : Opt → Service → Service
  | .ginInput r, s => withGinInput r s
  | .azureOutput d, s => withAzureOutput d s
  | .openApiOutput f, s => withOpenApiOutput f s
  | .jsonOutput f, s => withJsonOutput f s
  | .customLogger l, s => { s with log := l }
  | .customLogLevel l, s => { s with log := { s.log with level := logLevelOf l } }
  | .config c, s => { s with config := c }
  | .workDir w, s => { s with workDir := w }
  | .cache, s => { s with cacheEnabled := true }
  | .cachePath p, s => { s with cacheEnabled := true, cachePath := p }
  | .cli, s => { s with cacheEnabled := true, cliMode := .setup }
  | .cliBuilder, s => { s with cliMode := .builder }
  | .deny d, s => { s with denyList := s.denyList ++ [d.pred] }
  | .customFunc f, s => { s with customFuncs := s.customFuncs ++ [f] }
  | .typeMapping es, s => { s with maps := s.maps.addCustom es }

/-- new.go:14-32 `New`. -/
def newService (opts : List Opt) : Service := opts.foldl (fun s o => o.apply s) {}

end Astra
