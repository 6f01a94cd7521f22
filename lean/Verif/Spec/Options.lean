/-
Specification vocabulary for options: the settings an option concerns and the value the last relevant option gives.
-/
import Verif.Model.Service

namespace Astra.Spec

/-- The settings of a service. -/
inductive Setting where
  | inputs | outputs | logger | config | workDir | cacheEnabled | cachePath | cliMode | denyList | customFuncs | typeMapping
  deriving DecidableEq

/-- The settings that an option concerns. -/
def settings : Opt → List Setting
  | .ginInput _ => [.inputs]
  | .azureOutput _ => [.outputs]
  | .openApiOutput _ => [.outputs]
  | .jsonOutput _ => [.outputs]
  | .customLogger _ => [.logger]
  | .customLogLevel _ => [.logger]
  | .config _ => [.config]
  | .workDir _ => [.workDir]
  | .cache => [.cacheEnabled]
  | .cachePath _ => [.cacheEnabled, .cachePath]
  | .cli => [.cacheEnabled, .cliMode]
  | .cliBuilder => [.cliMode]
  | .deny _ => [.denyList]
  | .customFunc _ => [.customFuncs]
  | .typeMapping _ => [.typeMapping]

/-- The value that the last option with a value gives, otherwise the default. -/
def lastValue {α β : Type} (f : α → Option β) (default : β) (l : List α) : β := (l.reverse.findSome? f).getD default

/-- What an option says about the settings that hold one value. -/
def saysConfig : Opt → Option (Option Config)
  | .config c => some c
  | _ => none
def saysWorkDir : Opt → Option Str
  | .workDir w => some w
  | _ => none
def saysCachePath : Opt → Option Str
  | .cachePath p => some p
  | _ => none
def saysCLIMode : Opt → Option CLIMode
  | .cli => some .setup
  | .cliBuilder => some .builder
  | _ => none
def saysLogger : Opt → Option Nat
  | .customLogger l => some l.id
  | _ => none
/-- The names of the levels. -/
def levelNames : List (Str × LogLevel) :=
  [(c!"trace", .trace), (c!"debug", .debug), (c!"info", .info), (c!"warn", .warn), (c!"error", .error), (c!"fatal", .fatal), (c!"panic", .panic)]
/-- A level asked for by name; a name that is not known means `info`. -/
def saysLevel : Opt → Option LogLevel
  | .customLogger l => some l.level
  | .customLogLevel n => some ((levelNames.lookup n).getD .info)
  | _ => none
/-- Caching is on as soon as one option asks for it. -/
def asksCache : Opt → Bool
  | .cache => true
  | .cachePath _ => true
  | .cli => true
  | _ => false

/-- What an option adds to the settings that hold lists. -/
def addsInput : Opt → Option (Str × Option (List RouteInfo))
  | .ginInput r => some (c!"gin", r)
  | _ => none
def addsOutput : Opt → Option (Str × Str × Str)
  | .azureOutput d => some (c!"azureFunctions", c!"directoryPath", d)
  | .openApiOutput f => some (c!"openapi", c!"filePath", f)
  | .jsonOutput f => some (c!"json", c!"filePath", f)
  | _ => none
def addsDeny : Opt → Option (Str → Bool)
  | .deny d => some d.pred
  | _ => none
def addsFunc : Opt → Option CustomFunc
  | .customFunc f => some f
  | _ => none
def addsTypes : Opt → List (Str × TypeFormat)
  | .typeMapping es => es
  | _ => []

/-- The path that the generator function of an output uses. -/
def generatorPath (cells : List Str) : Action → Option Str
  | .azure d => some d
  | .openapi loc => cells[loc]?
  | .json loc => cells[loc]?
  | _ => none

end Astra.Spec
