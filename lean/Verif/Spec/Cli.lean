/-
Specification vocabulary for the comparison of a run in one process with a run in two processes.
-/
import Verif.Spec.Options
import Verif.Spec.OutputFile

namespace Astra.Spec

/-- The options that a cache file and the command line carry over to the second process. -/
def Portable : Opt → Prop
  | .openApiOutput f => f ≠ []
  | .jsonOutput f => f ≠ []
  | .azureOutput _ => False
  | .cli => False
  | .cliBuilder => False
  | .customFunc _ => False
  | .typeMapping _ => False
  | _ => True

/-- The file that an output option asks for, relative to the working directory. -/
def requestedFile : Opt → Option Str
  | .openApiOutput f => some (withExtension [c!".json", c!".yaml", c!".yml"] f)
  | .jsonOutput f => some (withExtension [c!".json"] f)
  | _ => none

/-- The working directory that the options give. -/
def requestedDir (opts : List Opt) : Str := lastValue saysWorkDir [] opts

/-- The cache path that the options give. -/
def requestedCache (opts : List Opt) : Str := lastValue saysCachePath [] opts

/-- The place `a` at which the options put the cache of a project in `d`: the path given, from the current directory, which is to have the extension
.json; without a path, .astra/cache.json in the project. -/
def CachedAt (cwd d : FPath) (opts : List Opt) (a : FPath) : Prop :=
  (requestedCache opts = [] → a = d ++ [c!".astra", c!"cache.json"]) ∧
  (requestedCache opts ≠ [] → resolve cwd (requestedCache opts) = some a ∧ c!".json" <:+ requestedCache opts)

end Astra.Spec
