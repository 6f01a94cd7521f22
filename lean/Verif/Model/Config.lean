/-
Model of config.go and configBuilder.go.
-/
import Verif.Types

namespace Astra

/-- config.go:31-44 `Validate`: it updates the config in place (host default before the port check) and may fail. -/
def Config.validate (c : Config) : Config × Option Str :=
  let c := if c.host = [] then { c with host := c!"localhost" } else c
  if c.port = 0 then (c, some c!"config port is required")
  else (if c.basePath = [] then { c with basePath := c!"/" } else c, none)

/-- configBuilder.go:17-60: the setters. -/
inductive Setter where
  | title (s : Str) | description (s : Str) | version (s : Str) | contact (c : Contact) | license (l : License)
  | secure (b : Bool) | host (s : Str) | basePath (s : Str) | port (n : Int)
  deriving Repr, DecidableEq

/-- configBuilder.go:17-60: the effect of a setter. -/
def Setter.apply (c : Config) : Setter → Config
  | .title s => { c with title := s }
  | .description s => { c with description := s }
  | .version s => { c with version := s }
  | .contact x => { c with contact := x }
  | .license x => { c with license := x }
  | .secure b => { c with secure := b }
  | .host s => { c with host := s }
  | .basePath s => { c with basePath := s }
  | .port n => { c with port := n }

/-- configBuilder.go:62-67 `Build`: the builder's config after validation, and the result. -/
def buildConfig (c : Config) : Config × Except Str Config :=
  match c.validate with
  | (c', some e) => (c', .error e)
  | (c', none) => (c', .ok c')

/-- A chain of setter calls on a new builder (configBuilder.go:11-15) followed by `Build`. -/
def runBuilder (setters : List Setter) : Except Str Config := (buildConfig (setters.foldl Setter.apply {})).2

end Astra
