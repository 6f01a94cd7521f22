/-
Specification vocabulary for C114: the media types that gin answers with, and what an operation tells of them.
-/
import Verif.Spec.Headers
import Verif.Spec.BoundQuery

namespace Astra.Spec

/-- gin (v1.10.0, context.go and the files of render): the methods of the context that write a body of a format of their own, and the media
type of the answer without its charset. (Up to v1.9 gin sent YAML as `application/x-yaml`.) Methods whose media type is an argument or depends
on a file (`Data`, `DataFromReader`, `File`, `Negotiate`, `Redirect`, …) are not listed. -/
def ginAnswers : List (Str × Str) :=
  [(c!"JSON", c!"application/json"), (c!"AbortWithStatusJSON", c!"application/json"), (c!"IndentedJSON", c!"application/json"),
   (c!"PureJSON", c!"application/json"), (c!"SecureJSON", c!"application/json"), (c!"AsciiJSON", c!"application/json"),
   (c!"JSONP", c!"application/javascript"), (c!"XML", c!"application/xml"), (c!"YAML", c!"application/yaml"),
   (c!"TOML", c!"application/toml"), (c!"ProtoBuf", c!"application/x-protobuf"), (c!"String", c!"text/plain"), (c!"HTML", c!"text/html")]

/-- The methods that set a status code and write no body. -/
def bodilessAnswers : List Str := [c!"Status", c!"AbortWithStatus", c!"AbortWithError"]

/-- Of the methods of gin that answer, those that astra knows. -/
def knownAnswers : List Str := [c!"JSON", c!"AbortWithStatusJSON", c!"XML", c!"YAML", c!"ProtoBuf", c!"String"] ++ bodilessAnswers

/-- The operation tells that the status code can come with a body of this media type. -/
def TellsMedia (op : Operation) (code : Int) (media : Str) : Prop :=
  ∃ resp S, mget op.responses (itoa code) = some resp ∧ mget resp.content media = some S

/-- One of the calls is of the method `m` and has this status code. `C` are the calls: package of the file, method and arguments. -/
def AnswersBy (C : Str → Str → List ArgView → Prop) (m : Str) (code : Int) : Prop := ∃ pkg args, C pkg m args ∧ IsStatus args 0 code

end Astra.Spec
