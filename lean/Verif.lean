import Verif.Basic
import Verif.Lemmas.Basic
import Verif.Types
import Verif.Model.Paths
import Verif.Model.Routes
import Verif.Spec.Paths
import Verif.Lemmas.Paths
import Verif.Props.Paths
import Verif.Props.Azure
import Verif.Props.HandlerPath
import Verif.Props.Routes
import Verif.Model.SafePushing
import Verif.Model.BindingTags
import Verif.Model.Tags
import Verif.Model.Config
import Verif.Model.TypeMapping
import Verif.Model.Clean
import Verif.Model.Result
import Verif.Props.SafePushing
import Verif.Props.BindingTags
import Verif.Props.Tags
import Verif.Props.Config
import Verif.Props.TypeMapping
import Verif.Props.Clean
import Verif.Props.Result
import Verif.Model.TypeTraversal
import Verif.Lemmas.TypeTraversal
import Verif.Spec.Types
import Verif.Props.Types
import Verif.Props.Components
import Verif.Props.Enums
import Verif.Model.ContextFunc
import Verif.Model.Handler
import Verif.Spec.Handler
import Verif.Lemmas.Handler
import Verif.Props.ContextFunc
import Verif.Props.RouteAnalysis
import Verif.Model.OpenApiNames
import Verif.Model.Schema
import Verif.Model.OpenApi
import Verif.Spec.OpenApi
import Verif.Spec.Schema
import Verif.Lemmas.OpenApiNames
import Verif.Lemmas.OpenApi
import Verif.Lemmas.Schema
import Verif.Props.OpenApiNames
import Verif.Props.OpenApi
import Verif.Props.Schema
import Verif.Lemmas.Refs
import Verif.Props.Refs
import Verif.Spec.Shape
import Verif.Props.SchemaShape
import Verif.Model.Json
import Verif.Model.Service
import Verif.Model.Codec
import Verif.Model.GoPath
import Verif.Model.FS
import Verif.Model.Pipeline
import Verif.Spec.Json
import Verif.Spec.Cache
import Verif.Lemmas.Json
import Verif.Lemmas.Codec
import Verif.Lemmas.GoPath
import Verif.Lemmas.FS
import Verif.Lemmas.Exec
import Verif.Lemmas.Keeps
import Verif.Lemmas.GoPathClean
import Verif.Spec.Options
import Verif.Spec.Rebind
import Verif.Spec.OutputFile
import Verif.Props.Options
import Verif.Props.Rebind
import Verif.Props.OutputFile
import Verif.Props.Cache
import Verif.Lemmas.Steps
import Verif.Lemmas.Tree
import Verif.Spec.Steps
import Verif.Spec.Dirs
import Verif.Spec.MainPackage
import Verif.Props.Steps
import Verif.Props.Dirs
import Verif.Props.MainPackage
import Verif.Model.PackageManager
import Verif.Spec.PackageTree
import Verif.Lemmas.PackageTree
import Verif.Props.PackageTree
import Verif.Props.PackageLoad
import Verif.Props.PackageNodes
import Verif.Spec.AzureOutput
import Verif.Props.AzureOutput
import Verif.Spec.Cli
import Verif.Lemmas.Sim
import Verif.Props.Cli
import Verif.Model.Expr
import Verif.Spec.Expr
import Verif.Lemmas.Expr
import Verif.Props.Expr
import Verif.Props.ExprTypes
import Verif.Spec.Footprint
import Verif.Props.Footprint
import Verif.Spec.EndToEnd
import Verif.Props.EndToEnd
import Verif.Spec.Recovery
import Verif.Props.Orderly
import Verif.Props.Success
import Verif.Props.Recovery
import Verif.Model.OpenApiJson
import Verif.Spec.OpenApiFile
import Verif.Props.OpenApiFile
import Verif.Spec.OpenApiForms
import Verif.Props.OpenApiForms
import Verif.Spec.Reproducible
import Verif.Props.Reproducible
import Verif.Spec.Standard
import Verif.Props.Standard
import Verif.Spec.HandlerDoc
import Verif.Props.HandlerDoc
import Verif.Props.PathsExact
import Verif.Spec.Routers
import Verif.Spec.Tags
import Verif.Props.Routers
import Verif.Spec.Again
import Verif.Props.Again
import Verif.Props.Custom
import Verif.Spec.Enums
import Verif.Spec.JsonDoc
import Verif.Props.JsonDoc
import Verif.Props.TypesDoc
import Verif.Props.StructEntries
import Verif.Props.StructDoc
import Verif.Props.DocEntries
import Verif.Props.TypeOrigins
import Verif.Lemmas.HandlerInv
import Verif.Spec.Sent
import Verif.Props.RunTypes
import Verif.Props.Sent
import Verif.Props.SentRun
import Verif.Props.SentDemo
import Verif.Props.SentWitness
import Verif.Props.JsonText
import Verif.Props.CacheRead
import Verif.Props.ExprExact
import Verif.Props.MainPackageFaults
import Verif.Spec.Text
import Verif.Props.Text
import Verif.Props.AzureExact
import Verif.Props.BoundParams
import Verif.Props.RoutesExact
import Verif.Props.SharedRoutes
import Verif.Props.MappingRun
import Verif.Props.MappingDemo
import Verif.Props.HelperCycles
import Verif.Props.Unexported
import Verif.Props.Lookalike
import Verif.Spec.Naming
import Verif.Props.NamesExact
import Verif.Spec.Literals
import Verif.Props.Literals
import Verif.Props.SuccessNeeds
import Verif.Spec.Comments
import Verif.Lemmas.Silent
import Verif.Props.Comments
import Verif.Props.CommentsDemo
import Verif.Spec.Required
import Verif.Lemmas.Harmless
import Verif.Lemmas.RouteInvariant
import Verif.Props.Required
import Verif.Props.RequiredDemo
import Verif.Spec.CacheKeys
import Verif.Props.CacheKeys
import Verif.Spec.Address
import Verif.Props.Address
import Verif.Props.AddressDemo
import Verif.Spec.Query
import Verif.Props.Query
import Verif.Props.QueryDemo
import Verif.Spec.Source
import Verif.Props.Source
import Verif.Props.SourceDemo
import Verif.Props.Recorded
import Verif.Props.RecordedTrees
import Verif.Spec.Kinds
import Verif.Props.Kinds
import Verif.Model.RelPath
import Verif.Props.RelPath
import Verif.Spec.Instances
import Verif.Props.Instances
import Verif.Spec.OtherHandlers
import Verif.Props.OtherHandlers
import Verif.Spec.LineHandlers
import Verif.Props.LineHandlers
import Verif.Props.RecordedTests
import Verif.Spec.Forms
import Verif.Props.Forms
import Verif.Props.FormsDemo
import Verif.Spec.Headers
import Verif.Props.Headers
import Verif.Props.HeadersDemo
import Verif.Spec.PathParams
import Verif.Props.PathParams
import Verif.Props.PathParamsDemo
import Verif.Spec.BoundQuery
import Verif.Props.BoundQuery
import Verif.Props.BoundQueryDemo
import Verif.Spec.BodyNames
import Verif.Props.BodyNames
import Verif.Props.BodyNamesDemo
import Verif.Props.MissedBodies
import Verif.Props.MissedBodiesDemo
import Verif.Spec.AzureRequests
import Verif.Props.AzureRequests
import Verif.Props.AzureRun
import Verif.Props.AzureRunDemo
import Verif.Spec.MediaTypes
import Verif.Props.MediaTypes
import Verif.Props.MediaTypesDemo
import Verif.Spec.MixedAnswers
import Verif.Props.MixedAnswers
import Verif.Props.MixedAnswersDemo
import Verif.Props.WhichAnswer
