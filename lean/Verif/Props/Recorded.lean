/-
The model against an output that the project has recorded: the program in examples/with-swagger-ui and the file
examples/with-swagger-ui/swaggerui/swagger.json that the real astra wrote for it. These are tests of the model, not properties: they show that
the definitions the theorems are about produce, character for character, what the code produced.

Given are the text of the program as the Go parser and type checker see it: the calls of the handlers, the objects of their names and the
types. Everything else is computed.
-/
import Verif.Props.SourceDemo

namespace Astra.Props
open Astra.Spec

def joinLines (ls : List Str) : Str := (c!"\n").intercalate ls

/-! ### The types of the program (examples/with-swagger-ui/types) -/

def postType (postsPkg : Str) : GoType := .named (some postsPkg) c!"Post" []
def postDtoType (postsPkg : Str) : GoType := .named (some postsPkg) c!"PostDTO" []
def ginH : GoType := .named (some c!"github.com/gin-gonic/gin") c!"H" []
def goInt : GoType := .basic .int c!"int"
def goString : GoType := .basic .string c!"string"

def jsonField (name key : Str) (t : GoType) : StructField × GoType := ({ name := name, tag := jsonOnly key }, t)

/-- The comment of `time.Time` in the standard library. -/
def timeDoc : Str := joinLines [
   c!"A Time represents an instant in time with nanosecond precision.",
   c!"",
   c!"Programs using times should typically store and pass them as values,",
   c!"not pointers. That is, time variables and struct fields should be of",
   c!"type time.Time, not *time.Time.",
   c!"",
   c!"A Time value can be used by multiple goroutines simultaneously except",
   c!"that the methods GobDecode, UnmarshalBinary, UnmarshalJSON and",
   c!"UnmarshalText are not concurrency-safe.",
   c!"",
   c!"Time instants can be compared using the Before, After, and Equal methods.",
   c!"The Sub method subtracts two instants, producing a Duration.",
   c!"The Add method adds a Time and a Duration, producing a Time.",
   c!"",
   c!"The zero value of type Time is January 1, year 1, 00:00:00.000000000 UTC.",
   c!"As this time is unlikely to come up in practice, the IsZero method gives",
   c!"a simple way of detecting a time that has not been initialized explicitly.",
   c!"",
   c!"Each Time has associated with it a Location, consulted when computing the",
   c!"presentation form of the time, such as in the Format, Hour, and Year methods.",
   c!"The methods Local, UTC, and In return a Time with a specific location.",
   c!"Changing the location in this way changes only the presentation; it does not",
   c!"change the instant in time being denoted and therefore does not affect the",
   c!"computations described in earlier paragraphs.",
   c!"",
   c!"Representations of a Time value saved by the GobEncode, MarshalBinary,",
   c!"MarshalJSON, and MarshalText methods store the Time.Location's offset, but not",
   c!"the location name. They therefore lose information about Daylight Saving Time.",
   c!"",
   c!"In addition to the required “wall clock” reading, a Time may contain an optional",
   c!"reading of the current process's monotonic clock, to provide additional precision",
   c!"for comparison or subtraction.",
   c!"See the “Monotonic Clocks” section in the package documentation for details.",
   c!"",
   c!"Note that the Go == operator compares not just the time instant but also the",
   c!"Location and the monotonic clock reading. Therefore, Time values should not",
   c!"be used as map or database keys without first guaranteeing that the",
   c!"identical Location has been set for all values, which can be achieved",
   c!"through use of the UTC or Local method, and that the monotonic clock reading",
   c!"has been stripped by setting t = t.Round(0). In general, prefer t.Equal(u)",
   c!"to t == u, since t.Equal uses the most accurate comparison available and",
   c!"correctly handles the case when only one of its arguments has a monotonic",
   c!"clock reading.",
   c!""]

def postsTypes (postsPkg : Str) : TypeEnv where
  loadable := fun p => p = postsPkg ∨ p = c!"time" ∨ p = c!"github.com/gin-gonic/gin" ∨ p = c!"main"
  underlying := fun _ n _ =>
    if n = c!"Author" then .struct [jsonField c!"ID" c!"id" goInt, jsonField c!"FirstName" c!"first_name" goString,
      jsonField c!"LastName" c!"last_name" goString]
    else if n = c!"Comment" then .struct [jsonField c!"ID" c!"id" goInt, jsonField c!"Body" c!"body" goString,
      jsonField c!"Author" c!"author" (.named (some postsPkg) c!"Author" [])]
    else if n = c!"Post" then .struct [jsonField c!"ID" c!"id" goInt, jsonField c!"Name" c!"name" goString, jsonField c!"Body" c!"body" goString,
      jsonField c!"PublishedAt" c!"published_at" (.named (some c!"time") c!"Time" []),
      jsonField c!"Author" c!"author" (.named (some postsPkg) c!"Author" []),
      jsonField c!"Comments" c!"comments" (.slice (.named (some postsPkg) c!"Comment" []))]
    else if n = c!"PostDTO" then .struct [jsonField c!"Name" c!"name" goString, jsonField c!"Body" c!"body" goString,
      jsonField c!"AuthorID" c!"author_id" goInt]
    else if n = c!"Time" then .struct [({ name := c!"wall", exported := false }, .basic .uint c!"uint64"),
      ({ name := c!"ext", exported := false }, .basic .sizedInt c!"int64"),
      ({ name := c!"loc", exported := false }, .pointer (.named (some c!"time") c!"Location" []))]
    else if n = c!"H" then .map goString .interface else .other
  files := fun p =>
    if p = c!"time" then [[.type (some timeDoc) [{ name := c!"Time" }]]]
    else if p = c!"github.com/gin-gonic/gin" then [[.type (some c!"H is a shortcut for map[string]any\n") [{ name := c!"H" }]]]
    else if p = postsPkg then [[.type none [{ name := c!"Author" }]], [.type none [{ name := c!"Comment" }]],
      [.type none [{ name := c!"Post" }], .type none [{ name := c!"PostDTO" }]]]
    else []
  nodeAt := fun _ _ => .other
  parseFloat := fun _ => none

/-! ### The handlers (examples/with-swagger-ui/*.go) -/

def mainId (pos : Nat) : NodeId := ⟨c!"main", pos⟩

def postsObjects (postsPkg : Str) : List (Nat × Obj) :=
  [(1, ginMethod c!"JSON"), (2, ginMethod c!"String"), (3, ginMethod c!"Param"), (4, ginMethod c!"ShouldBindJSON"), (5, ginMethod c!"Status"),
   (6, { kind := .const (.int 200), name := c!"StatusOK", type := .basic .other c!"untyped int", pkg := some c!"net/http" }),
   (7, { kind := .const (.int 400), name := c!"StatusBadRequest", type := .basic .other c!"untyped int", pkg := some c!"net/http" }),
   (8, { kind := .builtin, name := c!"make" }), (9, { kind := .builtin, name := c!"append" }),
   (10, { kind := .func { results := [.named (some c!"time") c!"Time" []] }, name := c!"Now", pkg := some c!"time" }),
   (11, { kind := .func { results := [goInt, .named none c!"error" []] }, name := c!"Atoi", pkg := some c!"strconv" }),
   (12, { kind := .var, name := c!"posts", type := .slice (postType postsPkg), pkg := some c!"main" }),
   (13, { kind := .var, name := c!"post", type := postType postsPkg, pkg := some c!"main" }),
   (14, { kind := .var, name := c!"postDTO", type := postDtoType postsPkg, pkg := some c!"main" }),
   (15, { kind := .var, name := c!"postId", type := goString, pkg := some c!"main" }),
   (16, { kind := .typeName, name := c!"Post", type := postType postsPkg, pkg := some postsPkg }),
   (17, { kind := .typeName, name := c!"H", type := ginH, pkg := some c!"github.com/gin-gonic/gin" })]

def statusDefs : PkgInfo := { defs := [
  (c!"StatusOK", some { kind := .const (.int 200), name := c!"StatusOK", pkg := some c!"net/http", pos := 7 }),
  (c!"StatusBadRequest", some { kind := .const (.int 400), name := c!"StatusBadRequest", pkg := some c!"net/http", pos := 8 })] }

def postsText (postsPkg : Str) : ExprEnv :=
  { load := fun p => if p = c!"main" then .ok { objectOf := aget (postsObjects postsPkg) } else if p = c!"net/http" then .ok statusDefs
      else if p = c!"time" ∨ p = c!"strconv" ∨ p = postsPkg ∨ p = c!"github.com/gin-gonic/gin" then .ok {} else .error c!"not found"
    pkgOf := fun _ => c!"main"
    imports := fun _ n => if n = c!"http" then some c!"net/http" else if n = c!"time" then some c!"time" else if n = c!"types" then some postsPkg
      else if n = c!"gin" then some c!"github.com/gin-gonic/gin" else if n = c!"strconv" then some c!"strconv" else none }

/-- `c.m(args)` -/
def ctxCall (pos : Nat) (m : Str) (args : List GoExpr) : GoExpr × List GoExpr := (.selector (.ident (mainId 0) c!"c") (mainId pos) m, args)
def okStatus : GoExpr := .selector (.ident (mainId 0) c!"http") (mainId 6) c!"StatusOK"
def badStatus : GoExpr := .selector (.ident (mainId 0) c!"http") (mainId 7) c!"StatusBadRequest"
def strLit (text : Str) : GoExpr := .lit (mainId 0) .string (c!"\"" ++ (text ++ c!"\""))
def postLit : GoExpr := .composite (some (.selector (.ident (mainId 0) c!"types") (mainId 16) c!"Post"))

def postsCalls : CallTexts
  | 0 => (.ident (mainId 8) c!"make", [.arrayType (mainId 0), .lit (mainId 0) .int c!"0"])
  | 1 => (.ident (mainId 9) c!"append", [.ident (mainId 12) c!"posts", postLit])
  | 2 => (.selector (.ident (mainId 0) c!"time") (mainId 10) c!"Now", [])
  | 3 => ctxCall 1 c!"JSON" [okStatus, .ident (mainId 12) c!"posts"]
  | 4 => ctxCall 3 c!"Param" [strLit c!"id"]
  | 5 => ctxCall 2 c!"String" [badStatus, strLit c!"Missing post id"]
  | 6 => ctxCall 1 c!"JSON" [okStatus, postLit]
  | 7 => ctxCall 4 c!"ShouldBindJSON" [.unary c!"&" (.ident (mainId 14) c!"postDTO")]
  | 8 => ctxCall 2 c!"String" [badStatus, strLit c!"Invalid post"]
  | 9 => ctxCall 1 c!"JSON" [okStatus, .ident (mainId 13) c!"post"]
  | 10 => (.selector (.ident (mainId 0) c!"strconv") (mainId 11) c!"Atoi", [.ident (mainId 15) c!"postId"])
  | 11 => ctxCall 2 c!"String" [badStatus, strLit c!"Invalid post id"]
  | 12 => ctxCall 5 c!"Status" [okStatus]
  | 13 => ctxCall 1 c!"JSON" [.lit (mainId 0) .int c!"200", .composite (some (.selector (.ident (mainId 0) c!"gin") (mainId 17) c!"H"))]
  | _ => (.other (mainId 0), [])

/-- The bodies of `GetPosts`, `GetPost`, `CreatePost`, `UpdatePost`, `DeletePost` and of the literal in `main`. -/
def postsBody : FuncId → List Node
  | 0 => [.other [.call 0 []], .other [.call 1 [.other [.call 2 []]]], .other [.call 1 [.other [.call 2 []]]], .other [.call 3 []]]
  | 1 => [.other [.call 4 []], .other [.other [.call 5 []]], .other [.call 6 [.other [.call 2 []]]]]
  | 2 => [.other [], .other [.call 7 []], .other [.other [.call 8 []]], .other [.other [.call 2 []]], .other [.call 9 []]]
  | 3 => [.other [.call 4 []], .other [.other [.call 5 []]], .other [], .other [.call 7 []], .other [.other [.call 8 []]], .other [.call 10 []],
      .other [.other [.call 11 []]], .other [.other []], .other [.call 9 []]]
  | 4 => [.other [.call 4 []], .other [.other [.call 5 []]], .other [.call 12 []]]
  | 5 => [.other [.call 13 [.other []]]]
  | _ => []

def postsProg (postsPkg : Str) : Prog :=
  { types := postsTypes postsPkg
    filePkg := fun _ => c!"main"
    funcs := fun f => { params := fun _ => if f ≤ 5 then ctxParams else [], body := postsBody f }
    view := fun file id => viewOf (postsText postsPkg) file 2 (postsCalls id).1 (postsCalls id).2 }

def postsFiles : List (Str × FileId) :=
  [(c!"getPosts.go", 0), (c!"getPost.go", 1), (c!"createPost.go", 2), (c!"updatePost.go", 3), (c!"deletePost.go", 4), (c!"main.go", 5)]

def lowerFirst : Str → Str
  | [] => []
  | c :: cs => c.toLower :: cs

def postsRoutes (postsPkg : Str) : RouteEnv where
  prog := postsProg postsPkg
  loadable p := p = c!"main"
  fileOf _ f := aget postsFiles f
  decls
    | 0 => [⟨c!"GetPosts", 10, 0, []⟩]
    | 1 => [⟨c!"GetPost", 10, 1, []⟩]
    | 2 => [⟨c!"CreatePost", 10, 2, []⟩]
    | 3 => [⟨c!"UpdatePost", 10, 3, []⟩]
    | 4 => [⟨c!"DeletePost", 8, 4, []⟩]
    | 5 => [⟨c!"main", 11, 6, [.mk 20 5 []]⟩]
    | _ => []
  lowerCamel := lowerFirst

def postsLib (postsPkg : Str) : Lib :=
  { exampleLib with
    usesMain := fun _ => true
    parse := fun _ cs r => match parseRoute (postsRoutes postsPkg) 4 cs r with | some x => x | none => (cs, .err [])
    choices := someChoices }

/-- examples/with-swagger-ui/main.go:14-28: the router as gin lists it. -/
def postsInfos : List RouteInfo :=
  [⟨c!"GET", c!"/posts", c!"main.GetPosts", c!"getPosts.go", 10⟩, ⟨c!"GET", c!"/posts/:id", c!"main.GetPost", c!"getPost.go", 10⟩,
   ⟨c!"GET", c!"/health", c!"main.main.func1", c!"main.go", 20⟩,
   ⟨c!"GET", c!"/swaggerui/*filepath", c!"github.com/gin-gonic/gin.(*RouterGroup).createStaticHandler.func1", c!"routergroup.go", 214⟩,
   ⟨c!"POST", c!"/posts", c!"main.CreatePost", c!"createPost.go", 10⟩, ⟨c!"PUT", c!"/posts/:id", c!"main.UpdatePost", c!"updatePost.go", 10⟩,
   ⟨c!"DELETE", c!"/posts/:id", c!"main.DeletePost", c!"deletePost.go", 8⟩,
   ⟨c!"HEAD", c!"/swaggerui/*filepath", c!"github.com/gin-gonic/gin.(*RouterGroup).createStaticHandler.func1", c!"routergroup.go", 214⟩]

/-- examples/with-swagger-ui/main.go:30-39: the options and the configuration, which is set without being validated. -/
def postsWorld : World Proc :=
  { fs := [([c!"w"], .dir), ([c!"w", c!"swaggerui"], .dir), ([c!"w", c!"main.go"], .file c!"package main"),
      ([c!"w", c!"go.mod"], .file c!"module withswaggerui\n")]
    cwd := [c!"w"]
    st := { svc := newService [.ginInput (some postsInfos), .openApiOutput c!"./swaggerui/swagger.json",
      .deny (.regex (fun path => c!"/swaggerui".isPrefixOf path)),
      .config (some { title := c!"Example API with Swagger UI", version := c!"1.0.0", host := c!"localhost", port := 8000 })] } }

/-- examples/with-swagger-ui/swaggerui/swagger.json. -/
def postsRecorded : Str := joinLines [
   c!"{",
   c!"  \"openapi\": \"3.0.0\",",
   c!"  \"info\": {",
   c!"    \"title\": \"Example API with Swagger UI\",",
   c!"    \"description\": \"Generated by astra\",",
   c!"    \"contact\": {},",
   c!"    \"license\": {",
   c!"      \"name\": \"\"",
   c!"    },",
   c!"    \"version\": \"1.0.0\"",
   c!"  },",
   c!"  \"servers\": [",
   c!"    {",
   c!"      \"url\": \"http://localhost:8000\"",
   c!"    }",
   c!"  ],",
   c!"  \"paths\": {",
   c!"    \"/health\": {",
   c!"      \"get\": {",
   c!"        \"responses\": {",
   c!"          \"200\": {",
   c!"            \"description\": \"\",",
   c!"            \"content\": {",
   c!"              \"application/json\": {",
   c!"                \"schema\": {",
   c!"                  \"$ref\": \"#/components/schemas/gin.H\"",
   c!"                }",
   c!"              }",
   c!"            }",
   c!"          }",
   c!"        }",
   c!"      }",
   c!"    },",
   c!"    \"/posts\": {",
   c!"      \"get\": {",
   c!"        \"operationId\": \"getPosts\",",
   c!"        \"responses\": {",
   c!"          \"200\": {",
   c!"            \"description\": \"\",",
   c!"            \"content\": {",
   c!"              \"application/json\": {",
   c!"                \"schema\": {",
   c!"                  \"type\": \"array\",",
   c!"                  \"items\": {",
   c!"                    \"$ref\": \"#/components/schemas/types.Post\"",
   c!"                  }",
   c!"                }",
   c!"              }",
   c!"            }",
   c!"          }",
   c!"        }",
   c!"      },",
   c!"      \"post\": {",
   c!"        \"operationId\": \"createPost\",",
   c!"        \"requestBody\": {",
   c!"          \"content\": {",
   c!"            \"application/json\": {",
   c!"              \"schema\": {",
   c!"                \"$ref\": \"#/components/schemas/types.PostDTO\"",
   c!"              }",
   c!"            }",
   c!"          }",
   c!"        },",
   c!"        \"responses\": {",
   c!"          \"200\": {",
   c!"            \"description\": \"\",",
   c!"            \"content\": {",
   c!"              \"application/json\": {",
   c!"                \"schema\": {",
   c!"                  \"$ref\": \"#/components/schemas/types.Post\"",
   c!"                }",
   c!"              }",
   c!"            }",
   c!"          },",
   c!"          \"400\": {",
   c!"            \"description\": \"\",",
   c!"            \"content\": {",
   c!"              \"text/plain\": {",
   c!"                \"schema\": {",
   c!"                  \"type\": \"string\"",
   c!"                }",
   c!"              }",
   c!"            }",
   c!"          }",
   c!"        }",
   c!"      }",
   c!"    },",
   c!"    \"/posts/{id}\": {",
   c!"      \"get\": {",
   c!"        \"operationId\": \"getPost\",",
   c!"        \"parameters\": [",
   c!"          {",
   c!"            \"name\": \"id\",",
   c!"            \"in\": \"path\",",
   c!"            \"required\": true,",
   c!"            \"schema\": {",
   c!"              \"type\": \"string\"",
   c!"            }",
   c!"          }",
   c!"        ],",
   c!"        \"responses\": {",
   c!"          \"200\": {",
   c!"            \"description\": \"\",",
   c!"            \"content\": {",
   c!"              \"application/json\": {",
   c!"                \"schema\": {",
   c!"                  \"$ref\": \"#/components/schemas/types.Post\"",
   c!"                }",
   c!"              }",
   c!"            }",
   c!"          },",
   c!"          \"400\": {",
   c!"            \"description\": \"\",",
   c!"            \"content\": {",
   c!"              \"text/plain\": {",
   c!"                \"schema\": {",
   c!"                  \"type\": \"string\"",
   c!"                }",
   c!"              }",
   c!"            }",
   c!"          }",
   c!"        }",
   c!"      },",
   c!"      \"put\": {",
   c!"        \"operationId\": \"updatePost\",",
   c!"        \"parameters\": [",
   c!"          {",
   c!"            \"name\": \"id\",",
   c!"            \"in\": \"path\",",
   c!"            \"required\": true,",
   c!"            \"schema\": {",
   c!"              \"type\": \"string\"",
   c!"            }",
   c!"          }",
   c!"        ],",
   c!"        \"requestBody\": {",
   c!"          \"content\": {",
   c!"            \"application/json\": {",
   c!"              \"schema\": {",
   c!"                \"$ref\": \"#/components/schemas/types.PostDTO\"",
   c!"              }",
   c!"            }",
   c!"          }",
   c!"        },",
   c!"        \"responses\": {",
   c!"          \"200\": {",
   c!"            \"description\": \"\",",
   c!"            \"content\": {",
   c!"              \"application/json\": {",
   c!"                \"schema\": {",
   c!"                  \"$ref\": \"#/components/schemas/types.Post\"",
   c!"                }",
   c!"              }",
   c!"            }",
   c!"          },",
   c!"          \"400\": {",
   c!"            \"description\": \"\",",
   c!"            \"content\": {",
   c!"              \"text/plain\": {",
   c!"                \"schema\": {",
   c!"                  \"type\": \"string\"",
   c!"                }",
   c!"              }",
   c!"            }",
   c!"          }",
   c!"        }",
   c!"      },",
   c!"      \"delete\": {",
   c!"        \"operationId\": \"deletePost\",",
   c!"        \"parameters\": [",
   c!"          {",
   c!"            \"name\": \"id\",",
   c!"            \"in\": \"path\",",
   c!"            \"required\": true,",
   c!"            \"schema\": {",
   c!"              \"type\": \"string\"",
   c!"            }",
   c!"          }",
   c!"        ],",
   c!"        \"responses\": {",
   c!"          \"200\": {",
   c!"            \"description\": \"\"",
   c!"          },",
   c!"          \"400\": {",
   c!"            \"description\": \"\",",
   c!"            \"content\": {",
   c!"              \"text/plain\": {",
   c!"                \"schema\": {",
   c!"                  \"type\": \"string\"",
   c!"                }",
   c!"              }",
   c!"            }",
   c!"          }",
   c!"        }",
   c!"      }",
   c!"    }",
   c!"  },",
   c!"  \"components\": {",
   c!"    \"schemas\": {",
   c!"      \"gin.H\": {",
   c!"        \"type\": \"object\",",
   c!"        \"additionalProperties\": {},",
   c!"        \"description\": \"H is a shortcut for map[string]any\"",
   c!"      },",
   c!"      \"time.Time\": {",
   c!"        \"type\": \"string\",",
   c!"        \"format\": \"date-time\",",
   (c!"        \"description\": \"A Time represents an instant in time with nanosecond precision.\\n" ++
     c!"\\n" ++
     c!"Programs using times should typically store and pass them as values,\\n" ++
     c!"not pointers. That is, time variables and struct fields should be of\\n" ++
     c!"type time.Time, not *time.Time.\\n" ++
     c!"\\n" ++
     c!"A Time value can be used by multiple goroutines simultaneously except\\n" ++
     c!"that the methods GobDecode, UnmarshalBinary, UnmarshalJSON and\\n" ++
     c!"UnmarshalText are not concurrency-safe.\\n" ++
     c!"\\n" ++
     c!"Time instants can be compared using the Before, After, and Equal methods.\\n" ++
     c!"The Sub method subtracts two instants, producing a Duration.\\n" ++
     c!"The Add method adds a Time and a Duration, producing a Time.\\n" ++
     c!"\\n" ++
     c!"The zero value of type Time is January 1, year 1, 00:00:00.000000000 UTC.\\n" ++
     c!"As this time is unlikely to come up in practice, the IsZero method gives\\n" ++
     c!"a simple way of detecting a time that has not been initialized explicitly.\\n" ++
     c!"\\n" ++
     c!"Each Time has associated with it a Location, consulted when computing the\\n" ++
     c!"presentation form of the time, such as in the Format, Hour, and Year methods.\\n" ++
     c!"The methods Local, UTC, and In return a Time with a specific location.\\n" ++
     c!"Changing the location in this way changes only the presentation; it does not\\n" ++
     c!"change the instant in time being denoted and therefore does not affect the\\n" ++
     c!"computations described in earlier paragraphs.\\n" ++
     c!"\\n" ++
     c!"Representations of a Time value saved by the GobEncode, MarshalBinary,\\n" ++
     c!"MarshalJSON, and MarshalText methods store the Time.Location's offset, but not\\n" ++
     c!"the location name. They therefore lose information about Daylight Saving Time.\\n" ++
     c!"\\n" ++
     c!"In addition to the required “wall clock” reading, a Time may contain an optional\\n" ++
     c!"reading of the current process's monotonic clock, to provide additional precision\\n" ++
     c!"for comparison or subtraction.\\n" ++
     c!"See the “Monotonic Clocks” section in the package documentation for details.\\n" ++
     c!"\\n" ++
     c!"Note that the Go == operator compares not just the time instant but also the\\n" ++
     c!"Location and the monotonic clock reading. Therefore, Time values should not\\n" ++
     c!"be used as map or database keys without first guaranteeing that the\\n" ++
     c!"identical Location has been set for all values, which can be achieved\\n" ++
     c!"through use of the UTC or Local method, and that the monotonic clock reading\\n" ++
     c!"has been stripped by setting t = t.Round(0). In general, prefer t.Equal(u)\\n" ++
     c!"to t == u, since t.Equal uses the most accurate comparison available and\\n" ++
     c!"correctly handles the case when only one of its arguments has a monotonic\\n" ++
     c!"clock reading.\""),
   c!"      },",
   c!"      \"types.Author\": {",
   c!"        \"type\": \"object\",",
   c!"        \"properties\": {",
   c!"          \"first_name\": {",
   c!"            \"type\": \"string\"",
   c!"          },",
   c!"          \"id\": {",
   c!"            \"type\": \"integer\",",
   c!"            \"format\": \"int32\"",
   c!"          },",
   c!"          \"last_name\": {",
   c!"            \"type\": \"string\"",
   c!"          }",
   c!"        }",
   c!"      },",
   c!"      \"types.Comment\": {",
   c!"        \"type\": \"object\",",
   c!"        \"properties\": {",
   c!"          \"author\": {",
   c!"            \"$ref\": \"#/components/schemas/types.Author\"",
   c!"          },",
   c!"          \"body\": {",
   c!"            \"type\": \"string\"",
   c!"          },",
   c!"          \"id\": {",
   c!"            \"type\": \"integer\",",
   c!"            \"format\": \"int32\"",
   c!"          }",
   c!"        }",
   c!"      },",
   c!"      \"types.Post\": {",
   c!"        \"type\": \"object\",",
   c!"        \"properties\": {",
   c!"          \"author\": {",
   c!"            \"$ref\": \"#/components/schemas/types.Author\"",
   c!"          },",
   c!"          \"body\": {",
   c!"            \"type\": \"string\"",
   c!"          },",
   c!"          \"comments\": {",
   c!"            \"type\": \"array\",",
   c!"            \"items\": {",
   c!"              \"$ref\": \"#/components/schemas/types.Comment\"",
   c!"            }",
   c!"          },",
   c!"          \"id\": {",
   c!"            \"type\": \"integer\",",
   c!"            \"format\": \"int32\"",
   c!"          },",
   c!"          \"name\": {",
   c!"            \"type\": \"string\"",
   c!"          },",
   c!"          \"published_at\": {",
   c!"            \"$ref\": \"#/components/schemas/time.Time\"",
   c!"          }",
   c!"        }",
   c!"      },",
   c!"      \"types.PostDTO\": {",
   c!"        \"type\": \"object\",",
   c!"        \"properties\": {",
   c!"          \"author_id\": {",
   c!"            \"type\": \"integer\",",
   c!"            \"format\": \"int32\"",
   c!"          },",
   c!"          \"body\": {",
   c!"            \"type\": \"string\"",
   c!"          },",
   c!"          \"name\": {",
   c!"            \"type\": \"string\"",
   c!"          }",
   c!"        }",
   c!"      }",
   c!"    }",
   c!"  }",
   c!"}"]

/-- Comparison of texts from the front. -/
def sameText : Str → Str → Bool
  | [], [] => true
  | a :: as, b :: bs => if a = b then sameText as bs else false
  | _, _ => false

theorem eq_of_sameText {a b : Str} (h : sameText a b = true) : a = b := by
  induction a generalizing b with
  | nil => cases b <;> simp_all [sameText]
  | cons x xs ih =>
    cases b with
    | nil => simp [sameText] at h
    | cons y ys =>
      simp only [sameText] at h
      split at h
      · rename_i hxy; rw [hxy, ih h]
      · cases h

/-- The file at a path has the text. -/
def holdsText (fs : FS) (path : List Str) (text : Str) : Bool :=
  match fs.look path with
  | some (.file t) => sameText t text
  | _ => false

theorem look_of_holdsText {fs : FS} {path : List Str} {text : Str} (h : holdsText fs path text = true) : fs.look path = some (.file text) := by
  unfold holdsText at h
  split at h
  · rename_i t ht; rw [ht, eq_of_sameText h]
  · cases h

/-- The run of the example writes the recorded file. -/
theorem posts_run_writes_recorded :
    (Astra.parseAll (postsLib c!"withswaggerui/types") c!"/w" noFaults postsWorld).2 = .ok () ∧
    ((Astra.parseAll (postsLib c!"withswaggerui/types") c!"/w" noFaults postsWorld).1.fs.look [c!"w", c!"swaggerui", c!"swagger.json"]) = some (.file postsRecorded) := by
  constructor
  · decide +kernel
  · exact look_of_holdsText (by decide +kernel)

/-! ### examples/with-cache

The handlers are those of the first example; the types are in another package. -/

def unstatic : List RouteInfo := postsInfos.filter (fun i => ¬ c!"/swaggerui".isPrefixOf i.path)

def cachedPostsWorld : World Proc :=
  { fs := [([c!"w"], .dir), ([c!"w", c!"main.go"], .file c!"package main"), ([c!"w", c!"go.mod"], .file c!"module withcache\n")]
    cwd := [c!"w"]
    st := { svc := newService [.ginInput (some unstatic), .openApiOutput c!"openapi.generated.yaml", .cachePath c!"cache.json",
      .config (some { title := c!"Example API with Cache", version := c!"1.0.0", host := c!"localhost", port := 8000 })] } }

/-- examples/with-cache/cache.json. -/
def cacheRecorded : Str := List.flatten [
   c!"{\"inputs\":[{\"mode\":\"gin\"}],\"outputs\":[{\"mode\":\"openapi\",\"configuration\":{\"filePath\":\"openapi.generated.yaml\"}}],",
   c!"\"config\":{\"title\":\"Example API with Cache\",\"description\":\"Generated by astra\",\"version\":\"1.0.0\",\"contact\":{\"name\":\"\",\"url\":\"\",\"email\":\"\"},",
   c!"\"license\":{\"name\":\"\",\"url\":\"\"},\"secure\":false,\"host\":\"localhost\",\"basePath\":\"\",\"port\":8000},",
   c!"\"routes\":[{\"handler\":\"main.GetPosts\",\"file\":\"getPosts.go\",\"lineNo\":10,\"method\":\"GET\",\"path\":\"/posts\",\"returnTypes\":[{\"statusCode\":200,\"contentType\":\"application/json\",\"field\":{\"package\":\"withcache/types\",\"type\":\"slice\",\"sliceType\":\"Post\"}}],",
   c!"\"operationId\":\"getPosts\"},",
   c!"{\"handler\":\"main.GetPost\",\"file\":\"getPost.go\",\"lineNo\":10,\"method\":\"GET\",\"path\":\"/posts/:id\",\"params\":[{\"name\":\"id\",\"type\":{\"type\":\"string\"},",
   c!"\"isRequired\":true}],\"returnTypes\":[{\"statusCode\":400,\"contentType\":\"text/plain\",\"field\":{\"type\":\"string\"}},",
   c!"{\"statusCode\":200,\"contentType\":\"application/json\",\"field\":{\"package\":\"withcache/types\",\"type\":\"Post\"}}],\"operationId\":\"getPost\"},",
   c!"{\"handler\":\"main.main.func1\",\"file\":\"main.go\",\"lineNo\":20,\"method\":\"GET\",\"path\":\"/health\",\"returnTypes\":[{\"statusCode\":200,\"contentType\":\"application/json\",\"field\":{\"package\":\"github.com/gin-gonic/gin\",\"type\":\"H\"}}]},",
   c!"{\"handler\":\"main.CreatePost\",\"file\":\"createPost.go\",\"lineNo\":10,\"method\":\"POST\",\"path\":\"/posts\",\"body\":[{\"type\":{\"package\":\"withcache/types\",\"type\":\"PostDTO\"},",
   c!"\"contentType\":\"application/json\",\"isBound\":true}],",
   c!"\"returnTypes\":[{\"statusCode\":400,\"contentType\":\"text/plain\",\"field\":{\"type\":\"string\"}},",
   c!"{\"statusCode\":200,\"contentType\":\"application/json\",\"field\":{\"package\":\"withcache/types\",\"type\":\"Post\"}}],",
   c!"\"operationId\":\"createPost\"},",
   c!"{\"handler\":\"main.UpdatePost\",\"file\":\"updatePost.go\",\"lineNo\":10,\"method\":\"PUT\",\"path\":\"/posts/:id\",\"params\":[{\"name\":\"id\",\"type\":{\"type\":\"string\"},",
   c!"\"isRequired\":true}],\"body\":[{\"type\":{\"package\":\"withcache/types\",\"type\":\"PostDTO\"},",
   c!"\"contentType\":\"application/json\",\"isBound\":true}],",
   c!"\"returnTypes\":[{\"statusCode\":400,\"contentType\":\"text/plain\",\"field\":{\"type\":\"string\"}},",
   c!"{\"statusCode\":200,\"contentType\":\"application/json\",\"field\":{\"package\":\"withcache/types\",\"type\":\"Post\"}}],",
   c!"\"operationId\":\"updatePost\"},",
   c!"{\"handler\":\"main.DeletePost\",\"file\":\"deletePost.go\",\"lineNo\":8,\"method\":\"DELETE\",\"path\":\"/posts/:id\",\"params\":[{\"name\":\"id\",\"type\":{\"type\":\"string\"},",
   c!"\"isRequired\":true}],\"returnTypes\":[{\"statusCode\":400,\"contentType\":\"text/plain\",\"field\":{\"type\":\"string\"}},",
   c!"{\"statusCode\":200,\"field\":{\"type\":\"nil\"}}],\"operationId\":\"deletePost\"}],",
   c!"\"components\":[{\"package\":\"time\",\"type\":\"struct\",\"name\":\"Time\",\"doc\":\"A Time represents an instant in time with nanosecond precision.\\n",
   c!"\\nPrograms using times should typically store and pass them as values,\\n",
   c!"not pointers. That is, time variables and struct fields should be of\\ntype time.Time, not *time.Time.\\n\\n",
   c!"A Time value can be used by multiple goroutines simultaneously except\\n",
   c!"that the methods GobDecode, UnmarshalBinary, UnmarshalJSON and\\nUnmarshalText are not concurrency-safe.\\n\\n",
   c!"Time instants can be compared using the Before, After, and Equal methods.\\n",
   c!"The Sub method subtracts two instants, producing a Duration.\\nThe Add method adds a Time and a Duration, producing a Time.\\n\\n",
   c!"The zero value of type Time is January 1, year 1, 00:00:00.000000000 UTC.\\n",
   c!"As this time is unlikely to come up in practice, the IsZero method gives\\n",
   c!"a simple way of detecting a time that has not been initialized explicitly.\\n\\n",
   c!"Each Time has associated with it a Location, consulted when computing the\\n",
   c!"presentation form of the time, such as in the Format, Hour, and Year methods.\\n",
   c!"The methods Local, UTC, and In return a Time with a specific location.\\n",
   c!"Changing the location in this way changes only the presentation; it does not\\n",
   c!"change the instant in time being denoted and therefore does not affect the\\ncomputations described in earlier paragraphs.\\n\\n",
   c!"Representations of a Time value saved by the GobEncode, MarshalBinary,\\n",
   c!"MarshalJSON, and MarshalText methods store the Time.Location's offset, but not\\n",
   c!"the location name. They therefore lose information about Daylight Saving Time.\\n\\n",
   c!"In addition to the required “wall clock” reading, a Time may contain an optional\\n",
   c!"reading of the current process's monotonic clock, to provide additional precision\\nfor comparison or subtraction.\\n",
   c!"See the “Monotonic Clocks” section in the package documentation for details.\\n\\n",
   c!"Note that the Go == operator compares not just the time instant but also the\\n",
   c!"Location and the monotonic clock reading. Therefore, Time values should not\\n",
   c!"be used as map or database keys without first guaranteeing that the\\n",
   c!"identical Location has been set for all values, which can be achieved\\n",
   c!"through use of the UTC or Local method, and that the monotonic clock reading\\n",
   c!"has been stripped by setting t = t.Round(0). In general, prefer t.Equal(u)\\n",
   c!"to t == u, since t.Equal uses the most accurate comparison available and\\n",
   c!"correctly handles the case when only one of its arguments has a monotonic\\nclock reading.\"},",
   c!"{\"package\":\"withcache/types\",\"type\":\"struct\",\"name\":\"Author\",\"structFields\":{\"FirstName\":{\"type\":\"string\",\"structFieldBindingTags\":{\"json\":{\"name\":\"first_name\"}}},",
   c!"\"ID\":{\"type\":\"int\",\"structFieldBindingTags\":{\"json\":{\"name\":\"id\"}}},",
   c!"\"LastName\":{\"type\":\"string\",\"structFieldBindingTags\":{\"json\":{\"name\":\"last_name\"}}}}},",
   c!"{\"package\":\"withcache/types\",\"type\":\"struct\",\"name\":\"Comment\",\"structFields\":{\"Author\":{\"package\":\"withcache/types\",\"type\":\"Author\",\"structFieldBindingTags\":{\"json\":{\"name\":\"author\"}}},",
   c!"\"Body\":{\"type\":\"string\",\"structFieldBindingTags\":{\"json\":{\"name\":\"body\"}}},",
   c!"\"ID\":{\"type\":\"int\",\"structFieldBindingTags\":{\"json\":{\"name\":\"id\"}}}}},",
   c!"{\"package\":\"withcache/types\",\"type\":\"struct\",\"name\":\"Post\",\"structFields\":{\"Author\":{\"package\":\"withcache/types\",\"type\":\"Author\",\"structFieldBindingTags\":{\"json\":{\"name\":\"author\"}}},",
   c!"\"Body\":{\"type\":\"string\",\"structFieldBindingTags\":{\"json\":{\"name\":\"body\"}}},",
   c!"\"Comments\":{\"package\":\"withcache/types\",\"type\":\"slice\",\"sliceType\":\"Comment\",\"structFieldBindingTags\":{\"json\":{\"name\":\"comments\"}}},",
   c!"\"ID\":{\"type\":\"int\",\"structFieldBindingTags\":{\"json\":{\"name\":\"id\"}}},",
   c!"\"Name\":{\"type\":\"string\",\"structFieldBindingTags\":{\"json\":{\"name\":\"name\"}}},",
   c!"\"PublishedAt\":{\"package\":\"time\",\"type\":\"Time\",\"structFieldBindingTags\":{\"json\":{\"name\":\"published_at\"}}}}},",
   c!"{\"package\":\"github.com/gin-gonic/gin\",\"type\":\"map\",\"name\":\"H\",\"mapKeyType\":\"string\",\"mapValueType\":\"any\",\"doc\":\"H is a shortcut for map[string]any\"},",
   c!"{\"package\":\"withcache/types\",\"type\":\"struct\",\"name\":\"PostDTO\",\"structFields\":{\"AuthorID\":{\"type\":\"int\",\"structFieldBindingTags\":{\"json\":{\"name\":\"author_id\"}}},",
   c!"\"Body\":{\"type\":\"string\",\"structFieldBindingTags\":{\"json\":{\"name\":\"body\"}}},",
   c!"\"Name\":{\"type\":\"string\",\"structFieldBindingTags\":{\"json\":{\"name\":\"name\"}}}}}],\"custom_type_mapping\":{}}"]

/-- The run of the example writes the recorded cache. -/
theorem cached_posts_run_writes_recorded :
    (Astra.parseAll (postsLib c!"withcache/types") c!"/w" noFaults cachedPostsWorld).2 = .ok () ∧
    ((Astra.parseAll (postsLib c!"withcache/types") c!"/w" noFaults cachedPostsWorld).1.fs.look [c!"w", c!"cache.json"]) = some (.file cacheRecorded) := by
  constructor
  · decide +kernel
  · exact look_of_holdsText (by decide +kernel)

/-! ### examples/with-azure-functions -/

def azurePostsWorld : World Proc :=
  { fs := [([c!"w"], .dir), ([c!"w", c!"main.go"], .file c!"package main"), ([c!"w", c!"go.mod"], .file c!"module azurefunctions\n")]
    cwd := [c!"w"]
    st := { svc := newService [.ginInput (some unstatic), .openApiOutput c!"openapi.generated.yaml", .azureOutput c!"bindings",
      .config (some { title := c!"Example API", version := c!"1.0.0", host := c!"localhost", port := 8000 })] } }

/-- The files examples/with-azure-functions/bindings/*/function.json differ in the method and the route only. -/
def azureRecorded (method route : Str) : Str := joinLines [
   c!"{",
   c!"  \"bindings\": [",
   c!"    {",
   c!"      \"type\": \"httpTrigger\",",
   c!"      \"direction\": \"in\",",
   c!"      \"name\": \"req\",",
   c!"      \"methods\": [",
   (c!"        \"" ++ (method ++ c!"\",")),
   c!"        \"options\"",
   c!"      ],",
   (c!"      \"route\": \"" ++ (route ++ c!"\"")),
   c!"    },",
   c!"    {",
   c!"      \"type\": \"http\",",
   c!"      \"direction\": \"out\",",
   c!"      \"name\": \"res\"",
   c!"    }",
   c!"  ]",
   c!"}"]

/-- The directory, method and route of each of the files. -/
def azureFiles : List (Str × Str × Str) :=
  [(c!"GetPosts", c!"get", c!"/posts"), (c!"GetPost", c!"get", c!"/posts/{id:alpha}"), (c!"func1", c!"get", c!"/health"),
   (c!"CreatePost", c!"post", c!"/posts"), (c!"UpdatePost", c!"put", c!"/posts/{id:alpha}"), (c!"DeletePost", c!"delete", c!"/posts/{id:alpha}")]

/-- The run of the example writes the recorded bindings. -/
theorem azure_posts_run_writes_recorded :
    (Astra.parseAll (postsLib c!"azurefunctions/types") c!"/w" noFaults azurePostsWorld).2 = .ok () ∧
    ∀ x ∈ azureFiles, (Astra.parseAll (postsLib c!"azurefunctions/types") c!"/w" noFaults azurePostsWorld).1.fs.look
      [c!"w", c!"bindings", x.1, c!"function.json"] = some (.file (azureRecorded x.2.1 x.2.2)) := by
  have h : azureFiles.all (fun x => holdsText (Astra.parseAll (postsLib c!"azurefunctions/types") c!"/w" noFaults azurePostsWorld).1.fs
    [c!"w", c!"bindings", x.1, c!"function.json"] (azureRecorded x.2.1 x.2.2)) = true := by decide +kernel
  exact ⟨by decide +kernel, fun x hx => look_of_holdsText (List.all_eq_true.1 h x hx)⟩

end Astra.Props
