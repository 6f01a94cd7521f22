/-
The model against the integration tests of the project (tests/integration), which its CI runs: the assertions of the tests hold of the files
that the model writes for the programs of the tests. As in Props/Recorded these are tests of the model, not properties.

Given are the calls of the handlers as the analysis sees them and the types; everything else is computed. The file is read back with the model's
JSON reader, as the tests read it back with gabs.
-/
import Verif.Props.RecordedTrees
import Verif.Props.Custom

namespace Astra.Props
open Astra.Spec

/-- gabs `Search`: keys of objects and indices of arrays, one below the other. -/
def searchJson : Json → List Str → Option Json
  | j, [] => some j
  | .obj ms, k :: ks => match aget ms k with | some j => searchJson j ks | none => none
  | .arr xs, k :: ks => match (parseNat k).bind (fun i => xs[i]?) with | some j => searchJson j ks | none => none
  | _, _ => none

/-- The text form of a value without members, and `<json>` for the others. -/
def plainText : Json → Str
  | .str s => s
  | .num t => t
  | .bool true => c!"true"
  | .bool false => c!"false"
  | _ => c!"<json>"

/-- The file that a run leaves. -/
def testFile (fs : FS) : Option Json :=
  match fs.look [c!"w", c!"output.json"] with
  | some (.file t) => decodeText t
  | _ => none

/-- The file has the values at the places, or nothing where `none` is expected. -/
def testHolds (fs : FS) (expected : List (List Str × Option Str)) : Bool :=
  match testFile fs with
  | none => false
  | some j => expected.all (fun e => (searchJson j e.1).map plainText == e.2)

def testPkg (n : Str) : Str := c!"github.com/ls6-events/astra/tests/integration/" ++ n

/-- A program of one package in which handler number `n` is the function at line `n` of its only file, with the given calls one after the
other. Inline functions are literals of `setupRouter`. -/
def testRoutes (n : Str) (inline : Bool) (types : TypeEnv) (names : List Str) (calls : Nat → CallView)
    (bodies : List (List Nat)) : RouteEnv where
  prog :=
    { types := types
      filePkg := fun _ => testPkg n
      funcs := fun f => { params := fun _ => if f < bodies.length then ctxParams else [], body := ((bodies[f]?).getD []).map (fun i => .call i []) }
      view := fun _ => calls }
  loadable p := p = testPkg n
  fileOf _ f := if f = c!"handlers.go" then some 0 else none
  decls _ :=
    if inline then [⟨c!"setupRouter", 1, bodies.length, (List.range bodies.length).map (fun i => .mk (Int.ofNat (10 + i)) i [])⟩]
    else (List.range bodies.length).map (fun i => ⟨(names[i]?).getD [], Int.ofNat (10 + i), i, []⟩)
  lowerCamel s := if s = c!"getPetByID" then c!"getPetById" else s

/-- The routes of the router: method, path and the name of the handler. -/
def testInfos (n : Str) (rs : List (Str × Str × Str)) : List RouteInfo :=
  (List.range rs.length).map (fun i =>
    let r := (rs[i]?).getD ([], [], [])
    ⟨r.1, r.2.1, testPkg n ++ ('.' :: r.2.2), c!"handlers.go", Int.ofNat (10 + i)⟩)

/-- tests/integration/helpers: `SetupTestAstraWithDefaultConfig`. -/
def testWorld (n : Str) (options : List Opt) (rs : List (Str × Str × Str)) : World Proc :=
  { fs := moduleFiles c!"github.com/ls6-events/astra\n", cwd := [c!"w"]
    st := { svc := newService (options ++ [.ginInput (some (testInfos n rs)), .openApiOutput c!"./output.json",
      .config (some { host := c!"localhost", port := 8000 })]) } }

def testLib (routes : RouteEnv) : Lib :=
  { exampleLib with
    usesMain := fun _ => false
    parse := fun ctx cs r =>
      match parseRoute { routes with prog := { routes.prog with customs := ctx.customFuncs } } 5 cs r with | some x => x | none => (cs, .err [])
    choices := someChoices }

/-- Does the run succeed and leave a file with these values? -/
def testPasses (routes : RouteEnv) (w : World Proc) (expected : List (List Str × Option Str)) : Bool :=
  match Astra.parseAll (testLib routes) c!"/w" noFaults w with
  | (w', .ok ()) => testHolds w'.fs expected
  | _ => false

/-- A method of the context with its arguments. -/
def ginCall (m : Str) (args : List ArgView) : CallView := { func := .ok (true, m), args := args }
def textArg (s : Str) : ArgView := { value := .ok s, type := .ok goString }
def codeArg (s : Str) : ArgView := { value := .ok s, type := .ok goInt }
def typeArg (t : GoType) : ArgView := { type := .ok t }

/-- The places of parameter number `i` of an operation with their values. -/
def paramHas (path method : Str) (i : Str) (vs : List (List Str × Option Str)) : List (List Str × Option Str) :=
  vs.map (fun v => ([c!"paths", path, method, c!"parameters", i] ++ v.1, v.2))

def schemaHas (name : Str) (vs : List (List Str × Option Str)) : List (List Str × Option Str) :=
  vs.map (fun v => ([c!"components", c!"schemas", name] ++ v.1, v.2))

/-! ### 2-struct-embedding -/

def embedPkg : Str := testPkg c!"2-struct-embedding"

def embedTypes : TypeEnv :=
  { petsTypes with
    loadable := fun p => p = embedPkg ∨ petsTypes.loadable p
    underlying := fun p n a =>
      if p = embedPkg then
        .struct [({ name := c!"Pet", embedded := true }, petNamed c!"Pet"), jsonField c!"Breed" c!"breed" goString,
          if n = c!"Cat" then jsonField c!"IsIndependent" c!"isIndependent" (.basic .bool c!"bool") else jsonField c!"IsTrained" c!"isTrained" (.basic .bool c!"bool")]
      else petsTypes.underlying p n a }

def embedCalls : Nat → CallView
  | 0 => ginCall c!"Param" [textArg c!"id"]
  | 1 => ginCall c!"JSON" [codeArg c!"400", typeArg ginH]
  | 2 => ginCall c!"JSON" [codeArg c!"404", typeArg ginH]
  | 3 => ginCall c!"JSON" [codeArg c!"200", typeArg (.named (some embedPkg) c!"Cat" [])]
  | _ => ginCall c!"JSON" [codeArg c!"200", typeArg (.named (some embedPkg) c!"Dog" [])]

/-- tests/integration/2-struct-embedding. -/
theorem embedding_test_passes :
    testPasses (testRoutes c!"2-struct-embedding" false embedTypes [c!"getCatByID", c!"getDogByID"] embedCalls [[0, 1, 2, 3], [0, 1, 2, 4]])
      (testWorld c!"2-struct-embedding" [] [(c!"GET", c!"/cats/:id", c!"getCatByID"), (c!"GET", c!"/dogs/:id", c!"getDogByID")])
      (schemaHas c!"2-struct-embedding.Cat" [([c!"type"], some c!"object"), ([c!"allOf", c!"0", c!"$ref"], some c!"#/components/schemas/petstore.Pet"),
          ([c!"allOf", c!"1", c!"properties", c!"breed", c!"type"], some c!"string"),
          ([c!"allOf", c!"1", c!"properties", c!"isIndependent", c!"type"], some c!"boolean")] ++
        schemaHas c!"2-struct-embedding.Dog" [([c!"type"], some c!"object"), ([c!"allOf", c!"0", c!"$ref"], some c!"#/components/schemas/petstore.Pet"),
          ([c!"allOf", c!"1", c!"properties", c!"breed", c!"type"], some c!"string"),
          ([c!"allOf", c!"1", c!"properties", c!"isTrained", c!"type"], some c!"boolean")] ++
        [([c!"paths", c!"/cats/{id}", c!"get", c!"responses", c!"200", c!"content", c!"application/json", c!"schema", c!"$ref"],
            some c!"#/components/schemas/2-struct-embedding.Cat"),
         ([c!"paths", c!"/dogs/{id}", c!"get", c!"responses", c!"200", c!"content", c!"application/json", c!"schema", c!"$ref"],
            some c!"#/components/schemas/2-struct-embedding.Dog"),
         ([c!"paths", c!"/cats/{id}", c!"get", c!"parameters", c!"0", c!"schema", c!"type"], some c!"string"),
         ([c!"paths", c!"/cats/{id}", c!"get", c!"responses", c!"400", c!"content", c!"application/json", c!"schema", c!"$ref"], some c!"#/components/schemas/gin.H"),
         ([c!"paths", c!"/cats/{id}", c!"get", c!"responses", c!"404", c!"content", c!"application/json", c!"schema", c!"$ref"], some c!"#/components/schemas/gin.H"),
         ([c!"paths", c!"/dogs/{id}", c!"get", c!"parameters", c!"0", c!"schema", c!"type"], some c!"string"),
         ([c!"paths", c!"/dogs/{id}", c!"get", c!"responses", c!"400", c!"content", c!"application/json", c!"schema", c!"$ref"], some c!"#/components/schemas/gin.H"),
         ([c!"paths", c!"/dogs/{id}", c!"get", c!"responses", c!"404", c!"content", c!"application/json", c!"schema", c!"$ref"], some c!"#/components/schemas/gin.H")]) = true := by
  decide +kernel

/-! ### 3-inline-functions -/

def inlineCalls : Nat → CallView
  | 0 => ginCall c!"JSON" [codeArg c!"200", typeArg (petNamed c!"Pet")]
  | 1 => ginCall c!"Param" [textArg c!"param"]
  | 2 => ginCall c!"GetQuery" [textArg c!"name"]
  | 3 => ginCall c!"JSON" [codeArg c!"400", typeArg ginH]
  | _ => ginCall c!"BindJSON" [typeArg (petNamed c!"PetDTO")]

def responseAt (path method code type : Str) : List Str := [c!"paths", path, method, c!"responses", code, c!"content", type, c!"schema"]

/-- tests/integration/3-inline-functions. -/
theorem inline_test_passes :
    testPasses (testRoutes c!"3-inline-functions" true petsTypes [] inlineCalls [[0], [1, 2, 3, 0], [4, 3, 0]])
      (testWorld c!"3-inline-functions" [] [(c!"GET", c!"/inline", c!"setupRouter.func1"), (c!"GET", c!"/inline/:param", c!"setupRouter.func2"),
        (c!"POST", c!"/inline", c!"setupRouter.func3")])
      ([(responseAt c!"/inline" c!"get" c!"200" c!"application/json" ++ [c!"$ref"], some c!"#/components/schemas/petstore.Pet"),
        ([c!"paths", c!"/inline", c!"post", c!"requestBody", c!"content", c!"application/json", c!"schema", c!"$ref"], some c!"#/components/schemas/petstore.PetDTO"),
        (responseAt c!"/inline" c!"post" c!"200" c!"application/json" ++ [c!"$ref"], some c!"#/components/schemas/petstore.Pet"),
        (responseAt c!"/inline/{param}" c!"get" c!"200" c!"application/json" ++ [c!"$ref"], some c!"#/components/schemas/petstore.Pet"),
        (responseAt c!"/inline/{param}" c!"get" c!"400" c!"application/json" ++ [c!"$ref"], some c!"#/components/schemas/gin.H")] ++
       paramHas c!"/inline/{param}" c!"get" c!"1" [([c!"name"], some c!"param"), ([c!"in"], some c!"path"), ([c!"required"], some c!"true"),
         ([c!"schema", c!"type"], some c!"string")] ++
       paramHas c!"/inline/{param}" c!"get" c!"0" [([c!"name"], some c!"name"), ([c!"in"], some c!"query"), ([c!"schema", c!"type"], some c!"string")]) = true := by
  decide +kernel

/-! ### 4-doc-comments -/

def docsPkg : Str := testPkg c!"4-doc-comments"

def docsTypes : TypeEnv :=
  { petsTypes with
    loadable := fun p => p = docsPkg ∨ petsTypes.loadable p
    underlying := fun p n a => if p = docsPkg then .struct [jsonField c!"Foo" c!"foo" goString] else petsTypes.underlying p n a
    files := fun p => if p = docsPkg then [[.type none [{ name := c!"NoDescription" }]]] else petsTypes.files p }

def docsCalls : Nat → CallView
  | 0 => ginCall c!"JSON" [codeArg c!"200", typeArg (.slice (petNamed c!"Pet"))]
  | 1 => ginCall c!"Param" [textArg c!"id"]
  | 2 => ginCall c!"JSON" [codeArg c!"400", typeArg ginH]
  | 3 => ginCall c!"JSON" [codeArg c!"200", typeArg (.pointer (petNamed c!"Pet"))]
  | 4 => ginCall c!"BindJSON" [typeArg (petNamed c!"PetDTO")]
  | 5 => ginCall c!"JSON" [codeArg c!"200", typeArg (petNamed c!"PetDTO")]
  | 6 => ginCall c!"Status" [codeArg c!"200"]
  | _ => ginCall c!"JSON" [codeArg c!"200", typeArg (.named (some docsPkg) c!"NoDescription" [])]

def docsOf : FuncId → Option Str
  | 1 => some c!"getAllPets returns all pets.\n"
  | 2 => some c!"getPetByID returns a pet by its ID.\nIt takes in the ID as a path parameter.\n"
  | 3 => some c!"createPet creates a pet.\nIt takes in a Pet without an ID in the request body.\n"
  | 4 => some c!"deletePet deletes a pet by its ID.\nIt takes in the ID as a path parameter.\n"
  | _ => none

def docsRoutes : RouteEnv :=
  let E := testRoutes c!"4-doc-comments" false docsTypes [c!"noDescriptionRoute", c!"getAllPets", c!"getPetByID", c!"createPet", c!"deletePet"] docsCalls
    [[7], [0], [1, 2, 3], [4, 2, 5], [1, 2, 6]]
  { E with prog := { E.prog with funcs := fun f => { E.prog.funcs f with doc := docsOf f } } }

/-- tests/integration/4-doc-comments. -/
theorem docs_test_passes :
    testPasses docsRoutes
      (testWorld c!"4-doc-comments" [] [(c!"GET", c!"/no-docs", c!"noDescriptionRoute"), (c!"GET", c!"/pets", c!"getAllPets"), (c!"GET", c!"/pets/:id", c!"getPetByID"),
        (c!"POST", c!"/pets", c!"createPet"), (c!"DELETE", c!"/pets/:id", c!"deletePet")])
      ([([c!"paths", c!"/no-docs", c!"get"], some c!"<json>"), ([c!"paths", c!"/no-docs", c!"get", c!"description"], none),
        ([c!"paths", c!"/pets", c!"get", c!"description"], some c!"getAllPets returns all pets."),
        ([c!"paths", c!"/pets", c!"post", c!"description"], some c!"createPet creates a pet.\nIt takes in a Pet without an ID in the request body."),
        ([c!"paths", c!"/pets/{id}", c!"get", c!"description"], some c!"getPetByID returns a pet by its ID.\nIt takes in the ID as a path parameter."),
        ([c!"paths", c!"/pets/{id}", c!"delete", c!"description"], some c!"deletePet deletes a pet by its ID.\nIt takes in the ID as a path parameter.")] ++
       schemaHas c!"gin.H" [([c!"description"], some c!"H is a shortcut for map[string]any")] ++
       schemaHas c!"petstore.Pet" [([c!"description"], some c!"Pet the pet model.")] ++
       schemaHas c!"petstore.PetDTO" [([c!"description"], some c!"PetDTO the pet dto.")] ++
       schemaHas c!"petstore.Tag" [([c!"description"], some c!"Tag the tag model.")] ++
       schemaHas c!"4-doc-comments.NoDescription" [([], some c!"<json>"), ([c!"description"], none)]) = true := by
  decide +kernel

/-! ### 5-custom-functions -/

/-- The handlers with their calls to `handleError`; the body of `handleError` is function 4. -/
def errorCalls : Nat → CallView
  | 0 => ginCall c!"JSON" [codeArg c!"200", typeArg (.slice (petNamed c!"Pet"))]
  | 1 => ginCall c!"Param" [textArg c!"id"]
  | 2 => { func := .ok (false, c!"handleError"), args := [{ ident := some c!"c" }, codeArg c!"400", typeArg (.named none c!"error" [])], target := .ok 4 }
  | 3 => { func := .ok (false, c!"handleError"), args := [{ ident := some c!"c" }, codeArg c!"404", typeArg (.named none c!"error" [])], target := .ok 4 }
  | 4 => ginCall c!"JSON" [codeArg c!"200", typeArg (.pointer (petNamed c!"Pet"))]
  | 5 => ginCall c!"BindJSON" [typeArg (petNamed c!"PetDTO")]
  | 6 => ginCall c!"JSON" [codeArg c!"200", typeArg (petNamed c!"PetDTO")]
  | 7 => ginCall c!"Status" [codeArg c!"200"]
  | _ => ginCall c!"String" [{ type := .ok goInt }, typeArg goString]

def petRoutes : List (Str × Str × Str) :=
  [(c!"GET", c!"/pets", c!"getAllPets"), (c!"GET", c!"/pets/:id", c!"getPetByID"), (c!"POST", c!"/pets", c!"createPet"), (c!"DELETE", c!"/pets/:id", c!"deletePet")]

def petNames : List Str := [c!"getAllPets", c!"getPetByID", c!"createPet", c!"deletePet"]

/-- The custom function of the test. -/
def testHandleError : CustomFunc :=
  builderFunc petsTypes 1 (testPkg c!"5-custom-functions") c!"handleError" [.ignored, .statusCode, .expressionResult] handleErrorMapper

/-- tests/integration/5-custom-functions, and the operation ids of tests/integration/9-operation-ids, which has the same handlers. -/
theorem custom_function_test_passes :
    testPasses (testRoutes c!"5-custom-functions" false petsTypes petNames errorCalls [[0], [1, 2, 3, 4], [5, 2, 6], [1, 2, 7]])
      (testWorld c!"5-custom-functions" [.customFunc testHandleError] petRoutes)
      [(responseAt c!"/pets" c!"post" c!"400" c!"text/plain" ++ [c!"type"], some c!"string"),
       (responseAt c!"/pets/{id}" c!"get" c!"400" c!"text/plain" ++ [c!"type"], some c!"string"),
       (responseAt c!"/pets/{id}" c!"delete" c!"400" c!"text/plain" ++ [c!"type"], some c!"string"),
       ([c!"paths", c!"/pets", c!"get", c!"operationId"], some c!"getAllPets"), ([c!"paths", c!"/pets", c!"post", c!"operationId"], some c!"createPet"),
       ([c!"paths", c!"/pets/{id}", c!"get", c!"operationId"], some c!"getPetById"),
       ([c!"paths", c!"/pets/{id}", c!"delete", c!"operationId"], some c!"deletePet")] = true := by
  decide +kernel

/-! ### 6-openapi-format -/

def formatPkg : Str := testPkg c!"6-openapi-format"

def formatFields : List (StructField × GoType) :=
  [jsonField c!"String" c!"string,omitempty" goString, jsonField c!"Int" c!"int,omitempty" goInt] ++
  [c!"int8", c!"int16", c!"int32", c!"int64"].map (fun n => jsonField n (n ++ c!",omitempty") (.basic .sizedInt n)) ++
  [c!"uint", c!"uint8", c!"uint16", c!"uint32", c!"uint64"].map (fun n => jsonField n (n ++ c!",omitempty") (.basic .uint n)) ++
  [c!"float32", c!"float64"].map (fun n => jsonField n (n ++ c!",omitempty") (.basic .float n)) ++
  [jsonField c!"Bool" c!"bool,omitempty" (.basic .bool c!"bool"), jsonField c!"Byte" c!"byte,omitempty" (.basic .uint c!"byte"),
   jsonField c!"Rune" c!"rune,omitempty" (.basic .sizedInt c!"rune"), jsonField c!"Struct" c!"struct,omitempty" (.struct []),
   jsonField c!"Map" c!"map,omitempty" (.map goString goString), jsonField c!"Slice" c!"slice,omitempty" (.slice goString),
   jsonField c!"Any" c!"any,omitempty" .interface, jsonField c!"Time" c!"time,omitempty" (.named (some c!"time") c!"Time" []),
   jsonField c!"UUID" c!"uuid,omitempty" (.named (some c!"github.com/google/uuid") c!"UUID" [])]

def formatTypes : TypeEnv where
  loadable := fun _ => true
  underlying := fun p _ _ =>
    if p = formatPkg then .struct formatFields
    else if p = c!"time" then .struct [({ name := c!"wall", exported := false }, .basic .uint c!"uint64")]
    else .array 16 (.basic .uint c!"byte")
  files := fun _ => []
  nodeAt := fun _ _ => .other
  parseFloat := fun _ => none

def formatted (n type : Str) (format : Option Str) : List (List Str × Option Str) :=
  [([c!"properties", n, c!"type"], some type), ([c!"properties", n, c!"format"], format)]

/-- tests/integration/6-openapi-format. -/
theorem format_test_passes :
    testPasses (testRoutes c!"6-openapi-format" true formatTypes [] (fun _ => ginCall c!"JSON" [codeArg c!"200", typeArg (.named (some formatPkg) c!"TestStructFormatter" [])]) [[0]])
      (testWorld c!"6-openapi-format" [] [(c!"GET", c!"/", c!"setupRouter.func1")])
      (schemaHas c!"6-openapi-format.TestStructFormatter" (List.flatten
        [formatted c!"string" c!"string" none, formatted c!"int" c!"integer" (some c!"int32"), formatted c!"int8" c!"integer" (some c!"int8"),
         formatted c!"int16" c!"integer" (some c!"int16"), formatted c!"int32" c!"integer" (some c!"int32"), formatted c!"int64" c!"integer" (some c!"int64"),
         formatted c!"uint" c!"integer" (some c!"uint"), formatted c!"uint8" c!"integer" (some c!"uint8"), formatted c!"uint16" c!"integer" (some c!"uint16"),
         formatted c!"uint32" c!"integer" (some c!"uint32"), formatted c!"uint64" c!"integer" (some c!"uint64"),
         formatted c!"float32" c!"number" (some c!"float32"), formatted c!"float64" c!"number" (some c!"float64"), formatted c!"bool" c!"boolean" none,
         formatted c!"byte" c!"string" (some c!"byte"), formatted c!"rune" c!"string" (some c!"rune"),
         [([c!"properties", c!"struct", c!"type"], some c!"object"), ([c!"properties", c!"map", c!"type"], some c!"object"),
          ([c!"properties", c!"slice", c!"type"], some c!"array"), ([c!"properties", c!"any"], some c!"<json>"), ([c!"properties", c!"any", c!"type"], none),
          ([c!"properties", c!"time", c!"$ref"], some c!"#/components/schemas/time.Time"),
          ([c!"properties", c!"uuid", c!"$ref"], some c!"#/components/schemas/uuid.UUID")]]) ++
       schemaHas c!"time.Time" [([c!"type"], some c!"string"), ([c!"format"], some c!"date-time")] ++
       schemaHas c!"uuid.UUID" [([c!"type"], some c!"string"), ([c!"format"], some c!"uuid")]) = true := by
  decide +kernel

/-! ### 7-enums -/

def enumsPkg : Str := testPkg c!"7-enums"

def enumsTypes : TypeEnv where
  loadable := fun _ => true
  underlying := fun _ n _ =>
    if n = c!"TestStringEnum" then goString else if n = c!"TestIntEnum" then goInt
    else if n = c!"TestStructWithStringEnum" then .struct [jsonField c!"Enum" c!"enum,omitempty" (.named (some enumsPkg) c!"TestStringEnum" [])]
    else .struct [jsonField c!"Enum" c!"enum,omitempty" (.named (some enumsPkg) c!"TestIntEnum" [])]
  files := fun _ => [[.type none [{ name := c!"TestStringEnum" }],
    .const [{ typeIdent := some c!"TestStringEnum", values := [.lit c!"\"available\""] }, { typeIdent := some c!"TestStringEnum", values := [.lit c!"\"sold\""] }],
    .type none [{ name := c!"TestStructWithStringEnum" }], .type none [{ name := c!"TestIntEnum" }],
    .const [{ typeIdent := some c!"TestIntEnum", values := [.lit c!"1"] }, { typeIdent := some c!"TestIntEnum", values := [.lit c!"2"] }],
    .type none [{ name := c!"TestStructWithIntEnum" }]]]
  nodeAt := fun _ _ => .other
  parseFloat := fun _ => none

def enumsCalls : Nat → CallView
  | 0 => ginCall c!"JSON" [codeArg c!"200", typeArg (.named (some enumsPkg) c!"TestStringEnum" [])]
  | 1 => ginCall c!"JSON" [codeArg c!"200", typeArg (.named (some enumsPkg) c!"TestStructWithStringEnum" [])]
  | 2 => ginCall c!"JSON" [codeArg c!"200", typeArg (.named (some enumsPkg) c!"TestIntEnum" [])]
  | _ => ginCall c!"JSON" [codeArg c!"200", typeArg (.named (some enumsPkg) c!"TestStructWithIntEnum" [])]

/-- tests/integration/7-enums. -/
theorem enums_test_passes :
    testPasses (testRoutes c!"7-enums" false enumsTypes [c!"getStringEnum", c!"getStringStructWithEnum", c!"getIntEnum", c!"getIntStructWithEnum"] enumsCalls [[0], [1], [2], [3]])
      (testWorld c!"7-enums" [] [(c!"GET", c!"/enums/string", c!"getStringEnum"), (c!"GET", c!"/enums/string-struct", c!"getStringStructWithEnum"),
        (c!"GET", c!"/enums/int", c!"getIntEnum"), (c!"GET", c!"/enums/int-struct", c!"getIntStructWithEnum")])
      (schemaHas c!"7-enums.TestStringEnum" [([c!"type"], some c!"string"), ([c!"enum", c!"0"], some c!"available"), ([c!"enum", c!"1"], some c!"sold"), ([c!"enum", c!"2"], none)] ++
       schemaHas c!"7-enums.TestStructWithStringEnum" [([c!"properties", c!"enum", c!"$ref"], some c!"#/components/schemas/7-enums.TestStringEnum")] ++
       schemaHas c!"7-enums.TestIntEnum" [([c!"type"], some c!"integer"), ([c!"enum", c!"0"], some c!"1"), ([c!"enum", c!"1"], some c!"2"), ([c!"enum", c!"2"], none)] ++
       schemaHas c!"7-enums.TestStructWithIntEnum" [([c!"properties", c!"enum", c!"$ref"], some c!"#/components/schemas/7-enums.TestIntEnum")]) = true := by
  decide +kernel

/-! ### 8-headers-abort, 14-file-uploads -/

def headerCalls : Nat → CallView
  | 0 => ginCall c!"GetHeader" [textArg c!"X-Test-Header"]
  | 1 => ginCall c!"String" [codeArg c!"200", typeArg goString]
  | 2 => ginCall c!"Header" [textArg c!"X-Test-Header", textArg c!"test"]
  | 3 => ginCall c!"Status" [codeArg c!"200"]
  | 4 => ginCall c!"AbortWithError" [codeArg c!"400", typeArg (.basic .other c!"untyped nil")]
  | 5 => ginCall c!"AbortWithStatus" [codeArg c!"401"]
  | 6 => ginCall c!"AbortWithStatusJSON" [codeArg c!"402", typeArg ginH]
  | _ => ginCall c!"FormFile" [textArg c!"file"]

/-- tests/integration/8-headers-abort. -/
theorem headers_test_passes :
    testPasses (testRoutes c!"8-headers-abort" false petsTypes [c!"getHeader", c!"setHeader", c!"abortWithError", c!"abortWithStatus", c!"abortWithStatusJSON"] headerCalls
        [[0, 1], [2, 3], [4], [5], [6]])
      (testWorld c!"8-headers-abort" [] [(c!"GET", c!"/headers", c!"getHeader"), (c!"POST", c!"/headers", c!"setHeader"),
        (c!"GET", c!"/abort-with-error", c!"abortWithError"), (c!"GET", c!"/abort-with-status", c!"abortWithStatus"),
        (c!"GET", c!"/abort-with-status-json", c!"abortWithStatusJSON")])
      (paramHas c!"/headers" c!"get" c!"0" [([c!"name"], some c!"X-Test-Header"), ([c!"in"], some c!"header"), ([c!"schema", c!"type"], some c!"string")] ++
       [([c!"paths", c!"/headers", c!"post", c!"responses", c!"200", c!"headers", c!"X-Test-Header", c!"schema", c!"type"], some c!"string"),
        ([c!"paths", c!"/abort-with-error", c!"get", c!"responses", c!"400"], some c!"<json>"),
        ([c!"paths", c!"/abort-with-status", c!"get", c!"responses", c!"401"], some c!"<json>"),
        (responseAt c!"/abort-with-status-json" c!"get" c!"402" c!"application/json" ++ [c!"$ref"], some c!"#/components/schemas/gin.H")]) = true := by
  decide +kernel

/-- tests/integration/14-file-uploads. -/
theorem upload_test_passes :
    testPasses (testRoutes c!"14-file-uploads" false petsTypes [c!"uploadFile"] headerCalls [[7, 4, 3]])
      (testWorld c!"14-file-uploads" [] [(c!"POST", c!"/upload", c!"uploadFile")])
      (let file : List Str := [c!"paths", c!"/upload", c!"post", c!"requestBody", c!"content", c!"multipart/form-data", c!"schema", c!"properties", c!"file"]
       [(file ++ [c!"type"], some c!"string"), (file ++ [c!"format"], some c!"binary")]) = true := by
  decide +kernel

/-! ### 10-struct-name-collision-avoidance, 12-substitute-types -/

def collisionPkg : Str := testPkg c!"10-struct-name-collision-avoidance"

def collisionTypes : TypeEnv where
  loadable := fun _ => true
  underlying := fun p _ _ =>
    if p = collisionPkg ++ c!"/types" then .struct [jsonField c!"TopLevelField" c!"topLevelType" goString] else .struct [jsonField c!"NestedField" c!"nestedField" goString]
  files := fun _ => []
  nodeAt := fun _ _ => .other
  parseFloat := fun _ => none

def collisionCalls : Nat → CallView
  | 0 => ginCall c!"JSON" [codeArg c!"200", typeArg (.named (some (collisionPkg ++ c!"/types")) c!"TestType" [])]
  | _ => ginCall c!"JSON" [codeArg c!"200", typeArg (.named (some (collisionPkg ++ c!"/nested/types")) c!"TestType" [])]

/-- tests/integration/10-struct-name-collision-avoidance. -/
theorem collision_test_passes :
    testPasses (testRoutes c!"10-struct-name-collision-avoidance" false collisionTypes [c!"topLevelHandler", c!"nestedHandler"] collisionCalls [[0], [1]])
      (testWorld c!"10-struct-name-collision-avoidance" [] [(c!"GET", c!"/top-level", c!"topLevelHandler"), (c!"GET", c!"/nested", c!"nestedHandler")])
      (schemaHas c!"10-struct-name-collision-avoidance.types.TestType" [([c!"type"], some c!"object"), ([c!"properties", c!"topLevelType", c!"type"], some c!"string")] ++
       schemaHas c!"nested.types.TestType" [([c!"type"], some c!"object"), ([c!"properties", c!"nestedField", c!"type"], some c!"string")]) = true := by
  decide +kernel

/-- tests/integration/12-substitute-types. -/
theorem substitute_test_passes :
    testPasses (testRoutes c!"12-substitute-types" false petsTypes petNames errorCalls [[0], [1, 4], [5, 6], [1, 7]])
      (testWorld c!"12-substitute-types" [.typeMapping [(c!"github.com/ls6-events/astra/tests/petstore.Tag", { type := c!"string", format := c!"tag" })]] petRoutes)
      (schemaHas c!"petstore.Tag" [([c!"type"], some c!"string"), ([c!"format"], some c!"tag")]) = true := by
  decide +kernel

/-! ### 11-multi-content-types, 1-basic -/

def contentPkg : Str := testPkg c!"11-multi-content-types"

def contentTypes : TypeEnv where
  loadable := fun _ => true
  underlying := fun _ _ _ => .struct [({ name := c!"Test", tag := c!"json:\"json-test\" xml:\"xml-test\" yaml:\"yaml-test\"" }, goString)]
  files := fun _ => []
  nodeAt := fun _ _ => .other
  parseFloat := fun _ => none

def contentCalls : Nat → CallView
  | 0 => ginCall c!"JSON" [codeArg c!"200", typeArg (.named (some contentPkg) c!"MultiContentType" [])]
  | 1 => ginCall c!"XML" [codeArg c!"200", typeArg (.named (some contentPkg) c!"MultiContentType" [])]
  | _ => ginCall c!"YAML" [codeArg c!"200", typeArg (.named (some contentPkg) c!"MultiContentType" [])]

/-- tests/integration/11-multi-content-types. -/
theorem content_types_test_passes :
    testPasses (testRoutes c!"11-multi-content-types" false contentTypes [c!"getJSON", c!"getXML", c!"getYAML"] contentCalls [[0], [1], [2]])
      (testWorld c!"11-multi-content-types" [] [(c!"GET", c!"/json", c!"getJSON"), (c!"GET", c!"/xml", c!"getXML"), (c!"GET", c!"/yaml", c!"getYAML")])
      (schemaHas c!"11-multi-content-types.MultiContentType" [([], none)] ++
       schemaHas c!"11-multi-content-types.json.MultiContentType" [([c!"properties", c!"json-test"], some c!"<json>")] ++
       schemaHas c!"11-multi-content-types.xml.MultiContentType" [([c!"properties", c!"xml-test"], some c!"<json>")] ++
       schemaHas c!"11-multi-content-types.yaml.MultiContentType" [([c!"properties", c!"yaml-test"], some c!"<json>")]) = true := by
  decide +kernel

def fullConfig : Config :=
  { title := c!"Test Title", description := c!"Test Description", version := c!"0.0.1"
    contact := { name := c!"John Doe", url := c!"https://www.google.com", email := c!"john@doe.com" }
    license := { name := c!"MIT", url := c!"https://opensource.org/licenses/MIT" }
    secure := false, host := c!"localhost", basePath := c!"/base-path", port := 8000 }

/-- tests/integration/1-basic, the two tests of the configuration. -/
theorem config_test_passes :
    testPasses (testRoutes c!"1-basic" false petsTypes petNames errorCalls [[0], [1, 4], [5, 6], [1, 7]]) (testWorld c!"1-basic" [] petRoutes)
      [([c!"openapi"], some c!"3.0.0"), ([c!"info", c!"description"], some c!"Generated by astra"), ([c!"servers", c!"0", c!"url"], some c!"http://localhost:8000")] = true ∧
    testPasses (testRoutes c!"1-basic" false petsTypes petNames errorCalls [[0], [1, 4], [5, 6], [1, 7]])
      { fs := moduleFiles c!"github.com/ls6-events/astra\n", cwd := [c!"w"]
        st := { svc := newService [.ginInput (some (testInfos c!"1-basic" petRoutes)), .openApiOutput c!"./output.json", .config (some fullConfig)] } }
      [([c!"openapi"], some c!"3.0.0"), ([c!"info", c!"title"], some c!"Test Title"), ([c!"info", c!"version"], some c!"0.0.1"),
       ([c!"info", c!"contact", c!"name"], some c!"John Doe"), ([c!"info", c!"contact", c!"url"], some c!"https://www.google.com"),
       ([c!"info", c!"description"], some c!"Test Description"), ([c!"servers", c!"0", c!"url"], some c!"http://localhost:8000/base-path")] = true :=
  ⟨by decide +kernel, by decide +kernel⟩

/-! ### 15-bound-query-params -/

def boundPkg : Str := testPkg c!"15-bound-query-params"
def formField (name key : Str) (t : GoType) : StructField × GoType := ({ name := name, tag := c!"form:\"" ++ (key ++ c!"\"") }, t)

def boundTypes : TypeEnv where
  loadable := fun _ => true
  underlying := fun _ _ _ => .struct [formField c!"Name" c!"name" goString, formField c!"Tag" c!"tag" goString, formField c!"Limit" c!"limit" goInt,
    formField c!"Decimal" c!"decimal" (.basic .float c!"float64"), formField c!"Slice" c!"slice" (.slice goString), formField c!"Map" c!"map" (.map goString goString)]
  files := fun _ => []
  nodeAt := fun _ _ => .other
  parseFloat := fun _ => none

def boundCalls : Nat → CallView
  | 0 => ginCall c!"Query" [textArg c!"name"]
  | 1 => ginCall c!"Query" [textArg c!"tag"]
  | 2 => ginCall c!"Query" [textArg c!"limit"]
  | 3 => ginCall c!"Query" [textArg c!"decimal"]
  | 4 => ginCall c!"Status" [codeArg c!"200"]
  | _ => ginCall c!"BindQuery" [typeArg (.named (some boundPkg) c!"BoundQueryParams" [])]

def formParam (path : Str) (i name : Str) (vs : List (List Str × Option Str)) : List (List Str × Option Str) :=
  paramHas path c!"get" i ([([c!"name"], some name), ([c!"style"], some c!"form"), ([c!"explode"], none)] ++ vs)

/-- tests/integration/15-bound-query-params. -/
theorem bound_test_passes :
    testPasses (testRoutes c!"15-bound-query-params" false boundTypes [c!"inlineQueryParams", c!"boundQueryParams"] boundCalls [[0, 1, 2, 3, 4], [5, 4]])
      (testWorld c!"15-bound-query-params" [] [(c!"GET", c!"/inlineQueryParams", c!"inlineQueryParams"), (c!"GET", c!"/boundQueryParams", c!"boundQueryParams")])
      (List.flatten [formParam c!"/inlineQueryParams" c!"0" c!"decimal" [], formParam c!"/inlineQueryParams" c!"1" c!"limit" [],
        formParam c!"/inlineQueryParams" c!"2" c!"name" [], formParam c!"/inlineQueryParams" c!"3" c!"tag" [],
        formParam c!"/boundQueryParams" c!"0" c!"decimal" [([c!"schema", c!"type"], some c!"number"), ([c!"schema", c!"format"], some c!"float64")],
        formParam c!"/boundQueryParams" c!"1" c!"limit" [([c!"schema", c!"type"], some c!"integer"), ([c!"schema", c!"format"], some c!"int32")],
        paramHas c!"/boundQueryParams" c!"get" c!"2" [([c!"name"], some c!"map"), ([c!"style"], some c!"deepObject"), ([c!"explode"], some c!"true"),
          ([c!"schema", c!"type"], some c!"object"), ([c!"schema", c!"additionalProperties", c!"type"], some c!"string")],
        formParam c!"/boundQueryParams" c!"3" c!"name" [([c!"schema", c!"type"], some c!"string")],
        formParam c!"/boundQueryParams" c!"4" c!"slice" [([c!"schema", c!"type"], some c!"array"), ([c!"schema", c!"items", c!"type"], some c!"string")],
        formParam c!"/boundQueryParams" c!"5" c!"tag" [([c!"schema", c!"type"], some c!"string")]]) = true := by
  decide +kernel

end Astra.Props
