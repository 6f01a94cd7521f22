/-
The model against recorded YAML outputs: the snapshot that the project's CI compares with (tests/snapshot/petstore) and two of the examples. As
in Props/Recorded these are tests of the model. The YAML library is not modelled, so the tree of values that is handed to it is compared: the
recorded files are given as JSON text with the same keys and values in the same order.
-/
import Verif.Props.Recorded

namespace Astra.Props
open Astra.Spec

/-- A library that prints the tree for a YAML file as JSON. -/
def treeLib (routes : RouteEnv) : Lib :=
  { exampleLib with
    usesMain := fun _ => true
    parse := fun _ cs r => match parseRoute routes 5 cs r with | some x => x | none => (cs, .err [])
    choices := someChoices
    yamlText := fun j => .ok (marshal j) }

def moduleFiles (name : Str) : FS := [([c!"w"], .dir), ([c!"w", c!"main.go"], .file c!"package main"), ([c!"w", c!"go.mod"], .file (c!"module " ++ name))]

/-! ### tests/snapshot/petstore -/

def petPkg : Str := c!"github.com/ls6-events/astra/tests/petstore"
def snapPkg : Str := c!"github.com/ls6-events/astra/tests/snapshot/petstore"
def ginPkgPath : Str := c!"github.com/gin-gonic/gin"
def petNamed (n : Str) : GoType := .named (some petPkg) n []
def goInt64 : GoType := .basic .sizedInt c!"int64"

/-- The documentation of `gin.H`. -/
def ginFiles : List (List Decl) := [[.type (some c!"H is a shortcut for map[string]any\n") [{ name := c!"H" }]]]

def petsTypes : TypeEnv where
  loadable := fun p => p = petPkg ∨ p = snapPkg ∨ p = ginPkgPath
  underlying := fun _ n _ =>
    if n = c!"Tag" then .struct [jsonField c!"ID" c!"id" goInt64, jsonField c!"Name" c!"name" goString]
    else if n = c!"Pet" then .struct [jsonField c!"ID" c!"id" goInt64, jsonField c!"Name" c!"name" goString,
      jsonField c!"PhotoURLs" c!"photoUrls,omitempty" (.slice goString), jsonField c!"Status" c!"status,omitempty" goString,
      jsonField c!"Tags" c!"tags,omitempty" (.slice (petNamed c!"Tag"))]
    else if n = c!"PetDTO" then .struct [jsonField c!"Name" c!"name" goString,
      jsonField c!"PhotoURLs" c!"photoUrls,omitempty" (.slice goString), jsonField c!"Status" c!"status,omitempty" goString,
      jsonField c!"Tags" c!"tags,omitempty" (.slice (petNamed c!"Tag"))]
    else if n = c!"H" then .map goString .interface else .other
  files := fun p =>
    if p = ginPkgPath then ginFiles
    else if p = petPkg then [[.other], [.type (some c!"Tag the tag model.\n") [{ name := c!"Tag" }], .type (some c!"Pet the pet model.\n") [{ name := c!"Pet" }],
      .type (some c!"PetDTO the pet dto.\n") [{ name := c!"PetDTO" }]]]
    else []
  nodeAt := fun _ _ => .other
  parseFloat := fun _ => none

def snapId (pos : Nat) : NodeId := ⟨snapPkg, pos⟩

def petsObjects : List (Nat × Obj) :=
  [(1, ginMethod c!"JSON"), (2, ginMethod c!"Param"), (3, ginMethod c!"BindJSON"), (4, ginMethod c!"Status"),
   (5, { kind := .const (.int 200), name := c!"StatusOK", pkg := some c!"net/http" }),
   (6, { kind := .const (.int 400), name := c!"StatusBadRequest", pkg := some c!"net/http" }),
   (7, { kind := .const (.int 404), name := c!"StatusNotFound", pkg := some c!"net/http" }),
   (8, { kind := .var, name := c!"allPets", type := .slice (petNamed c!"Pet"), pkg := some snapPkg }),
   (9, { kind := .func { results := [goInt, .named none c!"error" []] }, name := c!"Atoi", pkg := some c!"strconv" }),
   (10, { kind := .typeName, name := c!"H", type := ginH, pkg := some ginPkgPath }),
   (11, { kind := .func { recv := some c!"error", results := [goString] }, name := c!"Error" }),
   (12, { kind := .func { results := [.pointer (petNamed c!"Pet"), .named none c!"error" []] }, name := c!"PetByID", pkg := some petPkg }),
   (13, { kind := .typeName, name := c!"int64", type := goInt64 }),
   (14, { kind := .var, name := c!"pet", type := .pointer (petNamed c!"Pet"), pkg := some snapPkg }),
   (15, { kind := .var, name := c!"pet", type := petNamed c!"PetDTO", pkg := some snapPkg }),
   (16, { kind := .func {}, name := c!"AddPet", pkg := some petPkg }),
   (17, { kind := .func {}, name := c!"RemovePet", pkg := some petPkg }),
   (18, { kind := .typeName, name := c!"Pet", type := petNamed c!"Pet", pkg := some petPkg })]

def statusNames : List (Str × Int) :=
  [(c!"StatusOK", 200), (c!"StatusBadRequest", 400), (c!"StatusNotFound", 404), (c!"StatusUnsupportedMediaType", 415)]

def moreStatusDefs : PkgInfo :=
  { defs := statusNames.map (fun x => (x.1, some { kind := .const (.int x.2), name := x.1, pkg := some c!"net/http" })) }

def petsText : ExprEnv :=
  { load := fun p => if p = snapPkg then .ok { objectOf := aget petsObjects } else if p = c!"net/http" then .ok moreStatusDefs else .ok {}
    pkgOf := fun _ => snapPkg
    imports := fun _ n => if n = c!"http" then some c!"net/http" else if n = c!"strconv" then some c!"strconv" else if n = c!"gin" then some ginPkgPath
      else if n = c!"petstore" then some petPkg else none }

def snapSel (x : Str) (pos : Nat) (sel : Str) : GoExpr := .selector (.ident (snapId 0) x) (snapId pos) sel
def errorCall : GoExpr × List GoExpr := (snapSel c!"err" 11 c!"Error", [])
def ginHLit : GoExpr := .composite (some (snapSel c!"gin" 10 c!"H"))
def idText : GoExpr := .lit (snapId 0) .string c!"\"id\""
def int64Call : GoExpr × List GoExpr := (.ident (snapId 13) c!"int64", [.ident (snapId 0) c!"id"])

def petsCalls : CallTexts
  | 0 => (snapSel c!"c" 1 c!"JSON", [snapSel c!"http" 5 c!"StatusOK", .ident (snapId 8) c!"allPets"])
  | 1 => (snapSel c!"strconv" 9 c!"Atoi", [.call (snapSel c!"c" 2 c!"Param") [idText]])
  | 2 => (snapSel c!"c" 2 c!"Param", [idText])
  | 3 => (snapSel c!"c" 1 c!"JSON", [snapSel c!"http" 6 c!"StatusBadRequest", ginHLit])
  | 4 => errorCall
  | 5 => (snapSel c!"petstore" 12 c!"PetByID", [.call int64Call.1 int64Call.2])
  | 6 => int64Call
  | 7 => (snapSel c!"c" 1 c!"JSON", [snapSel c!"http" 7 c!"StatusNotFound", ginHLit])
  | 8 => (snapSel c!"c" 1 c!"JSON", [snapSel c!"http" 5 c!"StatusOK", .ident (snapId 14) c!"pet"])
  | 9 => (snapSel c!"c" 3 c!"BindJSON", [.unary c!"&" (.ident (snapId 15) c!"pet")])
  | 10 => (snapSel c!"petstore" 16 c!"AddPet", [.composite (some (snapSel c!"petstore" 18 c!"Pet"))])
  | 11 => (snapSel c!"c" 1 c!"JSON", [snapSel c!"http" 5 c!"StatusOK", .ident (snapId 15) c!"pet"])
  | 12 => (snapSel c!"petstore" 17 c!"RemovePet", [.call int64Call.1 int64Call.2])
  | 13 => (snapSel c!"c" 4 c!"Status", [snapSel c!"http" 5 c!"StatusOK"])
  | _ => (.other (snapId 0), [])

/-- The bodies of `getAllPets`, `getPetByID`, `createPet` and `deletePet`. -/
def petsBody : FuncId → List Node
  | 0 => [.other [], .other [.call 0 []]]
  | 1 => [.other [.call 1 [.call 2 []]], .other [.other [.call 3 [.other [.call 4 []]]], .other []], .other [.call 5 [.call 6 []]],
      .other [.other [.call 7 [.other [.call 4 []]]], .other []], .other [.call 8 []]]
  | 2 => [.other [], .other [.call 9 []], .other [.other [.call 3 [.other [.call 4 []]]], .other []], .other [.call 10 [.other []]], .other [.call 11 []]]
  | 3 => [.other [.call 1 [.call 2 []]], .other [.other [.call 3 [.other [.call 4 []]]], .other []], .other [.call 12 [.call 6 []]], .other [.call 13 []]]
  | _ => []

def petsRoutes : RouteEnv where
  prog :=
    { types := petsTypes
      filePkg := fun _ => snapPkg
      funcs := fun f => { params := fun _ => ctxParams, body := petsBody f }
      view := fun file id => viewOf petsText file 2 (petsCalls id).1 (petsCalls id).2 }
  loadable p := p = snapPkg
  fileOf _ f := if f = c!"handlers.go" then some 0 else none
  decls _ := [⟨c!"getAllPets", 12, 0, []⟩, ⟨c!"getPetByID", 18, 1, []⟩, ⟨c!"createPet", 34, 2, []⟩, ⟨c!"deletePet", 52, 3, []⟩]
  lowerCamel s := if s = c!"getPetByID" then c!"getPetById" else s

def petsInfos : List RouteInfo :=
  [⟨c!"GET", c!"/pets", snapPkg ++ c!".getAllPets", c!"handlers.go", 12⟩, ⟨c!"GET", c!"/pets/:id", snapPkg ++ c!".getPetByID", c!"handlers.go", 18⟩,
   ⟨c!"POST", c!"/pets", snapPkg ++ c!".createPet", c!"handlers.go", 34⟩, ⟨c!"DELETE", c!"/pets/:id", snapPkg ++ c!".deletePet", c!"handlers.go", 52⟩]

def petsLib : Lib := { treeLib petsRoutes with usesMain := fun _ => false }

def petsWorld : World Proc :=
  { fs := moduleFiles c!"github.com/ls6-events/astra\n", cwd := [c!"w"]
    st := { svc := newService [.ginInput (some petsInfos), .openApiOutput c!"./out.yaml", .config (some { host := c!"localhost", port := 8000 })] } }

/-- tests/snapshot/petstore/snapshot.yaml, as JSON. -/
def petsRecordedPart1 : Str := List.flatten [
   c!"{\"openapi\":\"3.0.0\",\"info\":{\"title\":\"\",\"description\":\"Generated by astra\",\"contact\":{},\"license\":{\"name\":\"\"},\"version\":\"\"},",
   c!"\"servers\":[{\"url\":\"http://localhost:8000\"}],\"paths\":{\"/pets\":{\"get\":{\"operationId\":\"getAllPets\",\"responses\":{\"200\":{",
   c!"\"description\":\"\",\"content\":{\"application/json\":{\"schema\":{\"type\":\"array\",\"items\":{",
   c!"\"$ref\":\"#/components/schemas/petstore.Pet\"}}}}}}},\"post\":{\"operationId\":\"createPet\",\"requestBody\":{\"content\":{\"application/json\":{",
   c!"\"schema\":{\"$ref\":\"#/components/schemas/petstore.PetDTO\"}}}},\"responses\":{\"200\":{\"description\":\"\",\"content\":{\"application/json\":{",
   c!"\"schema\":{\"$ref\":\"#/components/schemas/petstore.PetDTO\"}}}},\"400\":{\"description\":\"\",\"content\":{\"application/json\":{\"schema\":{",
   c!"\"$ref\":\"#/components/schemas/gin.H\"}}}}}}},\"/pets/{id}\":{\"get\":{\"operationId\":\"getPetById\",\"parameters\":[{",
   c!"\"name\":\"id\",\"in\":\"path\",\"required\":true,\"schema\":{\"type\":\"string\"}}],\"responses\":{\"200\":{\"description\":\"\",\"content\":{",
   c!"\"application/json\":{\"schema\":{\"$ref\":\"#/components/schemas/petstore.Pet\"}}}},\"400\":{\"description\":\"\",\"content\":{",
   c!"\"application/json\":{\"schema\":{\"$ref\":\"#/components/schemas/gin.H\"}}}},\"404\":{\"description\":\"\",\"content\":{\"application/json\":{",
   c!"\"schema\":{\"$ref\":\"#/components/schemas/gin.H\"}}}}}},\"delete\":{\"operationId\":\"deletePet\",\"parameters\":[{",
   c!"\"name\":\"id\",\"in\":\"path\",\"required\":true,\"schema\":{\"type\":\"string\"}}],\"responses\":{\"200\":{\"description\":\"\"},\"400\":{",
   c!"\"description\":\"\",\"content\":{\"application/json\":{\"schema\":{\"$ref\":\"#/components/schemas/gin.H\"}}}}}}}},\"components\":{\"schemas\":{",
   c!"\"gin.H\":{\"type\":\"object\",\"additionalProperties\":{},\"description\":\"H is a shortcut for map[string]any\"},\"petstore.Pet\":{",
   c!"\"type\":\"object\",\"properties\":{\"id\":{\"type\":\"integer\",\"format\":\"int64\"},\"name\":{\"type\":\"string\"},\"photoUrls\":{",
   c!"\"type\":\"array\",\"items\":{\"type\":\"string\"}},\"status\":{\"type\":\"string\"},\"tags\":{\"type\":\"array\",\"items\":{",
   c!"\"$ref\":\"#/components/schemas/petstore.Tag\"}}},\"description\":\"Pet the pet model.\"},\"petstore.PetDTO\":{",
   c!"\"type\":\"object\",\"properties\":{\"name\":{\"type\":\"string\"},\"photoUrls\":{\"type\":\"array\",\"items\":{\"type\":\"string\"}},\"status\":{",
   c!"\"type\":\"string\"},\"tags\":{\"type\":\"array\",\"items\":{\"$ref\":\"#/components/schemas/petstore.Tag\"}}},",
   c!"\"description\":\"PetDTO the pet dto.\"},\"petstore.Tag\":{\"type\":\"object\",\"properties\":{\"id\":{\"type\":\"integer\",\"format\":\"int64\"},",
   c!"\"name\":{\"type\":\"string\"}},\"description\":\"Tag the tag model.\"}}}}"]

/-- The parts together. -/
def petsRecorded : Str := petsRecordedPart1

/-- The run of the snapshot test hands the recorded tree to the YAML library. -/
theorem pets_run_writes_recorded :
    (Astra.parseAll petsLib c!"/w" noFaults petsWorld).2 = .ok () ∧
    (Astra.parseAll petsLib c!"/w" noFaults petsWorld).1.fs.look [c!"w", c!"out.yaml"] = some (.file petsRecorded) :=
  ⟨by decide +kernel, look_of_holdsText (by decide +kernel)⟩

/-! ### examples/with-multi-content-types -/

def multiPkg : Str := c!"withmulticontenttypes/types"
def multiNamed (n : Str) : GoType := .named (some multiPkg) n []

/-- A field tagged `json:"…" yaml:"…"`. -/
def bothField (name json yaml : Str) (t : GoType) : StructField × GoType :=
  ({ name := name, tag := jsonOnly json ++ (c!" yaml:\"" ++ (yaml ++ c!"\"")) }, t)

def operationSpec (v : Str) : ConstSpec := { typeIdent := some c!"OperationType", values := [.lit v] }

def multiTypes : TypeEnv where
  loadable := fun p => p = multiPkg ∨ p = c!"time" ∨ p = ginPkgPath ∨ p = c!"main"
  underlying := fun _ n _ =>
    if n = c!"Author" then .struct [bothField c!"ID" c!"id" c!"id" goInt, bothField c!"FirstName" c!"first_name" c!"firstName" goString,
      bothField c!"LastName" c!"last_name" c!"lastName" goString]
    else if n = c!"Comment" then .struct [bothField c!"ID" c!"id" c!"id" goInt, bothField c!"Body" c!"body" c!"body" goString,
      bothField c!"Author" c!"author" c!"author" (multiNamed c!"Author")]
    else if n = c!"OperationType" then goString
    else if n = c!"Operation" then .struct [bothField c!"Type" c!"operation" c!"operation" (multiNamed c!"OperationType"),
      bothField c!"EntityType" c!"entity_type" c!"entityType" goString, bothField c!"EntityID" c!"entity_id" c!"entityID" goInt]
    else if n = c!"PostID" then .struct [({ name := c!"ID", tag := c!"json:\"id\" yaml:\"id\" uri:\"postID\" binding:\"required\"" }, goInt)]
    else if n = c!"Post" then .struct [({ name := c!"PostID", embedded := true }, multiNamed c!"PostID"),
      bothField c!"Name" c!"name" c!"name" goString, bothField c!"Body" c!"body" c!"body" goString,
      bothField c!"PublishedAt" c!"published_at" c!"publishedAt" (.named (some c!"time") c!"Time" []),
      bothField c!"Author" c!"author" c!"author" (multiNamed c!"Author"),
      bothField c!"Comments" c!"comments" c!"comments" (.slice (multiNamed c!"Comment"))]
    else if n = c!"PostDTO" then .struct [bothField c!"Name" c!"name" c!"name" goString, bothField c!"Body" c!"body" c!"body" goString,
      bothField c!"AuthorID" c!"author_id" c!"authorID" goInt]
    else if n = c!"Time" then .struct [({ name := c!"wall", exported := false }, .basic .uint c!"uint64")]
    else if n = c!"H" then .map goString .interface else .other
  files := fun p =>
    if p = c!"time" then [[.type (some timeDoc) [{ name := c!"Time" }]]]
    else if p = ginPkgPath then ginFiles
    else if p = multiPkg then [[.type none [{ name := c!"Author" }]], [.type none [{ name := c!"Comment" }]], [.type none [{ name := c!"Error" }]],
      [.type none [{ name := c!"OperationType" }], .const [operationSpec c!"\"create\"", operationSpec c!"\"update\"", operationSpec c!"\"delete\""],
        .type none [{ name := c!"Operation" }]],
      [.type none [{ name := c!"PostID" }], .type none [{ name := c!"Post" }], .type none [{ name := c!"PostDTO" }]]]
    else []
  nodeAt := fun _ _ => .other
  parseFloat := fun _ => none

def multiFunc (name result : Str) : Obj := { kind := .func { results := [multiNamed result] }, name := name, pkg := some c!"main" }

def multiObjects : List (Nat × Obj) :=
  [(1, ginMethod c!"JSON"), (2, ginMethod c!"String"), (3, ginMethod c!"ContentType"), (4, ginMethod c!"ShouldBindJSON"),
   (5, ginMethod c!"ShouldBindYAML"), (6, ginMethod c!"ShouldBindUri"), (7, ginMethod c!"YAML"),
   (8, { kind := .const (.int 200), name := c!"StatusOK", pkg := some c!"net/http" }),
   (9, { kind := .const (.int 400), name := c!"StatusBadRequest", pkg := some c!"net/http" }),
   (10, { kind := .const (.int 415), name := c!"StatusUnsupportedMediaType", pkg := some c!"net/http" }),
   (11, multiFunc c!"createOperation" c!"Operation"), (12, multiFunc c!"updateOperation" c!"Operation"), (13, multiFunc c!"deleteOperation" c!"Operation"),
   (14, multiFunc c!"post" c!"Post"),
   (15, { kind := .var, name := c!"posts", type := .slice (multiNamed c!"Post"), pkg := some c!"main" }),
   (16, { kind := .var, name := c!"postDTO", type := multiNamed c!"PostDTO", pkg := some c!"main" }),
   (17, { kind := .var, name := c!"postURI", type := multiNamed c!"PostID", pkg := some c!"main" }),
   (18, { kind := .typeName, name := c!"H", type := ginH, pkg := some ginPkgPath })]

def multiText : ExprEnv :=
  { load := fun p => if p = c!"main" then .ok { objectOf := aget multiObjects } else if p = c!"net/http" then .ok moreStatusDefs else .ok {}
    pkgOf := fun _ => c!"main"
    imports := fun _ n => if n = c!"http" then some c!"net/http" else if n = c!"types" then some multiPkg else if n = c!"gin" then some ginPkgPath
      else if n = c!"time" then some c!"time" else none
    astObj := fun id => if id = mainId 11 then some (some (.func 11)) else if id = mainId 12 then some (some (.func 12))
      else if id = mainId 13 then some (some (.func 13)) else if id = mainId 14 then some (some (.func 14)) else none }

def mainSel (x : Str) (pos : Nat) (sel : Str) : GoExpr := .selector (.ident (mainId 0) x) (mainId pos) sel
def okText : GoExpr := mainSel c!"http" 8 c!"StatusOK"
def uriArg : List GoExpr := [.ident (mainId 17) c!"postURI"]
def createOp : GoExpr := .ident (mainId 11) c!"createOperation"
def updateOp : GoExpr := .ident (mainId 12) c!"updateOperation"
def deleteOp : GoExpr := .ident (mainId 13) c!"deleteOperation"
def postOf : GoExpr := .ident (mainId 14) c!"post"

def multiCalls : CallTexts
  | 0 => (mainSel c!"c" 3 c!"ContentType", [])
  | 1 => (mainSel c!"c" 4 c!"ShouldBindJSON", [.unary c!"&" (.ident (mainId 16) c!"postDTO")])
  | 2 => (mainSel c!"c" 2 c!"String", [mainSel c!"http" 9 c!"StatusBadRequest", strLit c!"Invalid post"])
  | 3 => (createOp, [])
  | 4 => (mainSel c!"c" 1 c!"JSON", [okText, .call createOp []])
  | 5 => (mainSel c!"c" 5 c!"ShouldBindYAML", [.unary c!"&" (.ident (mainId 16) c!"postDTO")])
  | 6 => (mainSel c!"c" 7 c!"YAML", [okText, .call createOp []])
  | 7 => (mainSel c!"c" 2 c!"String", [mainSel c!"http" 10 c!"StatusUnsupportedMediaType", strLit c!"unsupported media type"])
  | 8 => (mainSel c!"c" 6 c!"ShouldBindUri", uriArg)
  | 9 => (mainSel c!"c" 2 c!"String", [mainSel c!"http" 9 c!"StatusBadRequest", strLit c!"cannot bind uri"])
  | 10 => (deleteOp, uriArg)
  | 11 => (mainSel c!"c" 1 c!"JSON", [okText, .call deleteOp uriArg])
  | 12 => (mainSel c!"c" 7 c!"YAML", [okText, .call deleteOp uriArg])
  | 13 => (postOf, uriArg)
  | 14 => (mainSel c!"c" 1 c!"JSON", [okText, .call postOf uriArg])
  | 15 => (mainSel c!"c" 7 c!"YAML", [okText, .call postOf uriArg])
  | 16 => (updateOp, uriArg)
  | 17 => (mainSel c!"c" 1 c!"JSON", [okText, .call updateOp uriArg])
  | 18 => (mainSel c!"c" 7 c!"YAML", [okText, .call updateOp uriArg])
  | 19 => (mainSel c!"c" 1 c!"JSON", [okText, .ident (mainId 15) c!"posts"])
  | 20 => (mainSel c!"c" 7 c!"YAML", [okText, .ident (mainId 15) c!"posts"])
  | 21 => (mainSel c!"c" 1 c!"JSON", [.lit (mainId 0) .int c!"200", .composite (some (mainSel c!"gin" 18 c!"H"))])
  | _ => (.other (mainId 0), [])

/-- `if err != nil { c.String(…); return }` -/
def onError (id : Nat) : Node := .other [.other [.call id []], .other []]

/-- The bodies of `GetPosts`, `GetPost`, `CreatePost`, `UpdatePost`, `DeletePost` and of the literal in `main`. -/
def multiBody : FuncId → List Node
  | 0 => [.other [.call 0 [], .other [.other [.call 19 []], .other [.call 20 []], .other [.call 7 []]]]]
  | 1 => [.other [], .other [.call 8 []], onError 9,
      .other [.call 0 [], .other [.other [.call 14 [.call 13 []]], .other [.call 15 [.call 13 []]], .other [.call 7 []]]]]
  | 2 => [.other [.call 0 [], .other [.other [.other [], .other [.call 1 []], onError 2, .other [.call 4 [.call 3 []]]],
      .other [.other [], .other [.call 5 []], onError 2, .other [.call 6 [.call 3 []]]], .other [.call 7 []]]]]
  | 3 => [.other [], .other [.call 8 []], onError 9,
      .other [.call 0 [], .other [.other [.other [], .other [.call 1 []], onError 2, .other [.call 17 [.call 16 []]]],
        .other [.other [], .other [.call 5 []], onError 2, .other [.call 18 [.call 16 []]]], .other [.call 7 []]]]]
  | 4 => [.other [], .other [.call 8 []], onError 9,
      .other [.call 0 [], .other [.other [.call 11 [.call 10 []]], .other [.call 12 [.call 10 []]], .other [.call 7 []]]]]
  | 5 => [.other [.call 21 [.other []]]]
  | _ => []

def multiRoutes : RouteEnv where
  prog :=
    { types := multiTypes
      filePkg := fun _ => c!"main"
      funcs := fun f => { params := fun _ => if f ≤ 5 then ctxParams else [], body := multiBody f }
      view := fun file id => viewOf multiText file 2 (multiCalls id).1 (multiCalls id).2 }
  loadable p := p = c!"main"
  fileOf _ f := aget postsFiles f
  decls
    | 0 => [⟨c!"GetPosts", 35, 0, []⟩]
    | 1 => [⟨c!"post", 10, 14, []⟩, ⟨c!"GetPost", 24, 1, []⟩]
    | 2 => [⟨c!"createOperation", 10, 11, []⟩, ⟨c!"CreatePost", 18, 2, []⟩]
    | 3 => [⟨c!"updateOperation", 9, 12, []⟩, ⟨c!"UpdatePost", 17, 3, []⟩]
    | 4 => [⟨c!"deleteOperation", 9, 13, []⟩, ⟨c!"DeletePost", 17, 4, []⟩]
    | 5 => [⟨c!"main", 10, 6, [.mk 19 5 []]⟩]
    | _ => []
  lowerCamel := lowerFirst

def multiInfos : List RouteInfo :=
  [⟨c!"GET", c!"/posts", c!"main.GetPosts", c!"getPosts.go", 35⟩, ⟨c!"GET", c!"/posts/:id", c!"main.GetPost", c!"getPost.go", 24⟩,
   ⟨c!"GET", c!"/health", c!"main.main.func1", c!"main.go", 19⟩, ⟨c!"POST", c!"/posts", c!"main.CreatePost", c!"createPost.go", 18⟩,
   ⟨c!"PUT", c!"/posts/:id", c!"main.UpdatePost", c!"updatePost.go", 17⟩, ⟨c!"DELETE", c!"/posts/:id", c!"main.DeletePost", c!"deletePost.go", 17⟩]

def multiLib : Lib := treeLib multiRoutes

def multiWorld : World Proc :=
  { fs := moduleFiles c!"withmulticontenttypes\n", cwd := [c!"w"]
    st := { svc := newService [.ginInput (some multiInfos), .openApiOutput c!"out.yaml",
      .config (some { title := c!"Example API", version := c!"1.0.0", host := c!"localhost", port := 8000 })] } }

/-- examples/with-multi-content-types/openapi.generated.yaml, as JSON. -/
def multiRecordedPart1 : Str := List.flatten [
   c!"{\"openapi\":\"3.0.0\",\"info\":{\"title\":\"Example API\",\"description\":\"Generated by astra\",\"contact\":{},\"license\":{\"name\":\"\"},",
   c!"\"version\":\"1.0.0\"},\"servers\":[{\"url\":\"http://localhost:8000\"}],\"paths\":{\"/health\":{\"get\":{\"responses\":{\"200\":{",
   c!"\"description\":\"\",\"content\":{\"application/json\":{\"schema\":{\"$ref\":\"#/components/schemas/gin.H\"}}}}}}},\"/posts\":{\"get\":{",
   c!"\"operationId\":\"getPosts\",\"responses\":{\"200\":{\"description\":\"\",\"content\":{\"application/json\":{\"schema\":{\"type\":\"array\",\"items\":{",
   c!"\"$ref\":\"#/components/schemas/types.json.Post\"}}},\"application/yaml\":{\"schema\":{\"type\":\"array\",\"items\":{",
   c!"\"$ref\":\"#/components/schemas/types.yaml.Post\"}}}}},\"415\":{\"description\":\"\",\"content\":{\"text/plain\":{\"schema\":{",
   c!"\"type\":\"string\"}}}}}},\"post\":{\"operationId\":\"createPost\",\"requestBody\":{\"content\":{\"application/json\":{\"schema\":{",
   c!"\"$ref\":\"#/components/schemas/types.json.PostDTO\"}},\"application/yaml\":{\"schema\":{",
   c!"\"$ref\":\"#/components/schemas/types.yaml.PostDTO\"}}}},\"responses\":{\"200\":{\"description\":\"\",\"content\":{\"application/json\":{",
   c!"\"schema\":{\"$ref\":\"#/components/schemas/types.json.Operation\"}},\"application/yaml\":{\"schema\":{",
   c!"\"$ref\":\"#/components/schemas/types.yaml.Operation\"}}}},\"400\":{\"description\":\"\",\"content\":{\"text/plain\":{\"schema\":{",
   c!"\"type\":\"string\"}}}},\"415\":{\"description\":\"\",\"content\":{\"text/plain\":{\"schema\":{\"type\":\"string\"}}}}}}},\"/posts/{id}\":{\"get\":{",
   c!"\"operationId\":\"getPost\",\"parameters\":[{\"name\":\"id\",\"in\":\"path\",\"required\":true,\"schema\":{\"type\":\"string\"}}],\"responses\":{\"200\":{",
   c!"\"description\":\"\",\"content\":{\"application/json\":{\"schema\":{\"$ref\":\"#/components/schemas/types.json.Post\"}},\"application/yaml\":{",
   c!"\"schema\":{\"$ref\":\"#/components/schemas/types.yaml.Post\"}}}},\"400\":{\"description\":\"\",\"content\":{\"text/plain\":{\"schema\":{",
   c!"\"type\":\"string\"}}}},\"415\":{\"description\":\"\",\"content\":{\"text/plain\":{\"schema\":{\"type\":\"string\"}}}}}},\"put\":{",
   c!"\"operationId\":\"updatePost\",\"parameters\":[{\"name\":\"id\",\"in\":\"path\",\"required\":true,\"schema\":{\"type\":\"string\"}}],\"requestBody\":{",
   c!"\"content\":{\"application/json\":{\"schema\":{\"$ref\":\"#/components/schemas/types.json.PostDTO\"}},\"application/yaml\":{\"schema\":{",
   c!"\"$ref\":\"#/components/schemas/types.yaml.PostDTO\"}}}},\"responses\":{\"200\":{\"description\":\"\",\"content\":{\"application/json\":{",
   c!"\"schema\":{\"$ref\":\"#/components/schemas/types.json.Operation\"}},\"application/yaml\":{\"schema\":{",
   c!"\"$ref\":\"#/components/schemas/types.yaml.Operation\"}}}},\"400\":{\"description\":\"\",\"content\":{\"text/plain\":{\"schema\":{",
   c!"\"type\":\"string\"}}}},\"415\":{\"description\":\"\",\"content\":{\"text/plain\":{\"schema\":{\"type\":\"string\"}}}}}},\"delete\":{",
   c!"\"operationId\":\"deletePost\",\"parameters\":[{\"name\":\"id\",\"in\":\"path\",\"required\":true,\"schema\":{\"type\":\"string\"}}],\"responses\":{",
   c!"\"200\":{\"description\":\"\",\"content\":{\"application/json\":{\"schema\":{\"$ref\":\"#/components/schemas/types.json.Operation\"}},",
   c!"\"application/yaml\":{\"schema\":{\"$ref\":\"#/components/schemas/types.yaml.Operation\"}}}},\"400\":{\"description\":\"\",\"content\":{",
   c!"\"text/plain\":{\"schema\":{\"type\":\"string\"}}}},\"415\":{\"description\":\"\",\"content\":{\"text/plain\":{\"schema\":{\"type\":\"string\"}}}}}}}},",
   c!"\"components\":{\"schemas\":{\"gin.H\":{\"type\":\"object\",\"additionalProperties\":{},\"description\":\"H is a shortcut for map[string]any\"},",
   c!"\"time.Time\":{\"type\":\"string\",\"format\":\"date-time\",\"description\":\"A Time represents an instant in time with nanosecond precision.\\n",
   c!"\\nPrograms using times should typically store and pass them as values,\\n",
   c!"not pointers. That is, time variables and struct fields should be of\\ntype time.Time, not *time.Time.\\n\\n"]

def multiRecordedPart2 : Str := List.flatten [
   c!"A Time value can be used by multiple goroutines simultaneously except\\n",
   c!"that the methods GobDecode, UnmarshalBinary, UnmarshalJSON and\\nUnmarshalText are not concurrency-safe.\\n\\n",
   c!"Time instants can be compared using the Before, After, and Equal methods.\\n",
   c!"The Sub method subtracts two instants, producing a Duration.\\nThe Add method adds a Time and a Duration, producing a Time.\\n\\n",
   c!"The zero value of type Time is January 1, year 1, 00:00:00.000000000 UTC.\\n",
   c!"As this time is unlikely to come up in practice, the IsZero method gives\\n",
   c!"a simple way of detecting a time that has not been initialized explicitly.\\n\\n",
   c!"Each Time has associated with it a Location, consulted when computing the\\n",
   c!"presentation form of the time, such as in the Format, Hour, and Year methods.\\n",
   c!"The methods Local, UTC, and In return a Time with a specific location.\\n",
   c!"Changing the location in this way changes only the presentation; it does not\\n",
   c!"change the instant in time being denoted and therefore does not affect the\\ncomputations described in earlier paragraphs.\\n\\n",
   c!"Representations of a Time value saved by the GobEncode, MarshalBinary,\\n",
   c!"MarshalJSON, and MarshalText methods store the Time.Location's offset, but not\\n",
   c!"the location name. They therefore lose information about Daylight Saving Time.\\n\\n",
   c!"In addition to the required “wall clock” reading, a Time may contain an optional\\n",
   c!"reading of the current process's monotonic clock, to provide additional precision\\nfor comparison or subtraction.\\n",
   c!"See the “Monotonic Clocks” section in the package documentation for details.\\n\\n",
   c!"Note that the Go == operator compares not just the time instant but also the\\n",
   c!"Location and the monotonic clock reading. Therefore, Time values should not\\n",
   c!"be used as map or database keys without first guaranteeing that the\\n",
   c!"identical Location has been set for all values, which can be achieved\\n",
   c!"through use of the UTC or Local method, and that the monotonic clock reading\\n",
   c!"has been stripped by setting t = t.Round(0). In general, prefer t.Equal(u)\\n",
   c!"to t == u, since t.Equal uses the most accurate comparison available and\\n",
   c!"correctly handles the case when only one of its arguments has a monotonic\\nclock reading.\"},\"types.Comment\":{",
   c!"\"type\":\"object\",\"properties\":{\"author\":{\"$ref\":\"#/components/schemas/types.yaml.Author\"},\"body\":{\"type\":\"string\"},\"id\":{",
   c!"\"type\":\"integer\",\"format\":\"int32\"}}},\"types.OperationType\":{\"enum\":[\"create\",\"update\",\"delete\"],\"type\":\"string\"},",
   c!"\"types.json.Author\":{\"type\":\"object\",\"properties\":{\"first_name\":{\"type\":\"string\"},\"id\":{\"type\":\"integer\",\"format\":\"int32\"},",
   c!"\"last_name\":{\"type\":\"string\"}}},\"types.json.Operation\":{\"type\":\"object\",\"properties\":{\"entity_id\":{"]

def multiRecordedPart3 : Str := List.flatten [
   c!"\"type\":\"integer\",\"format\":\"int32\"},\"entity_type\":{\"type\":\"string\"},\"operation\":{",
   c!"\"$ref\":\"#/components/schemas/types.OperationType\"}}},\"types.json.Post\":{\"type\":\"object\",\"allOf\":[{",
   c!"\"$ref\":\"#/components/schemas/types.json.PostID\"},{\"properties\":{\"author\":{\"$ref\":\"#/components/schemas/types.json.Author\"},",
   c!"\"body\":{\"type\":\"string\"},\"comments\":{\"type\":\"array\",\"items\":{\"$ref\":\"#/components/schemas/types.Comment\"}},\"name\":{",
   c!"\"type\":\"string\"},\"published_at\":{\"$ref\":\"#/components/schemas/time.Time\"}}}]},\"types.json.PostDTO\":{\"type\":\"object\",\"properties\":{",
   c!"\"author_id\":{\"type\":\"integer\",\"format\":\"int32\"},\"body\":{\"type\":\"string\"},\"name\":{\"type\":\"string\"}}},\"types.json.PostID\":{",
   c!"\"type\":\"object\",\"properties\":{\"id\":{\"type\":\"integer\",\"format\":\"int32\"}}},\"types.uri.PostID\":{\"type\":\"object\",\"properties\":{",
   c!"\"postID\":{\"type\":\"integer\",\"format\":\"int32\"}}},\"types.yaml.Author\":{\"type\":\"object\",\"properties\":{\"firstName\":{\"type\":\"string\"},",
   c!"\"id\":{\"type\":\"integer\",\"format\":\"int32\"},\"lastName\":{\"type\":\"string\"}}},\"types.yaml.Operation\":{\"type\":\"object\",\"properties\":{",
   c!"\"entityID\":{\"type\":\"integer\",\"format\":\"int32\"},\"entityType\":{\"type\":\"string\"},\"operation\":{",
   c!"\"$ref\":\"#/components/schemas/types.OperationType\"}}},\"types.yaml.Post\":{\"type\":\"object\",\"allOf\":[{",
   c!"\"$ref\":\"#/components/schemas/types.yaml.PostID\"},{\"properties\":{\"author\":{\"$ref\":\"#/components/schemas/types.yaml.Author\"},",
   c!"\"body\":{\"type\":\"string\"},\"comments\":{\"type\":\"array\",\"items\":{\"$ref\":\"#/components/schemas/types.Comment\"}},\"name\":{",
   c!"\"type\":\"string\"},\"publishedAt\":{\"$ref\":\"#/components/schemas/time.Time\"}}}]},\"types.yaml.PostDTO\":{\"type\":\"object\",\"properties\":{",
   c!"\"authorID\":{\"type\":\"integer\",\"format\":\"int32\"},\"body\":{\"type\":\"string\"},\"name\":{\"type\":\"string\"}}},\"types.yaml.PostID\":{",
   c!"\"type\":\"object\",\"properties\":{\"id\":{\"type\":\"integer\",\"format\":\"int32\"}}}}}}"]

/-- The parts together. -/
def multiRecorded : Str := multiRecordedPart1 ++ multiRecordedPart2 ++ multiRecordedPart3

/-- The run of the example hands the recorded tree to the YAML library. -/
theorem multi_run_writes_recorded :
    (Astra.parseAll multiLib c!"/w" noFaults multiWorld).2 = .ok () ∧
    (Astra.parseAll multiLib c!"/w" noFaults multiWorld).1.fs.look [c!"w", c!"out.yaml"] = some (.file multiRecorded) :=
  ⟨by decide +kernel, look_of_holdsText (by decide +kernel)⟩

/-! ### examples/with-custom-type-mapping

The handlers make the calls of examples/with-swagger-ui. -/

def mappedPkg : Str := c!"withcustomtypemapping/types"
def nullString : GoType := .named (some c!"database/sql") c!"NullString" []

/-- The comment of `sql.NullString` in the standard library. -/
def nullStringDoc : Str := joinLines [
   c!"NullString represents a string that may be null.",
   c!"NullString implements the Scanner interface so",
   c!"it can be used as a scan destination:",
   c!"",
   c!"\tvar s NullString",
   c!"\terr := db.QueryRow(\"SELECT name FROM foo WHERE id=?\", id).Scan(&s)",
   c!"\t...",
   c!"\tif s.Valid {",
   c!"\t   // use s.String",
   c!"\t} else {",
   c!"\t   // NULL value",
   c!"\t}",
   c!""]

def mappingTypes : TypeEnv :=
  { postsTypes mappedPkg with
    loadable := fun p => (postsTypes mappedPkg).loadable p || p = c!"database/sql"
    underlying := fun p n args =>
      if n = c!"Author" then .struct [jsonField c!"ID" c!"id" goInt, jsonField c!"FirstName" c!"first_name" goString,
        jsonField c!"LastName" c!"last_name" goString, jsonField c!"TestArray" c!"test_array" (.array 5 goString),
        jsonField c!"TestMap" c!"test_map" (.map goString goInt)]
      else if n = c!"Post" then .struct [jsonField c!"ID" c!"id" goInt, jsonField c!"Name" c!"name" goString, jsonField c!"Body" c!"body" nullString,
        jsonField c!"PublishedAt" c!"published_at" (.named (some c!"time") c!"Time" []),
        jsonField c!"Author" c!"author" (.named (some mappedPkg) c!"Author" []),
        jsonField c!"Comments" c!"comments" (.slice (.named (some mappedPkg) c!"Comment" []))]
      else if n = c!"PostDTO" then .struct [jsonField c!"Name" c!"name" goString, jsonField c!"Body" c!"body" nullString,
        jsonField c!"AuthorID" c!"author_id" goInt]
      else if n = c!"NullString" then .struct [({ name := c!"String" }, goString), ({ name := c!"Valid" }, .basic .bool c!"bool")]
      else (postsTypes mappedPkg).underlying p n args
    files := fun p => if p = c!"database/sql" then [[.type (some nullStringDoc) [{ name := c!"NullString" }]]] else (postsTypes mappedPkg).files p }

def mappingLib : Lib := treeLib { postsRoutes mappedPkg with prog := { postsProg mappedPkg with types := mappingTypes } }

def mappingWorld : World Proc :=
  { fs := moduleFiles c!"withcustomtypemapping\n", cwd := [c!"w"]
    st := { svc := newService [.ginInput (some unstatic), .openApiOutput c!"out.yaml",
      .typeMapping [(c!"database/sql.NullString", { type := c!"string" }), (c!"withcustomtypemapping/types.Comment", { type := c!"string" })],
      .config (some { title := c!"Example API", version := c!"1.0.0", host := c!"localhost", port := 8000 })] } }

/-- examples/with-custom-type-mapping/openapi.generated.yaml, as JSON. -/
def mappingRecordedPart1 : Str := List.flatten [
   c!"{\"openapi\":\"3.0.0\",\"info\":{\"title\":\"Example API\",\"description\":\"Generated by astra\",\"contact\":{},\"license\":{\"name\":\"\"},",
   c!"\"version\":\"1.0.0\"},\"servers\":[{\"url\":\"http://localhost:8000\"}],\"paths\":{\"/health\":{\"get\":{\"responses\":{\"200\":{",
   c!"\"description\":\"\",\"content\":{\"application/json\":{\"schema\":{\"$ref\":\"#/components/schemas/gin.H\"}}}}}}},\"/posts\":{\"get\":{",
   c!"\"operationId\":\"getPosts\",\"responses\":{\"200\":{\"description\":\"\",\"content\":{\"application/json\":{\"schema\":{\"type\":\"array\",\"items\":{",
   c!"\"$ref\":\"#/components/schemas/types.Post\"}}}}}}},\"post\":{\"operationId\":\"createPost\",\"requestBody\":{\"content\":{\"application/json\":{",
   c!"\"schema\":{\"$ref\":\"#/components/schemas/types.PostDTO\"}}}},\"responses\":{\"200\":{\"description\":\"\",\"content\":{\"application/json\":{",
   c!"\"schema\":{\"$ref\":\"#/components/schemas/types.Post\"}}}},\"400\":{\"description\":\"\",\"content\":{\"text/plain\":{\"schema\":{",
   c!"\"type\":\"string\"}}}}}}},\"/posts/{id}\":{\"get\":{\"operationId\":\"getPost\",\"parameters\":[{",
   c!"\"name\":\"id\",\"in\":\"path\",\"required\":true,\"schema\":{\"type\":\"string\"}}],\"responses\":{\"200\":{\"description\":\"\",\"content\":{",
   c!"\"application/json\":{\"schema\":{\"$ref\":\"#/components/schemas/types.Post\"}}}},\"400\":{\"description\":\"\",\"content\":{\"text/plain\":{",
   c!"\"schema\":{\"type\":\"string\"}}}}}},\"put\":{\"operationId\":\"updatePost\",\"parameters\":[{",
   c!"\"name\":\"id\",\"in\":\"path\",\"required\":true,\"schema\":{\"type\":\"string\"}}],\"requestBody\":{\"content\":{\"application/json\":{\"schema\":{",
   c!"\"$ref\":\"#/components/schemas/types.PostDTO\"}}}},\"responses\":{\"200\":{\"description\":\"\",\"content\":{\"application/json\":{\"schema\":{",
   c!"\"$ref\":\"#/components/schemas/types.Post\"}}}},\"400\":{\"description\":\"\",\"content\":{\"text/plain\":{\"schema\":{\"type\":\"string\"}}}}}},",
   c!"\"delete\":{\"operationId\":\"deletePost\",\"parameters\":[{\"name\":\"id\",\"in\":\"path\",\"required\":true,\"schema\":{\"type\":\"string\"}}],",
   c!"\"responses\":{\"200\":{\"description\":\"\"},\"400\":{\"description\":\"\",\"content\":{\"text/plain\":{\"schema\":{\"type\":\"string\"}}}}}}}},",
   c!"\"components\":{\"schemas\":{\"gin.H\":{\"type\":\"object\",\"additionalProperties\":{},\"description\":\"H is a shortcut for map[string]any\"},",
   c!"\"sql.NullString\":{\"type\":\"string\",\"description\":\"NullString represents a string that may be null.\\n",
   c!"NullString implements the Scanner interface so\\nit can be used as a scan destination:\\n\\n\\tvar s NullString\\n",
   c!"\\terr := db.QueryRow(\\\"SELECT name FROM foo WHERE id=?\\\", id).Scan(\\u0026s)\\n\\t...\\n\\tif s.Valid {\\n\\t   // use s.String\\n",
   c!"\\t} else {\\n\\t   // NULL value\\n\\t}\"},\"time.Time\":{",
   c!"\"type\":\"string\",\"format\":\"date-time\",\"description\":\"A Time represents an instant in time with nanosecond precision.\\n\\n",
   c!"Programs using times should typically store and pass them as values,\\n",
   c!"not pointers. That is, time variables and struct fields should be of\\ntype time.Time, not *time.Time.\\n\\n",
   c!"A Time value can be used by multiple goroutines simultaneously except\\n",
   c!"that the methods GobDecode, UnmarshalBinary, UnmarshalJSON and\\nUnmarshalText are not concurrency-safe.\\n\\n",
   c!"Time instants can be compared using the Before, After, and Equal methods.\\n",
   c!"The Sub method subtracts two instants, producing a Duration.\\nThe Add method adds a Time and a Duration, producing a Time.\\n\\n",
   c!"The zero value of type Time is January 1, year 1, 00:00:00.000000000 UTC.\\n",
   c!"As this time is unlikely to come up in practice, the IsZero method gives\\n"]

def mappingRecordedPart2 : Str := List.flatten [
   c!"a simple way of detecting a time that has not been initialized explicitly.\\n\\n",
   c!"Each Time has associated with it a Location, consulted when computing the\\n",
   c!"presentation form of the time, such as in the Format, Hour, and Year methods.\\n",
   c!"The methods Local, UTC, and In return a Time with a specific location.\\n",
   c!"Changing the location in this way changes only the presentation; it does not\\n",
   c!"change the instant in time being denoted and therefore does not affect the\\ncomputations described in earlier paragraphs.\\n\\n",
   c!"Representations of a Time value saved by the GobEncode, MarshalBinary,\\n",
   c!"MarshalJSON, and MarshalText methods store the Time.Location's offset, but not\\n",
   c!"the location name. They therefore lose information about Daylight Saving Time.\\n\\n",
   c!"In addition to the required “wall clock” reading, a Time may contain an optional\\n",
   c!"reading of the current process's monotonic clock, to provide additional precision\\nfor comparison or subtraction.\\n",
   c!"See the “Monotonic Clocks” section in the package documentation for details.\\n\\n",
   c!"Note that the Go == operator compares not just the time instant but also the\\n",
   c!"Location and the monotonic clock reading. Therefore, Time values should not\\n",
   c!"be used as map or database keys without first guaranteeing that the\\n",
   c!"identical Location has been set for all values, which can be achieved\\n",
   c!"through use of the UTC or Local method, and that the monotonic clock reading\\n",
   c!"has been stripped by setting t = t.Round(0). In general, prefer t.Equal(u)\\n",
   c!"to t == u, since t.Equal uses the most accurate comparison available and\\n",
   c!"correctly handles the case when only one of its arguments has a monotonic\\nclock reading.\"},\"types.Author\":{",
   c!"\"type\":\"object\",\"properties\":{\"first_name\":{\"type\":\"string\"},\"id\":{\"type\":\"integer\",\"format\":\"int32\"},\"last_name\":{",
   c!"\"type\":\"string\"},\"test_array\":{\"maxLength\":5,\"type\":\"array\",\"items\":{\"type\":\"string\"}},\"test_map\":{",
   c!"\"type\":\"object\",\"additionalProperties\":{\"type\":\"integer\",\"format\":\"int32\"}}}},\"types.Comment\":{\"type\":\"string\"},\"types.Post\":{",
   c!"\"type\":\"object\",\"properties\":{\"author\":{\"$ref\":\"#/components/schemas/types.Author\"},\"body\":{",
   c!"\"$ref\":\"#/components/schemas/sql.NullString\"},\"comments\":{\"type\":\"array\",\"items\":{\"$ref\":\"#/components/schemas/types.Comment\"}},",
   c!"\"id\":{\"type\":\"integer\",\"format\":\"int32\"},\"name\":{\"type\":\"string\"},\"published_at\":{\"$ref\":\"#/components/schemas/time.Time\"}}},",
   c!"\"types.PostDTO\":{\"type\":\"object\",\"properties\":{\"author_id\":{\"type\":\"integer\",\"format\":\"int32\"},\"body\":{",
   c!"\"$ref\":\"#/components/schemas/sql.NullString\"},\"name\":{\"type\":\"string\"}}}}}}"]

/-- The parts together. -/
def mappingRecorded : Str := mappingRecordedPart1 ++ mappingRecordedPart2

/-- The run of the example hands the recorded tree to the YAML library. -/
theorem mapping_run_writes_recorded :
    (Astra.parseAll mappingLib c!"/w" noFaults mappingWorld).2 = .ok () ∧
    (Astra.parseAll mappingLib c!"/w" noFaults mappingWorld).1.fs.look [c!"w", c!"out.yaml"] = some (.file mappingRecorded) :=
  ⟨by decide +kernel, look_of_holdsText (by decide +kernel)⟩

end Astra.Props
