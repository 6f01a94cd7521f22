# Formal model of LS6-Events/astra in Lean 4: design

## 1. Layout

* `lean/Verif/Basic*.lean`  – Go library semantics used by the code (strings, maps, path, itoa, sort).
* `lean/Verif/Types.lean`   – the data types of `types.go`, `service.go`, `config.go`.
* `lean/Verif/Model/*.lean` – the model, one definition per Go function, each citing file and lines.
* `lean/Verif/Spec/*.lean`  – small specifications that do not use the model's helpers.
* `lean/Verif/Lemmas/*.lean`– helper lemmas.
* `lean/Verif/Props/*.lean` – the property theorems, each with a concrete non-vacuity `example`.
* `properties.jsonl`, `MANIFEST.json` – the properties in English, and for each the theorems, the status and what is missing.
* `AXIOMS.md` – the axioms of every theorem named in the manifest (`tools/axioms.py` writes it from `#print axioms`).
* `tools/citations.py` – checks that every definition of the model cites existing lines of `/repo`, and that a cited function spans
  exactly the cited lines.
* `seeded/` – wrong programs: `run.py` edits a scratch copy of the model and lists the theorems that fail; `LOG.jsonl` has the results. For most of the later edits `quick.py` was used, which stops at the first module that fails: their lists then name only the first failures, often a helper lemma or an `example`, and do not show that the theorem of the claim fails as well. An earlier version of `quick.py` also counted a build that ran out of memory as a failed proof; the three lines this concerned (S1418, S1473, S1505) were checked again and name theorems now. For 22 edits only an `example` is known to fail, which is a test and not a theorem, so that it is not settled whether a theorem notices them: S419, S452, S510, S511, S512, S535, S595, S626, S754, S761, S770, S808, S812, S852, S863, S871, S943, S1090, S1123, S1127, S1135, S1358.

## 2. Modelling conventions

* Go strings are `Str := List Char` (Unicode scalar values; invalid UTF-8 is not modelled).
* Go maps are association lists with first-match lookup; a map literal/`make` is `[]`; a nil map is identified
  with the empty one (only reads happen on nil maps in the modelled code). `range` over a map is a fold over
  *some permutation* of the entries: theorems about it quantify over all permutations.
* Integers are unbounded (`Int`, `Nat`); the code does no arithmetic on them except counting.
* Errors are values (`Res`: `ok`/`err`/`panic`), a nil dereference or an index out of range is `panic`, and
  non-termination is fuel exhaustion for every fuel (`none` for all fuels).
* Files: a finite map from paths to directory/file nodes; every system call consults an oracle which may make it
  fail, and a crash may occur before any call, or leave a prefix of a write, of a chain of directories or a part of a removed tree.
* Programs with effects are functions `Faults → World → World × Exit`: the fault oracle is indexed by the number of the call, so
  "for every fault oracle" is "for every combination of failing calls and every crash point".
* Concurrency: a goroutine is a little state machine whose atomic steps are the sections protected by the lock.
* Go syntax trees, type information and package loading (`go/ast`, `go/types`, `packages.Load`) are inputs of the
  model: theorems hold for every syntax tree, type environment and loader. We do not model the Go type checker.

## 3. Plan per property

| id | what is modelled | how it is proved |
|----|------------------|------------------|
| C01 | `CreateRoutes`, `createRoute`, deny functions as arbitrary predicates | induction on the router's route list |
| C02 | regexp `:[^\/]+|\*[^\/]+` scan as a state machine, `ExtractParamsFromPath` | refinement of a per-segment specification |
| C03 | `MapPathParams` | refinement of segment-wise map; identity law; coherence with C02 |
| C04 | path template + parameters of an operation | partial: equality for paths without `*`; counterexample |
| C05 | template function on paths | partial: injective on brace-free, star-free paths; counterexample |
| C06 | `convertRoute` | partial: equality with segment map if and only if no later parameter has one of five names; counterexample |
| C07 | `SplitHandlerPath` | list induction, round trip |
| C08 | `AddRoute`, `ReplaceRoute` | list induction |
| C09 | `ParseRoutes` at both levels, arbitrary analysis function | loop invariant; counterexample for duplicates and two inputs |
| C10 | `AddReturnType` | partial: monotone, present, no duplicates for homogeneous lists; counterexample |
| C11 | `AddComponent` | list induction, uniqueness invariant over all histories |
| C12 | `ContextFuncBuilder` | induction on the chain |
| C13 | method table of `parseFunction` | case analysis against an independent table |
| C14 | `parseFunction` on syntax trees | structural induction + fuel; fold of contributions |
| C15 | error/nil-route state of `parseFunction`, `Declaration.Value`, embedded field doc | counterexamples; partial: no panic for error-free handlers |
| C16 | `parseRoute` error handling | case analysis + C09 |
| C17 | fuel semantics of helper recursion | ranking function ⇒ terminates; cycle ⇒ diverges for all fuel |
| C18 | fuel semantics of `TypeTraverser.Result` | same as C17 |
| C19 | `Result` + component callback | invariant over traversal; partial |
| C20 | struct case of `Result` | induction over the translation relation; the fields and their order exactly (`struct_fields_exact`) |
| C21 | pointer case of `Result`, and the recorded types of a whole translation | induction on pointer depth and over the translation relation; partial: a named pointer type loses its name (counterexample) |
| C22 | `ParseResultToField` | structural recursion |
| C23 | enum extraction | list induction; exact criterion on the literals (`Spec/Literals.lean`), by comparing octal and decimal readings |
| C24 | `ParseStructTag` incl. tag lookup | case analysis against specification |
| C25 | `ExtractBindingTags` with arbitrary orders | set characterisation, permutation invariance |
| C26 | both conversion functions | case analysis for all strings |
| C27 | `componentToSchema` | induction; partial for embedded fields with counterexample |
| C28 | `componentToSchema` under permutations | permutation-invariance; partial (≥2 embedded, duplicate binding names) |
| C29 | components + refs | partial + counterexamples |
| C30 | collision-safe names | the names exactly (`schema_names_exact`, from the depth at which packages of one name differ), when two types share one (`schema_names_shared_iff`), injectivity if packages differ at a common depth; three counterexamples |
| C31 | same, with index panics | exactly when it panics (`schema_naming_panics_iff`); partial theorems for unique names and for two packages of a name; counterexample |
| C32 | `GetTypeMapping` memoisation | invariant |
| C33 | `Clean` | structural induction; partial for headers, counterexample |
| C34 | `HandleSubstituteTypes` | case analysis; partial; counterexample |
| C35 | pipeline as a trace-emitting program | induction over inputs/outputs |
| C36 | `Teardown` on the file system model | FS lemmas |
| C37 | `Setup` on the file system model | FS lemmas |
| C38 | service ↔ JSON tree codec incl. omitempty | structural induction |
| C39 | `Cache` with crash points | case analysis on crash points |
| C40 | pipeline composition | equality under side conditions; counterexamples |
| C41 | rebind functions | list induction; counterexample |
| C42 | Azure generate with oracle | invariants over crash points; counterexample |
| C43 | `setupTempMainPackage` | FS lemmas |
| C44 | builder | induction on setter sequences |
| C45–C49, C57–C59 | `Generate` of the OpenAPI output | folds over routes / lists |
| C50 | path computation with the captured variable | counterexample for the second run, partial for the first |
| C51 | heap of package nodes | refinement to a set of paths |
| C52 | interleaving of atomic sections | invariant over all schedules |
| C53 | load cache | state-machine invariant |
| C54 | `Get` | list induction |
| C55 | `populateTypeDocMap` | list induction |
| C56 | options | list induction |
| C60 | JSON output | equality |
| C61 | `mapFieldToSchema`, `mapParamToSchema`, element schemas | case analysis against a table of JSON Schema types; partial + counterexamples |
| C62 | struct case of `componentToSchema` | induction over the fields, membership in both directions |
| C63 | the loop over components and binding kinds | fold, membership in both directions |
| C64 | the whole run as a program on the file system model | footprint: an invariant of every system call, composed over the steps, for every fault oracle |
| C65 | `LoadPackageNoCache` | list induction over results and errors |
| C66 | `LoadPackage` with its global cache | state-machine invariant; counterexample for two working directories |
| C67 | `MapImportSpecs`, `FindImport` | list induction; partial + counterexamples |
| C68 | `populateTypeDocMap` on declarations | list induction, against the comments of the specs |
| C69 | `AddFile` | list induction |
| C70 | `Expression.Value`, `ExtractStatusCode`, `constant.String`, `strconv.Quote` | structural induction on expressions, fuel; partial + counterexamples; exact for literals |
| C71 | `Expression.Type`, `CallExpression.Type`, `ReturnType` | structural induction; partial + counterexamples |
| C72 | `Declaration.Value`, `FindDeclarationForNode` | case analysis; partial + counterexamples |
| C73 | `ExtractVarName` | induction on the selector chain |
| C74 | `CallExpression.Function`, `FindASTForType` | case analysis; partial + counterexamples |
| C75 | the call view given by the expression model, and the method table (C13) | composition of C13 with C70 and C71 |
| C76 | the whole run | composition of C01, C09, C33, C45, C49, C60 along the states of the pipeline |
| C77 | the whole run | each step, run without faults from a given state, succeeds in every orderly project and writes the same files (`Does`); composition along the pipeline |
| C78 | the whole run, several processes | every step under every fault keeps the project orderly and its module files (`run_keeps_order`); induction over the attempts; then C77 |
| C79 | the whole run | the files written in `Does` do not depend on the rest of the tree |
| C80 | the JSON encoding of an OpenAPI document (struct tags of outputs/openapi/types.go), `Generate`, the whole run | mutual induction over schemas against a key-by-key specification; the round trip of C39 for the text |
| C81 | the generator of the OpenAPI document with all choices of the runtime, the whole run | naming as a list of table writes that commute, sorting by distinct names is unique, path tables are extensional; the steps of a run agree state by state |
| C82 | the generator of the OpenAPI document, against a separate statement of the rules of the standard (`Spec/Standard.lean`) | invariants of all schemas by induction on types, of parameters, responses and names per route; the rules fail for disorderly services, shown by examples |
| C83 | the analysis of handlers, cleaning, the generator and the run, composed | the route after the analysis is the fold of the contributions of the calls (C14); each contribution is followed through cleaning (C33) and generation (C45–C48, C59) to the file (C76) |
| C84 | the path conversion of the OpenAPI output | equality with a segment-wise specification; joining segments is injective |
| C85 | the whole run with several gin inputs | the state of a route after n analyses of its handler, by induction on n (`Stage`); counting in the parameter list; a service with an empty second router as counterexample |
| C86 | the two readings of `omitempty` in the encoding of the document | the key-by-key specification of C80 for both forms; a tree is both forms iff nothing is empty; counterexamples |
| C87 | two whole runs on one service, with any change of the file system between them | the routes of the first run cover those found by the second, so `ReplaceRoute` never reaches the new ones; the last route of a path wins in the document; counterexample |
| C88 | `parseFunction` with arbitrary custom functions, and functions written with the builder | induction on the syntax tree; a route that a custom function returns is either the builder's or a new one, and only the caller's is kept; counterexamples |
| C89 | types, tags, components and schemas together, for a whole run; the rules of encoding/json and OpenAPI are specifications of their own (Spec/JsonDoc.lean) | the components that a run records are the definitions of the types of the program (invariant over all analyses); component by component to schemas; the name table is injective (C30); counterexamples |
| C90 | as C89, and the handler (C83) | every call of the handler is translated in every analysis, so its types are recorded; induction on the encoding of a value; counterexamples |
| C91 | as C90, for request bodies | as C90 |
| C92 | the JSON texts (encoding/json), written and read | the grammar of RFC 8259 as an inductive relation (Spec/JsonText.lean); induction on values, texts and derivations; the reader decides the grammar |
| C93 | `LoadCache`, `LoadCacheFromCustomPath` | as C92, and the footprint of the calls; counterexamples |
| C94 | a whole run with any routers, some entries of which have the same method and path | `ReplaceRoute` stops at the first of equal entries, so the last stays as found in every pass; it is the one the document takes; counterexample |
| C95 | the mapping as the generator reads it, for the service that `New` makes; the document of a whole run | the last custom entry is what the component shows; congruence of the whole generator in the entries for other names; counterexample |
| C96 | the comment map of a package; the description of every schema of the document of a whole run | invariant: every component is made from the definition of a type, with its comment; structural induction over schemas: nothing inside has a description; congruence of the whole generator in the comments of fields; counterexample |
| C97 | the flags of all parameters and headers of the document of a whole run; the marks of mandatory fields | invariant over every step of the analysis of handlers (also with custom functions that add nothing required); congruence of the whole generator in the marks; counterexample |
| C98 | the decoder of JSON objects and the load of the cache | exact characterisation of the member that stands for a key (letter case, repetitions), then congruence of all decoders |
| C99 | server URL, path templates, configuration builder; the whole run | a small model of how OpenAPI forms addresses; exact characterisation by the empty and the identical values; composition with the whole run; counterexample |
| C100 | parameter objects of the query; the whole run | small models of how the standard writes query parameters and of how gin reads them; round trip through any query; composition with the whole run |
| C101 | the text of the calls of a handler, from the syntax tree to the file | what the analysis knows of a call is the limit of `viewOf`, which exists for every text; induction over the text of the handler gives the contributions of C14; composition with C83 |
| C102 | the references of bodies and responses, and the entries of `components.schemas`, per format | every entry is the schema of some kind of the component (C63); by the names (C30) it is the right kind, or, if the name is shared, the schema is the same for all kinds of the component (congruence of `componentToSchema`); C61 and C62 say what it describes |
| C103 | `filepath.Rel`, `path.Base` and the search for the file of the handler | both paths split at their common start; walking up and down again by the path resolution of the file system; induction over the entries of the router |
| C104 | the components together with the types they were made of, over any sequence of translations; a service whose handlers send two instances of a generic type | invariant: every component describes a type of its name, and names are unique; the type of a use is forgotten but for its name; whole runs through C76 |
| C105 | the names and positions that the Go runtime gives to methods, literals in methods and generic instances; `splitHandlerPath`, `parseRoute`, whole runs | the name that is looked for is that of no declaration, so every analysis leaves all but the path parameters; whole runs through C76; method values through C103 |
| C106 | all functions at the line of a handler, in the declarations of the name that is looked for; whole runs | the analysis folds the effects of these functions; the operation of a run gathers them (as C83) |
| C107 | media type objects of forms; the whole run | small models of how the standard fills in a form and of how gin reads it; the last entry of a content type decides; composition with the whole run; false in general, witnesses |
| C108 | parameter objects in the header and header objects of responses; the whole run | small models of how the standard writes header parameters and of how gin reads them; round trip through any header; exact by name; composition with the whole run |
| C109 | path templates and path parameters of the document; the whole run | small models of how a client fills in a template and of how gin matches one pattern; the filled template fits the pattern in one way only; exact by wildcards; composition with the whole run |
| C110 | bound structs from the handler's source to the query parameters of the document; the whole run | a small model of how gin fills a struct from a query; the form schema of a struct has exactly the properties gin looks up; understanding of each value; composition with the whole run; lost structs and headers |
| C111 | structs sent or read as JSON, XML and YAML, from the handler's source to the schemas of the document; the whole run | small models of how the three encoders name fields; the schema of a struct for a format has exactly the properties its tags give; sharing of schema names between formats; composition with the whole run; lower-cased YAML keys and XML attributes |
| C112 | as C111 | no schema is made for a binding that a struct misses; which names refer to it; composition with the whole run; the positive part is that of C111 |
| C113 | `convertRoute`, the Azure output, the run of C77; how Azure Functions matches a request with a route is a small model in Spec/AzureRequests | by induction over the way gin matches the path: exact set of requests, exact set of routes; composition with the files of a run |
| C114 | the analysis of handlers, the OpenAPI output, the run of C83; the media types that gin answers with are a table in Spec/MediaTypes | case analysis of the documented methods, exact set of status codes, soundness of the media types, completeness for texts and for basic values; composition with a run |
| C115 | the analysis of handlers, the record of responses, the OpenAPI output, the run of C83 | the documented schema is that of one of the types sent; kinds of JSON separate the values of the others; composition with a run; a run that loses a slice type |

All properties are expressed in the model; none is "not applicable". Where the code does not have a property, the negation is proved
with a concrete witness, the positive part is proved under a named side condition, and the claim is marked partial.

## 4. Trusted base

1. **Lean 4.33.0's kernel.** No `native_decide`, no `bv_decide`, no `sorry`, no axioms of our own, no Mathlib module is imported.
   `decide +kernel` evaluates with the kernel's own reduction.
2. **Axioms**: per theorem in `AXIOMS.md`; all are among `propext`, `Classical.choice` and `Quot.sound`.
3. **The faithfulness of the model** to the Go source: the model is written by hand. Every definition cites its lines; the list of what is
   simplified follows.
4. **The specifications** in `lean/Verif/Spec` and the statements in `lean/Verif/Props`.

### 4.1 What is modelled, by file of the repository

| Go files | module of the model | outside the model |
|----------|---------------------|-------------------|
| types.go, config.go, formatTypes.go, accepted.go | Types, Config, TypeMapping | – |
| service.go, new.go, options.go, io.go, input.go, output.go, logger.go, listing.go, cache/, cli/cli.go, inputs/inputs.go, outputs/outputs.go | Service, Routes | the logger itself; only the level that is chosen and the step messages are kept |
| configBuilder.go | Config | – |
| routes.go, inputs/gin/createRoute(s).go, inputs/gin/parseRoutes.go | Routes, Pipeline, RelPath | gin's router and `runtime.FuncForPC` (the list of routes with handler name, file and line is an input); `filepath.Rel` is a parameter of the pipeline, which RelPath defines |
| inputs/gin/parseRoute.go, inputs/gin/parseFunction.go, contextFuncBuilder.go | Handler, ContextFunc | the syntax tree is an input; custom functions are arbitrary functions; `strcase.ToLowerCamel` is a parameter |
| safePushing.go, bindingTags.go, utils.go, substituteTypes.go, clean.go | SafePushing, BindingTags, Result, Clean | – |
| utils/ | Paths | – |
| astTraversal/type.go, docs.go, result.go, tags.go | TypeTraversal, Result, Tags | the type checker: `types.Type` values, constants and positions are inputs; `strconv.ParseFloat` is a parameter |
| astTraversal/expression.go, declaration.go, callExpression.go, literal.go, extractStatusCode.go, traverser.go, function.go | Expr, Handler | `TypesInfo` and the `Obj` links of the parser are inputs |
| astTraversal/packageManager.go, packageNode.go, fileNode.go, loadPackage.go | PackageManager, Expr | `packages.Load` is an arbitrary stateful function |
| outputs/openapi/ | OpenApi, OpenApiJson, Schema, OpenApiNames | how YAML prints a tree of values (layout, order of the keys, notation of texts and numbers); the choice made by the unstable sort and by `range` over maps is an input |
| outputs/json/, outputs/azureFunctions/ | Codec, Json, Paths, Pipeline | – |
| parse.go, setup.go, createRoutes.go, parseRoutes.go, clean.go, generate.go, teardown.go, dir.go, mainPackage.go, cache.go | Pipeline, FS, GoPath, Json, Codec | the YAML text of caches; see 4.2 |
| cli/astra/cmd/ | Pipeline | flag parsing by cobra (`root.go`, the flag definitions in `generate.go`) and `cli/astra/main.go` |
| errors.go, astTraversal/errors.go | – | errors are kept as values; only "does not exist" is told apart |
| astTraversal/testUtils.go, tests, examples | – | test code |

### 4.2 Simplifications that matter for reading the theorems

* The file system has no symbolic links, no permissions and no other processes; permissions and full disks appear as failures of calls.
  `File.Write` on a file that was removed after it was opened is dropped.
* `encoding/json` is modelled on characters: its escapes, indentation, number grammar and `omitempty`. The lists of a service are
  never nil when it is cached (`New` makes them, and a run without inputs or outputs stops before), so that they are written `[]`. Keys are read
  without regard to letter case; of two keys for one field the last counts (Go merges them; no written file has such).
* Floating-point numbers are kept as text, with a parameter for how Go prints them.
* The YAML library is a pair of parameters (writing and reading a cache) and a parameter that prints a tree of values as YAML. The tree of values of a document is modelled for both forms (C80, C86), its text for JSON.
  That yaml.v3 leaves out structs whose fields are all empty, where encoding/json does not, is modelled from its documentation.
* The choices that Go's runtime leaves open (map order, unstable sort) are parameters. Theorems that do not mention a choice hold for all.
* Source code under analysis does not change during a run: `parse` in `Lib` does not depend on the file tree. (Reading the user's source happens
  in `packages.Load`, which is outside the model.)
* `fullTypeMapping` is not stored between two OpenAPI outputs of one run; building it again gives the same map (C32).
* `os.Getwd` in setup.go does not fail (that of createRoute.go may, as part of `Lib.rel`). `sort.Slice` is any arrangement that
  is sorted and has the same elements.
* Method names are ASCII where they are put into lower case.
* Every function of the analysed program has a body.
* Fields are values, maps are not shared. In the code the header that `Bind` adds shares the map of its struct fields with the bodies of the same call, so
  that cleaning the body also cleans the entries inside the header (only the JSON output can show it; cleaning twice is harmless, `clean_idempotent`).
* After a failed analysis of a helper the model goes on with the file of the route; the code keeps the helper's file active. That matters only if two
  functions stand at the line of the route.

### 4.3 The model against recorded outputs

The kernel checks the theorems about the model, but not that the model is the code. Besides the citations, `Props/Recorded`,
`Props/RecordedTrees` and `Props/RecordedTests` compare the two: the repository contains files that the real program wrote, and the model writes the same ones. These
are tests, not proofs of properties; no claim of MANIFEST.json rests on them.

| Recorded file | Program | Compared |
|---|---|---|
| examples/with-swagger-ui/swaggerui/swagger.json | its handlers, types and options | every character |
| examples/with-cache/cache.json | same handlers, cache enabled | every character |
| examples/with-azure-functions/bindings/*/function.json (six files) | same handlers, Azure output | every character |
| tests/snapshot/petstore/snapshot.yaml (compared by the project's CI) | tests/snapshot/petstore/handlers.go | the tree given to the YAML library, with the order of keys |
| examples/with-multi-content-types/openapi.generated.yaml | its handlers and types: JSON and YAML bindings, embedded struct, enum | the tree |
| examples/with-custom-type-mapping/openapi.generated.yaml | its types and mapping: arrays, maps, mapped types | the tree |
| tests/integration, tests 1 to 12, 14 and 15 (run by the project's CI) | the programs of the tests | the assertions of the tests, on the file read back (`Props/RecordedTests`) |

Given are the calls, objects and types of the programs as the Go parser and type checker report them; the model computes everything from
there, in a run of the whole pipeline over a file system. tests/integration/13-middleware/output.json was not written by the code at the
pinned commit (it has `explode: true` for a string parameter, which `getQueryParamStyle` gives to objects only) and is not used.

## 5. What the proofs found in the code

Each item is a theorem with a concrete witness, or follows from one; the claim that has it is in brackets.

*Routing and paths*
* A catch-all `*name` becomes `{name*}` in the path but `name` in the parameter list [C04]. Paths with braces can collide [C05].
* Azure routes: a parameter named `a`, `al`, `alp`, `alph` or `alpha` after another wildcard is found inside the placeholder of that one; exactly these names corrupt the template [C06].
* Two routes of one method and path, and two gin inputs: the later analysis overwrites the first slot; with two inputs every route is analysed twice
  [C09], so that all its query parameters and headers are listed twice, even if the second router is empty [C85].
* A YAML document leaves out the schema of a parameter of type `any`, which makes the document invalid; the JSON document has it [C86].
* A second `Parse` on the same service documents every endpoint without parameters, body, responses, comment and operation id; the JSON output lists every endpoint twice [C87].
* If a custom function returns a route that is not the one of the builder (a changed copy, say), neither that route nor anything after it in the function reaches the document, though the comment says it is used instead; the check for responses is made on the copy. An error of a custom function is lost unless its call is the last node of the body [C88].
* The schema of a type does not always admit its JSON: a `byte` or `rune` is a number but documented as a string; `[]byte` is base64 text but documented as an array; nil pointers, slices and maps are `null`, which no schema admits; a type with declared constants is documented as an enumeration of them although it has other values; the option `string` of a json tag is ignored; a field that hides a field of an embedded struct must have the types of both; `MarshalJSON` is not looked at; nothing is documented for a body that is a Go array [C90, C91].
* The tag `json:"-,"` gives a field the name `-`, but the field is left out of the schema. The fields of an embedded struct with an unexported name are members for encoding/json but are left out of the schema; an embedded struct with a json tag is one member, but the schema lists its fields instead [C89].
* A named slice, array or map of structs that are tagged for JSON has a schema with an empty element schema [C89].
* Slices of slices, slices of maps, maps of slices, and structs without a name inside of slices and maps are described as arrays of arrays (objects, ...) only; the inner types are lost [C89].
* Handlers: a handler that panics the analysis stops the run; one that cannot be located as well [C16].

*Handler analysis*
* `AddReturnType` records duplicates once two different entries exist [C10].
* `Data` never succeeds because the mapper asserts a type that the step does not give [C13].
* A program built with `-trimpath` has source paths that are not absolute: the run stops with an error when the routes are created [C103].
* A type with the same tags for several formats has one schema, that of the last format in the order header, form, uri, json, xml, yaml. If it is made of types whose tags differ between formats, its references are those of the last format: in the project's own examples/with-multi-content-types/openapi.generated.yaml the JSON posts have comments whose authors are documented with their YAML names (`firstName` for `first_name`). Named slices and maps are always like that [C102].
* A context call in the arguments of a call whose function is not known, such as `string(c.Query("id"))` or `len(c.QueryArray("ids"))`, is not documented, and nothing is reported [C14, C101].
* After a call of a helper of another file whose analysis fails, for example because its last call is `panic(…)`, the active file is still that of the helper: the calls of the handler that follow are looked up in the wrong file, those of another package are not found and are not documented, and nothing is reported if other code follows [C101].
* Unresolvable arguments lead to a nil route that the next call dereferences [C15]; mutually recursive helpers do not terminate: the analysis of a handler in a circle of helpers never completes, see Props/HelperCycles.lean [C17].
* All instances of a generic type, and types of one name that are declared in different functions, share one schema: that of the first one analysed. `Page[Order]` is documented as `Page[User]` [C104].
* Handlers that are methods, function literals in methods or package variables, or instances of generic functions are not found: the part of the name after the package is `(*T)`, `T`, `glob` or `F[`. The run goes on without an error and the operation has only the parameters of the path. A method value, for which Go reports the file `<autogenerated>`, ends the creation of the routes with an error [C105].
* Handlers are found by line. Several function literals that begin in one line of one function are all taken for the handler of each of their routes, so that each operation shows what all of them do. A literal in the first line of the function around it is not looked at; the operation gets the name and comment of that function instead [C106].
* Recursive types without a name in between do not terminate; embedding in the same package can panic [C18].
* Named pointers and named collections of other packages' types get no component [C19, C21].
* Enums: only plain literals with explicit type are found; exactly these give the right list (`enum_values_exact`) [C23].
* Octal literals give another status code, hexadecimal ones none; string constants are documented with their quotes, cut at 72 characters; raw
  strings and escapes are not interpreted; constants of other packages are looked up by name among all definitions in map order [C70].
* Functions that shadow `len`, `new`, `make`, channel receives, conversions, index expressions and operators are not understood [C71].
* Reassigned variables, the second variable of a declaration with one call, declarations without value [C72].
* Methods and function values that get the context stop the analysis of the handler [C74].

*OpenAPI output*
* Hidden embedded fields are shown [C27]; two embedded fields or two fields of one name make the schema depend on map order [C28].
* `$ref`s to bindings that no component has; stale names from an earlier output in the same process [C29].
* Schema names collide, or the naming panics, for three packages of one name [C30, C31].
* Request and response headers are not cleaned of the temporary package name [C33]; `error` in struct fields is not substituted [C34].
* A response without schema loses its content type [C47]; of two bodies of one content type one is lost [C48].
* The document breaks rules of the OpenAPI standard: operations without responses, catch-all parameters, parameters read twice, structs bound to the
  path, handlers registered twice, slices of slices, type names with letters outside ASCII [C82].
* Slices in bodies lose the item format, arrays are described as references, types named `string` of other packages as strings [C61].

*Files*
* Every later generation writes to `workdir/workdir/path` when the working directory is absolute [C50].
* A failing removal in `Teardown` is not reported [C36]; a failing check of `.gitignore` overwrites it, an empty one is never repaired [C37].
* Loading a cache accepts any JSON object and ignores what follows it; the service then has no inputs, outputs, routes and configuration [C93].
* A route that two routers define is documented without parameters, body, responses, comment and operation id: the analysis of the second replaces the first entry, and the document takes the second, which is never analysed [C94].
* A custom type mapping for a builtin type (`string`, `float64`) has no effect: only the names of components are looked up in it [C95].
* The comments of struct fields are collected and kept in the cache and the JSON output, but never written to the OpenAPI document [C96].
* Only the `:name` segments of a path are ever marked as required in the OpenAPI document. The rule `required` in the tags `binding` and `validate` is read, kept in the cache and the JSON output, and has no effect on the OpenAPI document; nor is a request body ever required [C97].
* The configuration builder sets an empty base path to `/`. The documented addresses are the server's URL followed by the path, so all of them have two slashes after the port; gin answers these with 404 [C99].
* Query parameters that are lists are documented as not exploded, and the source says that comma separated values are meant, which gin does not read as a list. The file is right nevertheless, because a flag that is false is left out and the standard then takes the parameter as exploded [C100].
* Of several fields of a form that a handler reads by name only the last one is in the document, for texts and files each; a text and a file are never in one form. `PostFormArray` and `PostFormMap` are documented as texts: a client who follows the document can only send lists of one element and empty tables [C107].
* `GetHeader("Authorization")`, and the same for `Accept` and `Content-Type`, is documented as a parameter in the header, which the standard says to ignore: a client that follows the document never sends it. The response header `Content-Type` is documented and ignored in the same way [C108].
* A struct bound to the header gives one parameter without a name: no client is told of its fields. One field without a form tag but with a json tag, and the struct gives no query parameters at all [C110].
* A field without a yaml tag has its Go name in the schema, and its lower-cased name in every YAML body; an XML attribute is described as an element [C111].
* A struct tagged for JSON only and sent as YAML has no content in the document; one whose fields are tagged for different formats gives a reference to a schema that is not there [C112].
* Every parameter in a path gets the route constraint `alpha`, which admits letters only. The Azure function for `/users/:id` is not called for `/users/42`; a catch-all takes at most one segment, of letters (C113: `azure_request_exact`, `azure_route_exact`, `run_function_requests_partial`, `cloud_run`). Azure also ignores the case of the path, gin does not (`azure_ignores_case`).
* A protobuf answer is documented as `application/protobuf`; gin sends `application/x-protobuf`. `IndentedJSON`, `PureJSON`, `SecureJSON`, `AsciiJSON`, `JSONP`, `TOML` and `HTML` are not known, so an answer by one of them has no response in the document, unless another call has the same status code (C114: `run_media_types_partial`, `show_run`, `show_text`).
* Of several types that a handler sends with one status code and media type, the document has one, so it does not admit the values of types of another JSON kind; a list of types (`oneOf`) is never written. `AddReturnType` compares the type `slice` but not the element type: as long as all recorded responses are slices with one status code, media type and package, a further slice type is dropped (C115: `run_mixed_answers_partial`, `which_answer`; `pick_run`, `pick_text` for `[]string` and `[]int`).
* Custom cache paths with another extension are written but cannot be read; YAML caches cannot be written; integers of enums become floats [C38].
* The CLI loses custom functions and type mappings, Azure outputs and empty paths, and it reads the default cache unless told otherwise [C40, C41].
* Azure: a leftover temporary directory makes every later run fail; the old output is removed before the new one is in place; an output directory
  that contains the project is deleted with it [C42].
* The temporary main package: a second `package main` in a file, a go.mod with a comment first [C43].
* `CompleteParse` on its own needs an existing `.astra` directory if a route is in package main [C43].

*Package manager*
* The cache of packages ignores the working directory [C66]; `Get` takes no lock [C54]; paths with a trailing slash [C51]; renamed imports,
  version suffixes and raw string paths [C67].
