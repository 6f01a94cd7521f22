{"id": "C01", "title": "Deny-list is exact", "statement": "After the gin input creates routes, the service holds the routes it held before followed, in router order and with multiplicity, by exactly those router routes whose path is matched by no deny predicate; no denied path is ever stored.", "quantifier": "every router route list, every list of deny predicates, every prior service state", "why_tests_cant": "deny predicates are arbitrary functions and route lists are unbounded", "anchors": ["inputs/gin/createRoutes.go:CreateRoutes", "inputs/gin/createRoute.go:createRoute", "listing.go:WithPathDenyList"]}
{"id": "C02", "title": "Path parameter extraction is exact", "statement": "ExtractParamsFromPath returns, in order, one string parameter per path segment that contains ':' or '*' followed by at least one character, named by the text after the first such marker up to the next '/', required iff the marker is ':'; nothing else.", "quantifier": "every path string", "why_tests_cant": "paths are unbounded strings; marker positions, repeated markers and trailing markers combine freely", "anchors": ["utils/pathParams.go:ExtractParamsFromPath"]}
{"id": "C03", "title": "Path templating keeps static text", "statement": "MapPathParams rewrites each wildcard exactly once and leaves every other character in place; with the identity replacement it returns the path unchanged; it rewrites precisely the wildcards that extraction reports.", "quantifier": "every path string and every replacement function", "why_tests_cant": "unbounded strings and arbitrary replacement functions", "anchors": ["utils/pathParams.go:MapPathParams"]}
{"id": "C04", "title": "Template variables match declared path parameters", "statement": "In the OpenAPI document the placeholders {x} of a templated path are exactly the names of the operation's declared path parameters.", "quantifier": "every route path", "why_tests_cant": "must hold for every path; the code violates it for '*' parameters, which tests on ':' never show", "anchors": ["outputs/openapi/generate.go:Generate", "utils/pathParams.go"]}
{"id": "C05", "title": "Distinct routes get distinct OpenAPI paths", "statement": "Two different router paths are never merged into one OpenAPI path key, so no operation overwrites another.", "quantifier": "every pair of router paths", "why_tests_cant": "injectivity over an infinite domain", "anchors": ["outputs/openapi/generate.go:Generate", "utils/pathParams.go:MapPathParams"]}
{"id": "C06", "title": "Azure route templates are faithful", "statement": "The Azure function route is the router path with each ':name' replaced by '{name:alpha}' and each '*name' by '{name:alpha?}', all other text unchanged.", "quantifier": "every router path", "why_tests_cant": "the code rewrites by repeated first-occurrence search; whether a name is found inside an already rewritten placeholder depends on every combination of names", "anchors": ["outputs/azureFunctions/convertRoute.go:convertRoute"]}
{"id": "C07", "title": "Handler names split without loss", "statement": "Splitting a fully qualified handler name gives a package path and a handler such that packagePath + '.' + handler is the original name whenever the last '/'-segment has a dot; the package path is everything up to the first dot after the last slash; splitting never panics and FuncName is defined exactly when there is a dot.", "quantifier": "every handler string", "why_tests_cant": "unbounded strings with dots and slashes anywhere", "anchors": ["utils/splitHandlerPath.go:SplitHandlerPath", "inputs/gin/parseRoute.go:parseRoute"]}
{"id": "C08", "title": "Route replacement touches one route", "statement": "ReplaceRoute overwrites the first stored route with the same path and method, keeps all other routes, their order and the number of routes, and is a no-op when there is none; AddRoute appends.", "quantifier": "every route table and route", "why_tests_cant": "unbounded tables, arbitrary duplicates", "anchors": ["routes.go:AddRoute", "routes.go:ReplaceRoute"]}
{"id": "C09", "title": "Every route is analysed once into its own slot", "statement": "After parsing, the route table has the same length and order, and entry i is the analysis of the original entry i; provided no two routes share path and method.", "quantifier": "every route table, every number of inputs, every per-route analysis", "why_tests_cant": "quantifies over all tables and all analysis functions; fails for duplicate keys or two inputs", "anchors": ["inputs/gin/parseRoutes.go:ParseRoutes", "parseRoutes.go:ParseRoutes"]}
{"id": "C10", "title": "Return types are recorded once and never lost", "statement": "AddReturnType never drops or reorders existing entries, the new (type, package, status, content type) is present afterwards, and an entry that is already present is not added again.", "quantifier": "every list of recorded return types and every new one", "why_tests_cant": "history dependent: the duplicate check misbehaves only once two different entries exist", "anchors": ["safePushing.go:AddReturnType"]}
{"id": "C11", "title": "Components behave as a set keyed by name and package", "statement": "AddComponent keeps existing components in order, adds each new (name, package) at most once, keeps the first definition, and is idempotent.", "quantifier": "every component list and every sequence of additions", "why_tests_cant": "all histories of additions", "anchors": ["safePushing.go:AddComponent", "inputs/gin/parseFunction.go:addComponent"]}
{"id": "C12", "title": "Custom-function builder reads argument n for the n-th step", "statement": "In a ContextFuncBuilder chain the n-th step reads the n-th call argument, steps run in order, the first error stops the chain and is returned, and the mapper is called once with one result per step only if all steps succeed.", "quantifier": "every chain of steps and every argument list", "why_tests_cant": "chains and arguments are unbounded", "anchors": ["contextFuncBuilder.go:ContextFuncBuilder"]}
{"id": "C13", "title": "Each gin context call contributes exactly its documented entry", "statement": "For each supported context method, a call whose arguments are resolvable adds exactly the documented return type, parameter, header or body entry, and leaves the rest of the route unchanged; other methods add nothing.", "quantifier": "every supported method, every argument value and every prior route", "why_tests_cant": "argument values and prior routes are unbounded", "anchors": ["inputs/gin/parseFunction.go:parseFunction"]}
{"id": "C14", "title": "Handler contributions accumulate in source order", "statement": "For a handler in which every analysed call succeeds, the final route is the initial one with the contributions of all context calls, including those in helpers that receive the context, applied in source order.", "quantifier": "every handler body and helper call graph that is acyclic", "why_tests_cant": "all syntax trees of any depth", "anchors": ["inputs/gin/parseFunction.go:parseFunction"]}
{"id": "C15", "title": "Handler analysis never panics", "statement": "Analysing any handler that compiles ends in success or an error, never in a run-time panic of the host program.", "quantifier": "every handler body", "why_tests_cant": "a panic needs a failing call followed by another node, an uninitialised status variable, or a same-package embedded struct: combinations over all programs", "anchors": ["inputs/gin/parseFunction.go:parseFunction", "astTraversal/declaration.go:Value", "astTraversal/type.go:Result"]}
{"id": "C16", "title": "One bad handler does not break the run", "statement": "An analysis error in one handler is logged, not returned; the other routes are analysed as if it were absent and the run goes on.", "quantifier": "every route table and every assignment of failing handlers", "why_tests_cant": "all combinations of failing and succeeding handlers", "anchors": ["inputs/gin/parseRoute.go:parseRoute"]}
{"id": "C17", "title": "Helper traversal terminates", "statement": "Following helper functions that receive the context always terminates.", "quantifier": "every helper call graph", "why_tests_cant": "termination over all call graphs; no finite test shows divergence", "anchors": ["inputs/gin/parseFunction.go:parseFunction"]}
{"id": "C18", "title": "Type translation terminates", "statement": "Translating any Go type used in a handler to a schema component terminates.", "quantifier": "every type environment, including recursive types", "why_tests_cant": "termination over all type graphs", "anchors": ["astTraversal/type.go:Result"]}
{"id": "C19", "title": "Every referenced named type has a component", "statement": "After translating a type, every package-level named type mentioned in the result or in any stored component is itself stored as a component under the same name and package.", "quantifier": "every type environment and type", "why_tests_cant": "closure over arbitrary type graphs", "anchors": ["astTraversal/type.go:Result", "inputs/gin/parseFunction.go:addComponent"]}
{"id": "C20", "title": "Unexported struct fields never leak", "statement": "No unexported struct field appears in any stored component or result.", "quantifier": "every struct type at any depth", "why_tests_cant": "all type graphs", "anchors": ["astTraversal/type.go:Result"]}
{"id": "C21", "title": "Pointers are transparent", "statement": "A pointer to T, at any pointer depth, is translated exactly like T.", "quantifier": "every type and pointer depth", "why_tests_cant": "unbounded nesting", "anchors": ["astTraversal/type.go:Result"]}
{"id": "C22", "title": "Result conversion keeps every attribute", "statement": "ParseResultToField copies every attribute, trims the doc text, records the package path exactly when the type (or slice, array or map value type) is not primitive or the result is named, the key package exactly when the key is not primitive, and recurses into all struct fields.", "quantifier": "every traversal result of any depth", "why_tests_cant": "recursive structure of unbounded depth", "anchors": ["utils.go:ParseResultToField"]}
{"id": "C23", "title": "Enums list the declared constants", "statement": "The enum values of a named basic type are exactly the literal constants declared with that type in its package, in source order.", "quantifier": "every package source and basic kind", "why_tests_cant": "all declaration lists; partial for non-literal constants", "anchors": ["astTraversal/type.go:Result"]}
{"id": "C24", "title": "Struct tags are interpreted per binding", "statement": "For each binding kind present in the tag the binding name is the first comma item, the field name if empty, hidden iff it is '-'; with no binding tag the field binds under its Go name for every kind; a field is marked required iff a validation tag mentions required.", "quantifier": "every field name and every struct tag", "why_tests_cant": "tags are unbounded strings", "anchors": ["astTraversal/tags.go:ParseStructTag"]}
{"id": "C25", "title": "Binding kinds of a struct do not depend on map order", "statement": "ExtractBindingTags returns exactly the binding kinds used by some field (all six when there is none) and says 'unique' iff some field has two different bindings, whatever the map iteration order.", "quantifier": "every field map and every iteration order at both levels", "why_tests_cant": "iteration order is chosen at random by the runtime", "anchors": ["bindingTags.go:ExtractBindingTags"]}
{"id": "C26", "title": "Content types and binding kinds agree", "statement": "Every content type listed for a binding kind maps back to that kind, and every content type with a kind is listed for it.", "quantifier": "every content type string and binding kind", "why_tests_cant": "content types are arbitrary strings", "anchors": ["bindingTags.go:ContentTypeToBindingTag", "bindingTags.go:BindingTagToContentTypes"]}
{"id": "C27", "title": "Hidden fields never appear in a schema", "statement": "A field hidden for a binding kind (tag '-') contributes nothing to the schema generated for that kind.", "quantifier": "every component, field, binding kind and name table", "why_tests_cant": "all component trees; violated for embedded fields", "anchors": ["outputs/openapi/components.go:componentToSchema"]}
{"id": "C28", "title": "Schemas do not depend on map iteration order", "statement": "The schema generated for a component is the same document whatever order the runtime iterates the field maps in.", "quantifier": "every component tree and all iteration orders at all levels", "why_tests_cant": "the runtime picks the order; a test sees one", "anchors": ["outputs/openapi/components.go:componentToSchema"]}
{"id": "C29", "title": "Every $ref resolves", "statement": "Every $ref in the generated document names an entry of components.schemas.", "quantifier": "every component list and route list", "why_tests_cant": "all combinations of tags and references; violated for mixed tags", "anchors": ["outputs/openapi/components.go", "outputs/openapi/schema.go", "outputs/openapi/generate.go"]}
{"id": "C30", "title": "Schema names do not collide", "statement": "Two components with different name or package never share a schema name.", "quantifier": "every component list", "why_tests_cant": "injectivity over unbounded lists of packages; violated when one package path is a suffix of another", "anchors": ["outputs/openapi/components.go:makeCollisionSafeNamesFromComponents"]}
{"id": "C31", "title": "Schema naming never panics", "statement": "Generating schema names succeeds for every component list.", "quantifier": "every component list", "why_tests_cant": "a panic needs three package paths of particular lengths", "anchors": ["outputs/openapi/components.go:makeCollisionSafeNamesFromComponents"]}
{"id": "C32", "title": "Custom type mappings win", "statement": "A type is mapped by the custom mapping if it has an entry, otherwise by the predefined one, keyed by the bare name for primitive names and by package.name otherwise; mappings added before first use are all honoured and the last one for a key wins.", "quantifier": "every sequence of mapping options and every type", "why_tests_cant": "all option histories", "anchors": ["formatTypes.go:GetTypeMapping", "formatTypes.go:WithCustomTypeMapping"]}
{"id": "C33", "title": "Cleaning removes the temporary package name everywhere", "statement": "After Clean no component, return type, path, query, body or header field at any depth carries the temporary main package path, everything else is unchanged, and cleaning again changes nothing.", "quantifier": "every service state", "why_tests_cant": "fields nest without bound; violated for headers", "anchors": ["clean.go:Clean", "clean.go:cleanField"]}
{"id": "C34", "title": "Durations and errors are substituted", "statement": "A field or component of type time.Duration is described as int and one of type error as string.", "quantifier": "every component tree", "why_tests_cant": "needs the whole pipeline for all types; violated for error", "anchors": ["substituteTypes.go:HandleSubstituteTypes", "clean.go:cleanField"]}
{"id": "C35", "title": "Steps run in order and stop at the first error", "statement": "Parse runs setup, route creation, route parsing, cleaning, generation, teardown in this order; the first failing step is the last to run and its error is returned; no output is generated unless all earlier steps succeeded; missing inputs or outputs are rejected before any step.", "quantifier": "every list of inputs and outputs and every failure pattern", "why_tests_cant": "all failure combinations", "anchors": ["parse.go", "createRoutes.go", "parseRoutes.go", "generate.go", "teardown.go"]}
{"id": "C36", "title": "Teardown removes only astra's own files", "statement": "After a successful run without cache and CLI nothing is left under .astra and no other file was touched by teardown; with cache or CLI only the temporary main package is removed.", "quantifier": "every file system and every mode", "why_tests_cant": "all file trees", "anchors": ["teardown.go:Teardown", "dir.go:cleanupAstraDir", "mainPackage.go:cleanupTempMainPackage"]}
{"id": "C37", "title": "Setup is idempotent and keeps .gitignore", "statement": "Setup creates .astra and a .gitignore, never overwrites an existing .gitignore, changes nothing else, and repeating it changes nothing.", "quantifier": "every file system", "why_tests_cant": "all file trees", "anchors": ["setup.go:Setup", "dir.go:setupAstraDir", "dir.go:setupGitIgnore"]}
{"id": "C38", "title": "Cache round trip", "statement": "Loading the cache written by Cache restores inputs, outputs, config, routes and components.", "quantifier": "every service state and cache path", "why_tests_cant": "unbounded nested state; omitempty; unsupported extension", "anchors": ["cache.go:Cache", "cache.go:LoadCacheFromCustomPath"]}
{"id": "C39", "title": "A crash while caching never yields a wrong state", "statement": "If the process dies at any point of Cache, a later load either restores the old state, restores the new state, or fails; it never silently loads something else.", "quantifier": "every crash point and every prior cache content", "why_tests_cant": "crash points and partial writes", "anchors": ["cache.go:Cache", "cache.go:ClearCache"]}
{"id": "C40", "title": "CLI generation equals in-process generation", "statement": "SetupParse with the CLI option followed by 'astra generate' produces the same outputs as Parse in one process.", "quantifier": "every service configuration", "why_tests_cant": "whole-pipeline equivalence; violated for custom mappings, custom functions and a missing .astra directory", "anchors": ["cli/astra/cmd/generate.go", "cli/astra/cmd/rebind.go", "parse.go", "cache.go"]}
{"id": "C41", "title": "Rebinding restores every configured output", "statement": "Rebinding a loaded service restores inputs and outputs in the same order with the same mode and path, and rejects unknown modes and missing paths.", "quantifier": "every list of cached inputs and outputs", "why_tests_cant": "all lists; violated for Azure outputs", "anchors": ["cli/astra/cmd/rebind.go"]}
{"id": "C42", "title": "Azure output is replaced as a whole and can be retried", "statement": "At every crash or error point the Azure output directory is either untouched, absent, or complete and new; and a failed run can be repeated.", "quantifier": "every route list, file system, crash and error point", "why_tests_cant": "crash points; violated for retry", "anchors": ["outputs/azureFunctions/generate.go", "dir.go:MoveTempOutputDir", "dir.go:SetupTempOutputDir"]}
{"id": "C43", "title": "The temporary main package is a renamed copy", "statement": "The temporary package contains exactly the .go files of the working directory with the package clause renamed, the originals are unchanged, and its import path is module path + /.astra/astramain.", "quantifier": "every working directory", "why_tests_cant": "all file trees and contents", "anchors": ["mainPackage.go:setupTempMainPackage"]}
{"id": "C44", "title": "Config builder", "statement": "Build returns the last value set for every field with host defaulting to localhost and base path to '/', and fails iff the port was not set (or set to 0); order of setters of different fields is irrelevant.", "quantifier": "every sequence of setter calls", "why_tests_cant": "all sequences", "anchors": ["configBuilder.go", "config.go:Validate"]}
{"id": "C45", "title": "Every route has its operation", "statement": "For each route with one of the seven supported methods the document has an operation under the templated path and method; if several routes share both, the last wins; paths contains no other operation.", "quantifier": "every route list", "why_tests_cant": "unbounded route lists and overwriting", "anchors": ["outputs/openapi/generate.go:Generate"]}
{"id": "C46", "title": "Operation parameters are sorted and complete", "statement": "The parameters of an operation are sorted by name and are, as a multiset, exactly the bound path, header and query parameters of the route.", "quantifier": "every route and every outcome of the unstable sort", "why_tests_cant": "the sort is not stable and map order is random", "anchors": ["outputs/openapi/generate.go:Generate"]}
{"id": "C47", "title": "Responses are exactly the recorded statuses", "statement": "The responses of an operation are keyed by exactly the status codes recorded for the route; the content under a status and content type is the schema of the last recorded bound entry.", "quantifier": "every list of return types", "why_tests_cant": "all lists with overwriting", "anchors": ["outputs/openapi/generate.go:Generate"]}
{"id": "C48", "title": "Every body parameter is documented", "statement": "Every form field, file or body binding of a handler appears in the request body of the operation.", "quantifier": "every list of body parameters", "why_tests_cant": "overwriting occurs only with two entries of one content type", "anchors": ["outputs/openapi/generate.go:Generate"]}
{"id": "C49", "title": "Server URL and info come from the config", "statement": "The document's server URL is protocol://host:port + base path with https iff secure, and info is copied from the config, with a default description; no config is an error.", "quantifier": "every config", "why_tests_cant": "unbounded strings and ports", "anchors": ["outputs/openapi/generate.go:Generate"]}
{"id": "C50", "title": "Output file location is stable", "statement": "An output is written to workdir/path, with .json appended unless it has a supported extension, every time it is generated.", "quantifier": "every path, work dir and number of generations", "why_tests_cant": "history dependent; violated from the second generation on", "anchors": ["outputs/openapi/generate.go:Generate", "outputs/json/generate.go:Generate"]}
{"id": "C51", "title": "Package tree behaves as a set of paths", "statement": "AddPackage and Find behave as insertion and lookup in a prefix-closed set of package paths: the same path always gives the same node, different paths different nodes, the node's path is the path it was added under, and nothing is lost.", "quantifier": "every sequence of operations and every path", "why_tests_cant": "all histories", "anchors": ["astTraversal/packageManager.go", "astTraversal/packageNode.go:Path"]}
{"id": "C52", "title": "Concurrent FindOrAdd calls agree", "statement": "Under every interleaving of the locked sections, all FindOrAdd calls for a path return the same node and no duplicate sibling is ever created.", "quantifier": "every interleaving of any number of concurrent callers", "why_tests_cant": "schedules", "anchors": ["astTraversal/packageManager.go:FindOrAdd"]}
{"id": "C53", "title": "Packages are loaded at most once", "statement": "After a package path has been loaded successfully every later load returns the same package without loading again; failures are not remembered.", "quantifier": "every sequence of loads", "why_tests_cant": "all histories and failure patterns", "anchors": ["astTraversal/loadPackage.go:LoadPackage"]}
{"id": "C54", "title": "Path loaders: the first success decides", "statement": "Get resolves a package through the first path loader that does not fail, or under its own path if all fail, and populates a node at most once.", "quantifier": "every list of loaders", "why_tests_cant": "arbitrary functions", "anchors": ["astTraversal/packageManager.go:Get"]}
{"id": "C55", "title": "Type documentation lookup", "statement": "The documentation of a type is its own comment if present, otherwise its declaration group's comment, otherwise none.", "quantifier": "every package source", "why_tests_cant": "all declaration lists", "anchors": ["astTraversal/packageNode.go:populateTypeDocMap"]}
{"id": "C56", "title": "Options apply in order", "statement": "New applies options in the order given; options on different settings are independent and for the same setting the last wins; list options accumulate.", "quantifier": "every option list", "why_tests_cant": "all sequences", "anchors": ["new.go:New", "options.go", "logger.go", "cache/cache.go", "cli/cli.go"]}
{"id": "C57", "title": "Query parameter style", "statement": "Query parameters with an object schema are deepObject and exploded; all others use form style without explode.", "quantifier": "every query parameter", "why_tests_cant": "all schemas", "anchors": ["outputs/openapi/schema.go:getQueryParamStyle"]}
{"id": "C58", "title": "Bound query structs are spread", "statement": "A query struct binding yields one query parameter per property of its form schema, and nothing when the struct is unknown or not form-bindable.", "quantifier": "every component list and bound parameter", "why_tests_cant": "unbounded component lists", "anchors": ["outputs/openapi/generate.go:Generate"]}
{"id": "C59", "title": "Response headers are attached to every response", "statement": "Every response of an operation carries all bound response headers of the route, keyed by name, last wins.", "quantifier": "every header and return type list", "why_tests_cant": "all lists", "anchors": ["outputs/openapi/generate.go:Generate"]}
{"id": "C60", "title": "JSON output mirrors the service", "statement": "The JSON output contains exactly the service's routes and components in order.", "quantifier": "every service state", "why_tests_cant": "unbounded state", "anchors": ["outputs/json/generate.go:Generate"]}
{"id": "C61", "title": "Schemas reflect Go types", "statement": "The schema of a property, body or parameter is the one its Go type calls for: type and format of a primitive, array of the element schema, object of the value schema, reference for a defined type, enum values listed.", "quantifier": "every field description, binding kind, name table and type mapping", "why_tests_cant": "the combinations of element types, kinds and name tables are unbounded; violated for slice items and Go arrays in bodies", "anchors": ["outputs/openapi/schema.go:mapFieldToSchema", "outputs/openapi/schema.go:mapParamToSchema", "outputs/openapi/components.go:componentToSchema"]}
{"id": "C62", "title": "A struct schema lists exactly the shown fields", "statement": "The schema of a struct for a binding kind has exactly one property per non-embedded field shown for that kind, under its shown name with its own schema, and refers to exactly its embedded types.", "quantifier": "every struct description whose shown names are distinct, every binding kind and name table", "why_tests_cant": "all field combinations and iteration orders", "anchors": ["outputs/openapi/components.go:componentToSchema"]}
{"id": "C63", "title": "components.schemas holds exactly the components", "statement": "Every entry of components.schemas is the schema of a component for one of its binding kinds with the component's documentation, and every component that has a schema and a name for a kind has an entry.", "quantifier": "every component list, earlier name table and iteration order", "why_tests_cant": "unbounded component lists and overwriting", "anchors": ["outputs/openapi/generate.go:Generate"]}
{"id": "C65", "title": "Loading reports every broken package", "statement": "A load gives a package exactly if the Go loader succeeds, finds at least one package and none of the packages has errors; it is then the first one.", "quantifier": "every answer of the Go package loader", "why_tests_cant": "arbitrary lists of packages with arbitrary error lists", "anchors": ["astTraversal/loadPackage.go:LoadPackageNoCache"]}
{"id": "C66", "title": "A package is loaded from the working directory asked for", "statement": "The package a load returns is the one of its path in the working directory it was asked for.", "quantifier": "every sequence of loads, with any working directories", "why_tests_cant": "histories; violated because the cache of packages ignores the working directory", "anchors": ["astTraversal/loadPackage.go:LoadPackage"]}
{"id": "C67", "title": "Package identifiers are resolved to the right import", "statement": "An identifier in a file is resolved to the import that Go's rules bind it to, and to none if it is bound to none.", "quantifier": "every list of imports and every identifier", "why_tests_cant": "all combinations of renamed imports, paths and package names; violated for renamed imports, versioned paths and raw string paths", "anchors": ["astTraversal/fileNode.go:FindImport", "astTraversal/packageManager.go:MapImportSpecs"]}
{"id": "C68", "title": "The documentation of a type is its comment", "statement": "The documentation of a type is the comment on the type or else on its declaration; a type without either has none, and asking in any order gives the same answers.", "quantifier": "every package and every sequence of questions", "why_tests_cant": "all programs", "anchors": ["astTraversal/packageNode.go:FindDocForType", "astTraversal/packageNode.go:populateTypeDocMap"]}
{"id": "C69", "title": "Files of a package are kept under unique names", "statement": "Adding a file replaces the one of the same name and keeps all others.", "quantifier": "every list of files", "why_tests_cant": "all histories", "anchors": ["astTraversal/packageNode.go:AddFile"]}
{"id": "C70", "title": "Status codes and parameter names are the values of the arguments", "statement": "The documented status code and the documented name of a parameter or header are the values that Go gives the argument: a literal, a constant of the same or another package, or a variable.", "quantifier": "every program and every argument expression", "why_tests_cant": "all programs and all ways to write a value", "anchors": ["astTraversal/expression.go:Value", "astTraversal/extractStatusCode.go:ExtractStatusCode", "astTraversal/packageNode.go:FindObjectForIdentFuzzy"]}
{"id": "C71", "title": "The documented type of an argument is its Go type", "statement": "The type that is documented for a response or bound variable is the type that the typing rules of Go give the argument, pointers aside.", "quantifier": "every program and every argument expression", "why_tests_cant": "all programs and all shapes of expressions", "anchors": ["astTraversal/expression.go:Type", "astTraversal/expression.go:BuiltInFunctions", "astTraversal/callExpression.go:ReturnType"]}
{"id": "C72", "title": "A variable has the value assigned to it", "statement": "The value read off a variable is the one its declaration or last assignment gives it.", "quantifier": "every program, declaration and position of the variable in it", "why_tests_cant": "all programs", "anchors": ["astTraversal/declaration.go:Value", "astTraversal/packageNode.go:ASTAtPos"]}
{"id": "C73", "title": "The parts of a qualified name", "statement": "The type of a name a.b.c is its last part; its package is the one imported as a, or else the package of the file; the other parts are kept in order.", "quantifier": "every expression, file and list of imports", "why_tests_cant": "chains of any length", "anchors": ["astTraversal/traverser.go:ExtractVarName"]}
{"id": "C74", "title": "Helpers that get the context are found", "statement": "A call that passes the context on is followed into the function that is called, wherever it is declared.", "quantifier": "every program and every call", "why_tests_cant": "all programs", "anchors": ["astTraversal/traverser.go:FindDeclarationForNode", "astTraversal/callExpression.go:Function", "astTraversal/packageNode.go:FindASTForType"]}
{"id": "C75", "title": "A context call as written contributes the documented entry", "statement": "A call of a supported context method adds the entry that its documentation promises for the values and types that Go gives its arguments as they are written.", "quantifier": "every program, call, supported method and route", "why_tests_cant": "all programs and all combinations of arguments", "anchors": ["inputs/gin/parseFunction.go:parseFunction", "contextFuncBuilder.go", "astTraversal/expression.go"]}
{"id": "C64", "title": "A whole run changes only astra's own places", "statement": "A run of Parse, however it ends and wherever the process dies, changes no file except the missing directories down to .astra, what is in .astra, the custom cache path if caching is enabled, and the files and directories named by the outputs. Whatever the user's own functions change is their business.", "quantifier": "every service made with any options, every file tree, every failure and crash point", "why_tests_cant": "all combinations of options, all file trees and all crash points", "anchors": ["parse.go:Parse", "dir.go", "mainPackage.go:setupTempMainPackage", "cache.go:Cache", "outputs/json/generate.go:Generate", "outputs/openapi/generate.go:Generate", "outputs/azureFunctions/generate.go:Generate"]}
{"id": "C76", "title": "The output file of a successful run documents exactly the router", "statement": "For a new service with gin routers whose allowed entries, taken together, have distinct paths and methods: if Parse succeeds, whatever faults it survived, then the file of the OpenAPI output holds the document of the allowed entries and of nothing else. Each allowed entry with a documented method has, under its templated path and method, the operation built from the analysis of its own handler, made once per router, however many other routes and outputs there are. The file of the JSON output holds the same routes and components.", "quantifier": "every router, deny list, configuration, position of the output among the outputs, file tree and pattern of survived faults", "why_tests_cant": "all routers and all outputs combined with all faults that the run survives", "anchors": ["parse.go:Parse", "createRoutes.go:CreateRoutes", "parseRoutes.go:ParseRoutes", "clean.go:Clean", "generate.go:Generate", "teardown.go:Teardown", "inputs/gin/createRoutes.go:CreateRoutes", "inputs/gin/parseRoutes.go:ParseRoutes", "outputs/openapi/generate.go:Generate", "outputs/json/generate.go:Generate"]}
{"id": "C77", "title": "A well-configured run succeeds", "statement": "In a project whose working directory exists, whose .astra is none or a directory and whose outputs have directories to lie in, Parse of a service with gin routers, whose handlers can be analysed, and with JSON, OpenAPI and Azure Functions outputs returns no error unless the system fails a call, and afterwards every output file exists and every Azure output is complete.", "quantifier": "every file tree, router, deny list, number and order of outputs, with or without caching", "why_tests_cant": "all projects, and all leftovers in them", "anchors": ["parse.go:Parse", "dir.go", "mainPackage.go", "cache.go:Cache", "generate.go:Generate", "outputs/json/generate.go:Generate", "outputs/openapi/generate.go:Generate"]}
{"id": "C78", "title": "Interrupted runs do not matter to the next run", "statement": "After any number of runs that failed, were cut off at any point or finished, with any state of the handlers' code, the next run of the same service succeeds, and its output files are the same as if the earlier runs had never been.", "quantifier": "every number of attempts, every fault and crash point in each of them, every file tree", "why_tests_cant": "all crash points of all attempts, and their combinations", "anchors": ["parse.go:Parse", "dir.go", "mainPackage.go:setupTempMainPackage", "cache.go:Cache", "teardown.go:Teardown"]}
{"id": "C79", "title": "The output depends on the service and the module files only", "statement": "Two projects with the same module files get the same output files from the same service and router, whatever other files, old outputs, caches or leftovers they have.", "quantifier": "every pair of file trees that agree on the module files of the working directory", "why_tests_cant": "all pairs of projects", "anchors": ["parse.go:Parse", "mainPackage.go", "cache.go", "outputs/json/generate.go:Generate", "outputs/openapi/generate.go:Generate"]}
{"id": "C80", "title": "The OpenAPI JSON file is the document", "statement": "When a run with an OpenAPI output whose file is a JSON file succeeds, the file is well-formed JSON, and its value is the generated document key by key with the key names of the OpenAPI standard: nothing is lost, renamed, duplicated or added, at any nesting of schemas, and each operation is found under its path and its method in lower case.", "quantifier": "every service, router, set of components, nesting of schemas, map order and survived fault", "why_tests_cant": "all nestings of schemas and all texts in descriptions and names", "anchors": ["outputs/openapi/types.go", "outputs/openapi/generate.go:Generate", "parse.go:Parse"]}
{"id": "C81", "title": "The OpenAPI document does not depend on the runtime's choices", "statement": "Running the same service on the same project twice gives the same OpenAPI document, byte for byte, whatever order the Go runtime ranges over maps in and however its unstable sort arranges parameters, and whatever faults the run meets.", "quantifier": "every service, all iteration orders of all maps at all levels, all results of unstable sorting, every fault sequence", "why_tests_cant": "the runtime picks the orders; a test sees one", "anchors": ["outputs/openapi/generate.go:Generate", "outputs/openapi/components.go:makeCollisionSafeNamesFromComponents", "outputs/openapi/components.go:componentToSchema", "parse.go:Parse"]}
{"id": "C82", "title": "The OpenAPI document satisfies the OpenAPI 3.0 standard", "statement": "A generated OpenAPI document satisfies the rules of the OpenAPI 3.0 standard: paths begin with a slash and are distinct; every parameter has a name and a location, path parameters are required, no two parameters of an operation share name and location; the template variables of a path are exactly the path parameters; every operation has a response and responses are keyed by status codes; operation ids are unique; schema names use only the allowed characters; schema types are those of the standard and arrays say what their items are; references resolve.", "quantifier": "every service, every set of routes and components, all choices of the runtime", "why_tests_cant": "validators check one generated document at a time; the claim is about all programs that can be documented", "anchors": ["outputs/openapi/generate.go:Generate", "outputs/openapi/schema.go:mapFieldToSchema", "outputs/openapi/schema.go:mapParamToSchema", "outputs/openapi/components.go:componentToSchema", "outputs/openapi/components.go:makeCollisionSafeNamesFromComponents"]}
{"id": "C83", "title": "What a handler does is in the document of the run", "statement": "After a successful run, for every registered route whose handler can be found and whose calls can be resolved, the operation in the written OpenAPI document has the handler's comment as description and its name as operation id; it lists every status code the handler sends, every query parameter and header it reads by name, every content type of the forms and files it reads, and every response header it sets, also when a helper does so; and it lists nothing the handler does not do.", "quantifier": "every handler of any size and nesting of calls and helpers, every router, every service with gin routers, every choice of the runtime, every fault the run survives", "why_tests_cant": "all programs that can be documented, through all stages from the source to the file", "anchors": ["inputs/gin/parseRoute.go:parseRoute", "inputs/gin/parseFunction.go:parseFunction", "clean.go:Clean", "outputs/openapi/generate.go:Generate", "parse.go:Parse"]}
{"id": "C84", "title": "Which router paths get a right path template, and which share one", "statement": "The OpenAPI path of a route is its router path with every segment replaced by its template: ':name' becomes '{name}', '*name' becomes '{name*}', everything else stands for itself. Two routes share a path item exactly if their paths have equally many segments with equal templates, place by place. The template variables of the path are the names of the path parameters exactly if the path has no catch-all.", "quantifier": "every router path", "why_tests_cant": "both directions, for all paths and pairs of paths", "anchors": ["utils/pathParams.go:MapPathParams", "utils/pathParams.go:ExtractParamsFromPath", "outputs/openapi/generate.go:Generate"]}
{"id": "C85", "title": "The documentation of a route does not depend on other routers", "statement": "What the OpenAPI document says about a route of one router of a service does not change when another router is added to the service; each query parameter and header is listed as often as its handler reads it.", "quantifier": "every service, every number of gin routers, every handler, every choice of the runtime, every fault the run survives", "why_tests_cant": "all combinations of routers, through the whole run", "anchors": ["parseRoutes.go:ParseRoutes", "inputs/gin/parseRoutes.go:ParseRoutes", "inputs/gin/parseRoute.go:parseRoute", "parse.go:Parse"]}
{"id": "C86", "title": "The YAML form of the OpenAPI document says the same as the JSON form", "statement": "When a run with an OpenAPI output whose file is a YAML file succeeds, the file holds the generated document key by key, and what it holds is the same as what the JSON file of the same service would hold.", "quantifier": "every service, router, set of components, nesting of schemas and survived fault", "why_tests_cant": "all documents; a difference shows only for documents with particular empty parts", "anchors": ["outputs/openapi/types.go", "outputs/openapi/generate.go:Generate", "parse.go:Parse"]}
{"id": "C87", "title": "Parse can be called again on the same service", "statement": "When Parse has succeeded on a service and is called again on it, and succeeds, the outputs say the same as after the first call: the OpenAPI document describes each endpoint with its parameters, body, responses, comment and operation id, and the JSON output lists each endpoint once.", "quantifier": "every service with gin routers and built-in outputs, every change of the files between the calls, every choice of the runtime, every fault the calls survive", "why_tests_cant": "history dependent: needs two calls on one service, for all routers and options", "anchors": ["parse.go:Parse", "createRoutes.go:CreateRoutes", "routes.go:AddRoute", "routes.go:ReplaceRoute", "inputs/gin/parseRoutes.go:ParseRoutes", "outputs/openapi/generate.go:Generate", "outputs/json/generate.go:Generate"]}
{"id": "C88", "title": "Custom functions decide what a call means", "statement": "With custom functions registered, at every call of a handler and of the helpers that are followed, the first custom function, in the order of the options, that returns a route decides: its changes are documented instead of what Astra would have found, the call is not followed as a helper, and everything else in the handler is documented as usual, in source order. If a custom function returns an error, the analysis of that handler fails with it. If it returns a route, that is the route that is documented from then on.", "quantifier": "every list of custom functions, every handler of any size and nesting of calls and helpers, every prior route", "why_tests_cant": "custom functions are arbitrary code of the user; all syntax trees, all orders of registration", "anchors": ["contextFuncBuilder.go:WithCustomFunc", "contextFuncBuilder.go:CustomFunc", "inputs/gin/parseFunction.go:parseFunction"]}
{"id": "C89", "title": "Schemas describe the Go types", "statement": "In the OpenAPI document of a successful run, every type that is defined in the program and occurs in a type a handler sends or reads as JSON, or in the definition of such a type, has exactly one schema, there are no other schemas, and the schema says what encoding/json does with the type: an object with exactly one property for each exported field, under its JSON name and with the schema of its type, and with the properties of embedded structs, for a struct; the registered format for a type that has one; otherwise the schema of the definition.", "quantifier": "every program, every set of type definitions and struct tags, every service with gin routers, every order in which Go iterates maps, every fault that the run survives", "why_tests_cant": "all type graphs, all tags, all orders of analysis; the names of the schemas depend on all types together", "anchors": ["astTraversal/type.go:Result", "astTraversal/tags.go:ParseStructTag", "outputs/openapi/components.go:componentToSchema", "outputs/openapi/schema.go:mapFieldToSchema", "outputs/openapi/generate.go:Generate"]}
{"id": "C90", "title": "Responses admit what handlers send", "statement": "If a handler sends JSON made of values of a Go type with a status code, then in the document of a successful run the operation of its route has a response for that code with a JSON schema that admits what encoding/json makes of every value of the type.", "quantifier": "every program, every handler of any size with any nesting of helpers, every Go type, every value of the type, every service with gin routers", "why_tests_cant": "all programs, all types and all values of the types; the schema is spread over the whole document through references", "anchors": ["inputs/gin/parseFunction.go:parseFunction", "inputs/gin/parseFunction.go", "outputs/openapi/generate.go:Generate", "outputs/openapi/schema.go:mapFieldToSchema"]}
{"id": "C91", "title": "Request bodies admit what handlers read", "statement": "If a handler reads a JSON body into a value of a Go type, then in the document of a successful run the operation of its route has a request body with a JSON schema that admits what encoding/json makes of every value of the type.", "quantifier": "every program, every handler of any size with any nesting of helpers, every Go type, every value of the type, every service with gin routers", "why_tests_cant": "all programs, all types and all values of the types; the schema is spread over the whole document through references", "anchors": ["inputs/gin/parseFunction.go:parseFunction", "inputs/gin/parseFunction.go", "outputs/openapi/generate.go:Generate", "outputs/openapi/schema.go:mapFieldToSchema"]}
{"id": "C92", "title": "JSON files are JSON", "statement": "Every file that is written as JSON (the JSON output, the OpenAPI document with a JSON name, function.json of the Azure output, the cache) is a text of the JSON grammar of RFC 8259, and by that grammar it has exactly one value, the one that was to be written, whatever characters occur in names, paths and comments and however deep it is nested. Reading accepts every such text and gives the same value.", "quantifier": "all values, nesting depths, strings and numbers; indented and compact form; all texts for the reader", "why_tests_cant": "Escaping, separators and nesting must be right for every string and every shape of document.", "anchors": ["outputs/json/generate.go:generate", "outputs/openapi/generate.go:Generate", "outputs/azureFunctions/generate.go:Generate", "cache.go:Cache", "cache.go:LoadCacheFromCustomPath"]}
{"id": "C93", "title": "Loading refuses files that are not caches", "statement": "Loading a cache from a .json path succeeds only if the file is a JSON text of a service; otherwise, and whenever reading fails, it returns an error and neither the service nor any file has changed.", "quantifier": "all file contents, paths, services and failing calls", "why_tests_cant": "The content of the file is arbitrary: any truncated, foreign or damaged file may lie there.", "anchors": ["cache.go:LoadCache", "cache.go:LoadCacheFromCustomPath"]}
{"id": "C94", "title": "A route that several routers define is documented", "statement": "When more than one router of a service defines a route with the same method and path, and Parse succeeds, the OpenAPI document describes the handler of one of them at this method and path: its parameters, body, responses, comment and operation id.", "quantifier": "every service with gin routers, every number of routers and routes, every OpenAPI output among other outputs, every choice of the runtime, every fault the call survives", "why_tests_cant": "it needs the whole pipeline with several inputs, for every position of the equal routes among the others", "anchors": ["routes.go:AddRoute", "routes.go:ReplaceRoute", "inputs/gin/parseRoutes.go:ParseRoutes", "inputs/gin/createRoutes.go:CreateRoutes", "outputs/openapi/generate.go:Generate"]}
{"id": "C95", "title": "Custom type mappings reach the document", "statement": "When Parse succeeds on a service made by New, every type that a custom type mapping names is shown in the OpenAPI document with the type and the format the mapping gives, whatever else the options are; this holds for named types (package.name) and for builtin types (string, int64, ...).", "quantifier": "every list of options, every program with gin routers, every OpenAPI output among other outputs, every fault the call survives", "why_tests_cant": "all option lists, all types and the whole pipeline", "anchors": ["formatTypes.go:WithCustomTypeMapping", "formatTypes.go:GetTypeMapping", "outputs/openapi/components.go:componentToSchema", "outputs/openapi/schema.go:mapPredefinedTypeFormat", "outputs/openapi/schema.go:mapTypeFormat"]}
{"id": "C96", "title": "Comments reach the document", "statement": "When Parse succeeds, the comments of the program are in the OpenAPI document: the comment of a named type (its own, or else that of the declaration it is part of) is the description of the schema of the type, and the comment of a struct field is the description of the property that shows the field. No schema has a description that is not such a comment.", "quantifier": "every program with gin routers, every type declaration and comment, every OpenAPI output among other outputs, every choice of the runtime, every fault the call survives", "why_tests_cant": "all programs, all type declarations at any depth of nesting, and the whole pipeline", "anchors": ["astTraversal/type.go:Doc", "astTraversal/type.go:Result", "astTraversal/packageNode.go:populateTypeDocMap", "utils.go:ParseResultToField", "outputs/openapi/generate.go:Generate", "outputs/openapi/components.go:componentToSchema"]}
{"id": "C97", "title": "What a request must contain is marked as required", "statement": "When Parse succeeds, the OpenAPI document marks as required exactly what a request must contain for the handler to accept it: the parameters of the `:name` segments of the path, and the query parameters, headers, bodies and properties that come from struct fields with the validation rule `required`. A parameter, header or property that a request may leave out is not marked.", "quantifier": "every program with gin routers, every path, every struct type with any tags at any depth of nesting, every OpenAPI output among other outputs, every choice of the runtime, every fault the call survives", "why_tests_cant": "all programs and paths, all tags at any depth, and the whole pipeline", "anchors": ["utils/pathParams.go:ExtractParamsFromPath", "inputs/gin/parseFunction.go:parseFunction", "astTraversal/tags.go:ParseStructTag", "outputs/openapi/generate.go:Generate", "outputs/openapi/types.go:Parameter", "outputs/openapi/types.go:Schema"]}
{"id": "C98", "title": "Only its settings count when a cache file is loaded", "statement": "Loading a JSON cache depends only on the settings that the file holds. Members that astra does not know, as another version of it may write, the order of the members, the letter case of their keys and the spacing of the text have no effect. A setting that is missing in the file is empty after loading, whatever the service held before.", "quantifier": "every two JSON files with the same settings, every service, every outside failure", "why_tests_cant": "all files and services", "anchors": ["cache.go:LoadCacheFromCustomPath", "service.go:Service", "types.go:Route", "types.go:Field", "config.go:Config"]}
{"id": "C99", "title": "Documented addresses are right", "statement": "For every route of the routers, the URL of the documented server followed by the path of its operation, with values in the place of the template variables (this is how OpenAPI forms addresses), is the address at which the service answers: scheme, host and port of the configuration, the parts of the base path, and the path of the route with the same values.", "quantifier": "every configuration, every chain of calls of the configuration builder, every router, all values of the parameters", "why_tests_cant": "all configurations, paths and values", "anchors": ["config.go:Validate", "configBuilder.go", "outputs/openapi/generate.go:Generate", "utils/pathParams.go:MapPathParams"]}
{"id": "C100", "title": "Queries are read as they are meant", "statement": "A client that has the parameter object of the OpenAPI file for a query parameter that the handler reads by name (Query, QueryArray, QueryMap and their Get forms), and writes a text, a list of texts or a table of texts into the query as the standard prescribes for this object, is understood: whatever other parameters the query has, gin gives the handler this value and no other. The schema of the object admits the value.", "quantifier": "every service, router and handler, every successful run, every value, every rest of the query, both forms of the file", "why_tests_cant": "all handlers, values and queries", "anchors": ["outputs/openapi/generate.go:Generate", "outputs/openapi/schema.go:getQueryParamStyle", "outputs/openapi/schema.go:mapParamToSchema", "outputs/openapi/types.go:Parameter", "inputs/gin/parseFunction.go"]}
{"id": "C101", "title": "The text of a handler and its documentation", "statement": "For a handler whose text consists of calls of context methods with arguments of the supported kinds (plain literals, integer constants, variables first in their declaration; typed expressions of the supported forms), calls of declared functions, which may get the context, and other code, the operation in the OpenAPI file shows exactly what the context calls do for the values and types that the arguments have by the rules of Go.", "quantifier": "every program text, every router, every successful run", "why_tests_cant": "all programs", "anchors": ["inputs/gin/parseFunction.go:parseFunction", "astTraversal/expression.go", "astTraversal/callExpression.go", "astTraversal/traverser.go:FindDeclarationForNode", "contextFuncBuilder.go"]}
{"id": "C102", "title": "A type used in several formats is documented for each of them", "statement": "If bodies or responses of several content types use a type, then following the references from the schema of one content type leads to schemas that describe the type, and all the types it is made of, as that format encodes them: with the fields shown in that format, under their names in that format.", "quantifier": "every list of recorded types and routes, every format, every order of iteration over maps", "why_tests_cant": "all combinations of tags and of references between types", "anchors": ["outputs/openapi/generate.go:generate", "outputs/openapi/components.go:componentToSchema", "outputs/openapi/components.go:makeComponentRefName", "outputs/openapi/schema.go:mapFieldToSchema", "astTraversal/tags.go"]}
{"id": "C103", "title": "The file recorded for a route is that of its handler", "statement": "For every working directory and every handler whose source file has an absolute path, creating the routes succeeds, the file recorded for the route leads from the working directory to the handler's source file, and the analysis opens the file of that name in the handler's package. Creating the routes fails exactly if a handler that is not excluded has a source file without an absolute path.", "quantifier": "every working directory, every source path, every package", "why_tests_cant": "all pairs of directories; the tests run in one directory above the handlers", "anchors": ["inputs/gin/createRoute.go:createRoute", "inputs/gin/createRoutes.go:CreateRoutes", "inputs/gin/parseRoute.go:parseRoute"]}
{"id": "C104", "title": "Types of one name are documented separately", "statement": "Two different types that handlers use, for example Page[User] and Page[Order], or two types of one name declared in different functions, are each described by a schema of their own, and each operation refers to the schema of the type it uses.", "quantifier": "all programs, all sets of types with recorded definitions, all sequences of uses, all pairs of types of one package and name, all successful runs", "why_tests_cant": "Which of the types is described depends on the order in which all handlers are analysed and on what their types reach; a test fixes one program.", "anchors": ["astTraversal/type.go: TypeTraverser.Result", "safePushing.go: AddComponent", "inputs/gin/parseFunction.go: addComponent"]}
{"id": "C105", "title": "Every kind of handler is documented", "statement": "When Parse succeeds, the OpenAPI document describes the handler of every registered route, whatever kind of Go function it is: a declared function, a function literal in a function, a method, a function literal in a method or a package variable, or an instance of a generic function.", "quantifier": "every handler of each kind and every name, every service with gin routers, every OpenAPI output among other outputs, every choice of the runtime, every fault the call survives", "why_tests_cant": "all names that the Go runtime gives to functions, with all declarations of the file, through all stages from the source to the file", "anchors": ["inputs/gin/parseRoute.go:parseRoute", "inputs/gin/createRoute.go:createRoute", "utils/splitHandlerPath.go:SplitHandlerPath"]}
{"id": "C106", "title": "A route is documented by its own handler", "statement": "When Parse succeeds, the operation of a route in the OpenAPI document shows what the handler of this route does, and nothing that only another function does, wherever the handler stands in its file.", "quantifier": "every layout of functions and function literals in the files, every handler, every service with gin routers, every OpenAPI output among other outputs, every choice of the runtime, every fault the call survives", "why_tests_cant": "all arrangements of functions on lines, with all handlers, through all stages from the source to the file", "anchors": ["inputs/gin/parseRoute.go:parseRoute", "inputs/gin/createRoute.go:createRoute"]}
{"id": "C107", "title": "Forms are read as they are meant", "statement": "When Parse succeeds and a handler reads a field of a form by name (PostForm, PostFormArray, PostFormMap, FormFile and the Get variants), the operation of its route in the OpenAPI document tells a client how to fill in this field, and the handler reads what the client meant: the text, the list, the table or the file.", "quantifier": "every handler, every name of a field, every value, every other content of the form, every service with gin routers, every OpenAPI output among other outputs, every choice of the runtime, every fault the call survives", "why_tests_cant": "all handlers and forms, through all stages from the source to the file and from the file to the request", "anchors": ["inputs/gin/parseFunction.go:parseFunction", "outputs/openapi/generate.go:Generate"]}
{"id": "C108", "title": "Headers are read as they are meant", "statement": "When Parse succeeds and a handler reads a request header by name (GetHeader), the operation of its route in the OpenAPI document tells a client how to send this header, and the handler reads the value that the client meant; and when a handler sets a response header (Header), every documented response tells of it with a schema that admits its value and without requiring it.", "quantifier": "every handler, every name of a header, every value, every other header of the request, every service with gin routers, every OpenAPI output among other outputs, every choice of the runtime, every fault the call survives", "why_tests_cant": "all handlers and headers, through all stages from the source to the file and from the file to the request", "anchors": ["inputs/gin/parseFunction.go:parseFunction", "outputs/openapi/generate.go:Generate"]}
{"id": "C109", "title": "Path parameters are read as they are meant", "statement": "When Parse succeeds, a client can fill in the path of an operation in the OpenAPI document with any values for its variables: each variable is a required parameter of the path whose schema admits the value, the resulting request path fits the router path, and the handler reads exactly these values with Param.", "quantifier": "every router path, every handler, every values of the parameters, every service with gin routers, every OpenAPI output among other outputs, every choice of the runtime, every fault the call survives", "why_tests_cant": "all paths and values, through all stages from the source to the file and from the file to the request", "anchors": ["outputs/openapi/generate.go:Generate", "utils/pathParams.go:ExtractParamsFromPath", "utils/pathParams.go:MapPathParams"]}
{"id": "C110", "title": "Structs bound to the query or the header are read as they are meant", "statement": "When Parse succeeds and a handler fills a struct from the query (BindQuery, ShouldBindQuery, and Bind or ShouldBind in a GET request) or from the header (BindHeader, ShouldBindHeader), the operation of its route in the OpenAPI document has a parameter for each field of the struct, under the name that gin looks the field up under, with a schema that admits the values of the field; a client who writes the parameter as documented sets the field to the value they meant.", "quantifier": "every handler, every struct, every field and tag, every value, every other content of the query, every service with gin routers, every OpenAPI output among other outputs, every choice of the runtime, every fault the call survives", "why_tests_cant": "all structs, tags and values, through all stages from the source to the file and from the file to the request", "anchors": ["inputs/gin/parseFunction.go:parseFunction", "outputs/openapi/generate.go:Generate", "outputs/openapi/components.go:componentToSchema", "astTraversal/tags.go:ParseStructTag"]}
{"id": "C111", "title": "The properties of body schemas have the names that are on the wire", "statement": "When Parse succeeds and a handler sends a struct as JSON, XML or YAML, or reads a request body of one of these formats into a struct, the OpenAPI document describes the body of that response or request with a schema that has a property for each field of the struct, under the name that the encoder of the format uses for the field, with the schema of its type, and no other properties; also if the tags of the struct give its fields different names in different formats.", "quantifier": "every handler, every struct, every field and tag, each of the three formats, every status code, every service with gin routers, every OpenAPI output among other outputs, every choice of the runtime, every fault the call survives", "why_tests_cant": "all structs and combinations of tags, through all stages from the source to the file", "anchors": ["inputs/gin/parseFunction.go:parseFunction", "outputs/openapi/generate.go:Generate", "outputs/openapi/components.go:componentToSchema", "outputs/openapi/components.go:makeComponentRefName", "astTraversal/tags.go:ParseStructTag"]}
{"id": "C112", "title": "A struct is described in every format it is sent or read in", "statement": "When Parse succeeds and a handler sends a struct as JSON, XML or YAML, or reads a request body of one of these formats into it, the OpenAPI document describes that body by a schema for the struct, whatever tags for other bindings the fields of the struct have.", "quantifier": "every handler, every struct, every combination of tags, each of the three formats, every status code, every service with gin routers, every OpenAPI output among other outputs, every choice of the runtime, every fault the call survives", "why_tests_cant": "all structs and combinations of tags, through all stages from the source to the file", "anchors": ["outputs/openapi/generate.go:Generate", "outputs/openapi/components.go:componentToSchema", "outputs/openapi/components.go:makeComponentRefName", "bindingTags.go:ExtractBindingTags"]}
{"id": "C113", "title": "The Azure function of a route is called for the requests of the route", "statement": "When Parse succeeds for a service with an Azure Functions output, the function.json of each route makes Azure Functions call the function for exactly the requests that the gin router would give to the handler of the route, whatever the values of the parameters in the path, and with the same values.", "quantifier": "every route, every path that gin accepts, every request and every value of the parameters, every service with gin routers whose run nothing from outside stops", "why_tests_cant": "all paths, requests and values, through all stages from the router to the file", "anchors": ["outputs/azureFunctions/convertRoute.go:convertRoute", "outputs/azureFunctions/convertRoute.go:acceptedTypeMap", "outputs/azureFunctions/generate.go:Generate", "utils/pathParams.go:ExtractParamsFromPath"]}
{"id": "C114", "title": "Every answer of a handler is in the document, under its status code and media type", "statement": "When Parse succeeds, the OpenAPI document has, for each answer that a handler gives by a method of the gin context, a response under the status code of the answer that tells the media type gin sends it with, and it has no responses and media types that the handler does not send.", "quantifier": "every handler, every method of gin that writes an answer, every status code, every value sent, every service with gin routers, every OpenAPI output among other outputs, every choice of the runtime, every fault the call survives", "why_tests_cant": "all handlers and helpers, methods, status codes and values, through all stages from the source to the file", "anchors": ["inputs/gin/parseFunction.go:parseFunction", "outputs/openapi/generate.go:Generate", "outputs/openapi/schema.go:mapFieldToSchema", "safePushing.go:AddReturnType"]}
{"id": "C115", "title": "A response admits all values that are sent with its status code", "statement": "If a handler sends JSON values of several types with one status code, for example in different branches, then in the document of a successful run the schema of this response admits the values of all of these types.", "quantifier": "every handler, every number of calls with one status code, every combination of types, every value of the types, every service with gin routers, every OpenAPI output among other outputs, every choice of the runtime, every fault the call survives", "why_tests_cant": "all combinations of types and all their values, through all stages from the source to the file", "anchors": ["safePushing.go:AddReturnType", "inputs/gin/parseFunction.go:parseFunction", "outputs/openapi/generate.go:Generate"]}
