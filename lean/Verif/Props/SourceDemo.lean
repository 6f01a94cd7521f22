/-
C101: a program as it is written, and its run.

    // Get an item.
    func Get(c *gin.Context) {                // shop.go:10, function 0
        audit(c)                              // call 0
        item := load(c.Query("id"))           // calls 1 and 2
        log.Println(len(item.Tags))           // calls 4 and 5
        c.JSON(http.StatusOK, item)           // call 3
    }

    func audit(c *gin.Context) {              // function 1
        c.Header("X-Audit", "1")              // call 6
    }

    // Find an item.
    func Find(c *gin.Context) {               // shop.go:20, function 2
        key := string(c.Query("key"))         // calls 7 and 8
        c.String(200, key)                    // call 9
    }
-/
import Verif.Props.Source
import Verif.Props.SentDemo
import Verif.Props.Routers

namespace Astra.Props
open Astra.Spec

def shopId (pos : Nat) : NodeId := ⟨shopPkg, pos⟩

def itemPointer : GoType := .pointer (.named (some shopPkg) c!"Item" [])

def ginMethod (name : Str) : Obj :=
  { kind := .func { recv := some c!"*github.com/gin-gonic/gin.Context" }, name := name, pkg := some c!"github.com/gin-gonic/gin" }

def shopObjects : List (Nat × Obj) :=
  [(20, { kind := .func {}, name := c!"audit", pkg := some shopPkg }),
   (21, { kind := .func { results := [itemPointer] }, name := c!"load", pkg := some shopPkg }),
   (22, ginMethod c!"Query"),
   (23, { kind := .const (.int 200), name := c!"StatusOK", pkg := some c!"net/http" }),
   (24, { kind := .var, name := c!"item", type := itemPointer, pkg := some shopPkg }),
   (25, ginMethod c!"JSON"),
   (26, { kind := .func {}, name := c!"Println", pkg := some c!"log" }),
   (27, { kind := .builtin, name := c!"len" }),
   (28, ginMethod c!"Header"),
   (29, { kind := .typeName, name := c!"string", type := .basic .string c!"string" }),
   (30, ginMethod c!"Query"),
   (31, ginMethod c!"String"),
   (32, { kind := .var, name := c!"key", type := .basic .string c!"string", pkg := some shopPkg })]

def shopInfo : PkgInfo := { objectOf := aget shopObjects, fileOf := fun _ => c!"shop.go", syn := [{ name := c!"shop.go", id := 0 }] }

def shopText : ExprEnv :=
  { load := fun p => if p = shopPkg then .ok shopInfo else if p = c!"net/http" then .ok httpInfo else .error c!"not found"
    pkgOf := fun _ => shopPkg
    imports := fun _ n => if n = c!"http" then some c!"net/http" else if n = c!"log" then some c!"log" else none
    astObj := fun id => if id = shopId 20 then some (some (.func 1)) else none }

def queryCall (x pos arg : Nat) (name : Str) : GoExpr × List GoExpr :=
  (.selector (.ident (shopId x) c!"c") (shopId pos) c!"Query", [.lit (shopId arg) .string name])

def shopCalls : CallTexts
  | 0 => (.ident (shopId 20) c!"audit", [.ident (shopId 40) c!"c"])
  | 1 => (.ident (shopId 21) c!"load", [.call (queryCall 41 22 42 c!"\"id\"").1 (queryCall 41 22 42 c!"\"id\"").2])
  | 2 => queryCall 41 22 42 c!"\"id\""
  | 3 => (.selector (.ident (shopId 43) c!"c") (shopId 25) c!"JSON",
      [.selector (.ident (shopId 44) c!"http") (shopId 23) c!"StatusOK", .ident (shopId 24) c!"item"])
  | 4 => (.selector (.ident (shopId 45) c!"log") (shopId 26) c!"Println",
      [.call (.ident (shopId 27) c!"len") [.selector (.ident (shopId 46) c!"item") (shopId 47) c!"Tags"]])
  | 5 => (.ident (shopId 27) c!"len", [.selector (.ident (shopId 46) c!"item") (shopId 47) c!"Tags"])
  | 6 => (.selector (.ident (shopId 48) c!"c") (shopId 28) c!"Header", [.lit (shopId 49) .string c!"\"X-Audit\"", .lit (shopId 50) .string c!"\"1\""])
  | 7 => (.ident (shopId 29) c!"string", [.call (queryCall 51 30 52 c!"\"key\"").1 (queryCall 51 30 52 c!"\"key\"").2])
  | 8 => queryCall 51 30 52 c!"\"key\""
  | 9 => (.selector (.ident (shopId 53) c!"c") (shopId 31) c!"String", [.lit (shopId 54) .int c!"200", .ident (shopId 32) c!"key"])
  | _ => (.other (shopId 99), [])

def shopFuncs (f : FuncId) : FuncInfo :=
  if f = 0 then
    { params := fun _ => ctxParams
      doc := some c!"Get an item.\n"
      body := [.other [.call 0 []], .other [.call 1 [.call 2 []]], .other [.call 4 [.call 5 []]], .other [.call 3 []]] }
  else if f = 1 then
    { params := fun _ => ctxParams
      body := [.other [.call 6 []]] }
  else if f = 2 then
    { params := fun _ => ctxParams
      doc := some c!"Find an item.\n"
      body := [.other [.call 7 [.call 8 []]], .other [.call 9 []]] }
  else {}

def shopProg : Prog :=
  { types := itemEnv
    filePkg := fun _ => shopPkg
    funcs := shopFuncs
    view := fun file id => viewOf shopText file 1 (shopCalls id).1 (shopCalls id).2 }

theorem shop_read : ReadFrom shopProg shopText shopCalls := by
  refine ⟨fun file id => ⟨1, fun d hd => ?_⟩, rfl, rfl⟩
  obtain ⟨k, rfl⟩ : ∃ k, d = k + 1 := ⟨d - 1, by omega⟩
  match id with
  | 0 | 1 | 2 | 3 | 4 | 5 | 6 | 7 | 8 | 9 => rfl
  | _ + 10 => rfl

def shopRoutes : RouteEnv where
  prog := shopProg
  loadable p := p = shopPkg
  fileOf _ f := if f = c!"shop.go" then some 0 else none
  decls _ := [⟨c!"Get", 10, 0, []⟩, ⟨c!"audit", 17, 1, []⟩, ⟨c!"Find", 20, 2, []⟩]
  lowerCamel s := s

theorem shop_handler_is : HandlerIs shopRoutes c!"example.com/shop.Get" c!"shop.go" 10 0 c!"Get" 0 true :=
  ⟨⟨c!"example.com/shop", ⟨c!"shop", c!"Get", Or.inr ⟨c!"example.com", rfl⟩, by decide, by decide, rfl, by decide, by decide, Or.inl rfl⟩, by decide +kernel⟩,
    by decide +kernel⟩

theorem shopBound {pos : Nat} {o : Obj} (h : aget shopObjects pos = some o) : BoundTo shopText 0 (shopId pos) o := ⟨shopInfo, rfl, rfl, h⟩

theorem shop_method {x : GoExpr} {pos : Nat} {sel m : Str} (h : aget shopObjects pos = some (ginMethod m)) :
    CallsMethod shopText 0 (.selector x (shopId pos) sel) m := ⟨_, _, _, .selected, shopBound h, rfl, rfl, rfl⟩

theorem item_field (args : List ArgView) (i : Nat) (a : ArgView) (h : args[i]? = some a) (ht : a.type = .ok itemPointer) :
    ∃ f, IsField itemEnv shopPkg args i f := by
  have hok : ((typeResult itemEnv true 3 [] (some shopPkg) [] itemPointer).map (fun x => x.2.isOk)) = some true := by decide +kernel
  cases hr : typeResult itemEnv true 3 [] (some shopPkg) [] itemPointer with
  | none => rw [hr] at hok; cases hok
  | some x =>
    obtain ⟨c', r⟩ := x
    cases r with
    | ok r => exact ⟨_, _, _, _, _, r, h, ht, ⟨3, hr⟩, rfl⟩
    | err _ => rw [hr] at hok; cases hok
    | panic _ => rw [hr] at hok; cases hok

theorem shop_context (f : FuncId) (h : f = 0 ∨ f = 1 ∨ f = 2) : ContextParam shopProg f 0 c!"c" :=
  (context_parameter_found shopProg f 0 c!"c" (by decide)).1 (by rcases h with rfl | rfl | rfl <;> rfl)

theorem gets_not {args : List GoExpr} (h : ∀ e ∈ args, ∀ id, e ≠ .ident id c!"c") : ¬ GetsContext c!"c" args := by
  rintro ⟨id, hm⟩
  exact h _ hm id rfl

/-- The text of `Get`: what each of its calls contributes. -/
theorem shop_written : ∃ f, IsField itemEnv shopPkg [{}, { type := .ok itemPointer }] 1 f ∧
    WrittenTo shopProg shopText shopCalls 0 c!"c" true (shopProg.funcs 0).body
      [{ responseHeaders := [{ name := c!"X-Audit", field := { type := c!"string" } }] },
       { queryParams := [{ name := c!"id", field := { type := c!"string" } }] },
       { responses := [{ statusCode := 200, contentType := c!"application/json", field := f }] }] true := by
  obtain ⟨f, hf⟩ := item_field [{}, { type := .ok itemPointer }] 1 _ rfl rfl
  refine ⟨f, hf, ?_⟩
  refine .other (es := [_]) (b1 := true) (.helper (f := 1) (file' := 0) (ctx' := c!"c") (es0 := [_]) (es := []) (es' := []) (b1 := true)
    ⟨shopId 40, by simp [shopCalls]⟩ (.sameFile (by rfl)) (shop_context 1 (by simp)) ?audit .nil .nil)
    (.other (es := [_]) (b1 := true) (.plain (es := [_]) (es' := []) (b1 := true) ?g1 ⟨_, _, _, .plain, shopBound (pos := 21) rfl, rfl, by decide⟩
        (.context (m := c!"Query") (truths := [{ value := some (.str c!"id") }]) (es := []) (es' := []) ?g2 (shop_method (pos := 22) rfl) ?h2 ?d2 .nil .nil) .nil)
      (.other (es := []) (b1 := false) (.plain (es := []) (es' := []) (b1 := false) ?g4 ⟨_, _, _, .selected, shopBound (pos := 26) rfl, rfl, by decide⟩
          (.unresolved ?g5 (Or.inl ⟨_, _, .plain, shopBound (pos := 27) rfl, by intro sig h; cases h⟩) .nil) .nil)
        (.other (es := [_]) (es' := []) (.context (m := c!"JSON") (truths := [{ value := some (.int 200) }, { type := some itemPointer }])
          (es := []) (es' := []) ?g3 (shop_method (pos := 25) rfl) ?h3 ?d3 .nil .nil) .nil)))
  case audit =>
    refine .other (es := [_]) (es' := []) (.context (m := c!"Header") (truths := [{ value := some (.str c!"X-Audit") }, { value := some (.str c!"1") }])
      (es := []) (es' := []) (gets_not ?_) (shop_method (pos := 28) rfl) (.cons ⟨?_, (by intro t ht; cases ht)⟩ (.cons ⟨?_, (by intro t ht; cases ht)⟩ .nil))
      (.header ⟨_, rfl, rfl⟩) .nil .nil) .nil
    · intro e he id h; subst h; simp [shopCalls] at he
    · intro v hv; cases hv; exact .str ⟨rfl, by decide, by decide, by decide⟩
    · intro v hv; cases hv; exact .str ⟨rfl, by decide, by decide, by decide⟩
  case g1 => exact gets_not (by intro e he id h; subst h; simp [shopCalls] at he)
  case g2 => exact gets_not (by intro e he id h; subst h; simp [shopCalls, queryCall] at he)
  case g3 => exact gets_not (by intro e he id h; subst h; simp [shopCalls] at he)
  case g4 => exact gets_not (by intro e he id h; subst h; simp [shopCalls] at he)
  case g5 => exact gets_not (by intro e he id h; subst h; simp [shopCalls] at he)
  case h2 => exact .cons ⟨by intro v hv; cases hv; exact .str ⟨rfl, by decide, by decide, by decide⟩, (by intro t ht; cases ht)⟩ .nil
  case d2 => exact .query (by simp) ⟨_, rfl, rfl⟩
  case h3 =>
    refine .cons ⟨fun v hv => ?_, (by intro t ht; cases ht)⟩ (.cons ⟨(by intro v hv; cases hv), fun t ht => ?_⟩ .nil)
    · cases hv
      refine .imported (shopBound (pos := 23) rfl) rfl ⟨c!"net/http", httpInfo, rfl, rfl, ⟨_, List.mem_singleton.2 rfl, rfl⟩, fun d hd _ => ?_⟩
      rw [List.mem_singleton.1 hd]
      exact ⟨_, rfl, rfl⟩
    · cases ht
      exact .name (shopBound (pos := 24) rfl)
  case d3 =>
    obtain ⟨a, t, c, c', r, ha, ht, h⟩ := hf
    cases ha
    exact .json (by simp) ⟨_, _, rfl, rfl, by decide⟩ ⟨_, _, c, c', r, rfl, ht, h⟩

/-- C101, negation for calls inside the arguments of something that is not a declared function: `string(c.Query("key"))` is in the text of
`Find`, the argument is a plain literal, and the handler contributes only the response of the call after it. -/
theorem not_every_text_call_documented :
    Node.hasCallIn 8 (shopProg.funcs 2).body ∧ CallsMethod shopText 0 (shopCalls 8).1 c!"Query" ∧
    AllHold shopText 0 (shopCalls 8).2 [{ value := some (.str c!"key") }] ∧
    WrittenTo shopProg shopText shopCalls 0 c!"c" true (shopProg.funcs 2).body
      [{ responses := [{ statusCode := 200, contentType := c!"text/plain", field := { type := c!"string" } }] }] true := by
  refine ⟨Or.inl (Or.inl (Or.inr (Or.inl (Or.inl rfl)))), shop_method (pos := 30) rfl, .cons ⟨?_, (by intro t ht; cases ht)⟩ .nil, ?_⟩
  · intro v hv; cases hv; exact .str ⟨rfl, by decide, by decide, by decide⟩
  · refine .other (es := []) (b1 := false) (.unresolved (gets_not ?_) (Or.inl ⟨_, _, .plain, shopBound (pos := 29) rfl, by intro sig h; cases h⟩) .nil)
      (.other (es := [_]) (es' := []) (.context (m := c!"String") (truths := [{ value := some (.int 200) }, {}])
        (es := []) (es' := []) (gets_not ?_) (shop_method (pos := 31) rfl) (.cons ⟨?_, (by intro t ht; cases ht)⟩ (.cons ⟨(by intro v hv; cases hv), (by intro t ht; cases ht)⟩ .nil))
        (.string ⟨_, _, rfl, rfl, by decide⟩) .nil .nil) .nil)
    · intro e he id h; subst h; simp [shopCalls] at he
    · intro e he id h; subst h; simp [shopCalls] at he
    · intro v hv; cases hv; exact .int (n := 200) (by unfold Decimal; decide)

/-! ### A helper of another package

    package util
    func Check(c *gin.Context) {              // file 1, function 1
        panic("no")                           // call 2
    }

    package shop
    func Put(c *gin.Context) {                // file 0, function 0
        c.Status(204)                         // call 3
        util.Check(c)                         // call 0
        c.Header("X-Put", "1")                // call 1
        return
    }
-/

def utilInfo : PkgInfo :=
  { objectOf := fun pos => if pos = 5 then some { kind := .builtin, name := c!"panic" } else none
    fileOf := fun _ => c!"util.go"
    scope := fun n => if n = c!"Check" then some 3 else none
    syn := [{ name := c!"util.go", id := 1, scope := fun n => if n = c!"Check" then some (some (.func 1)) else none }] }

def putInfo : PkgInfo := { objectOf := fun pos => if pos = 10 then some (ginMethod c!"Header") else if pos = 20 then some (ginMethod c!"Status") else none }

def putText : ExprEnv :=
  { load := fun p => if p = shopPkg then .ok putInfo else if p = c!"example.com/util" then .ok utilInfo else .error c!"not found"
    pkgOf := fun f => if f = 0 then shopPkg else c!"example.com/util"
    imports := fun f n => if f = 0 ∧ n = c!"util" then some c!"example.com/util" else none }

def putCalls : CallTexts
  | 0 => (.selector (.ident (shopId 11) c!"util") (shopId 12) c!"Check", [.ident (shopId 13) c!"c"])
  | 1 => (.selector (.ident (shopId 14) c!"c") (shopId 10) c!"Header", [.lit (shopId 15) .string c!"\"X-Put\"", .lit (shopId 16) .string c!"\"1\""])
  | 2 => (.ident ⟨c!"example.com/util", 5⟩ c!"panic", [.lit ⟨c!"example.com/util", 6⟩ .string c!"\"no\""])
  | 3 => (.selector (.ident (shopId 21) c!"c") (shopId 20) c!"Status", [.lit (shopId 22) .int c!"204"])
  | _ => (.other (shopId 99), [])

def putFuncs (f : FuncId) : FuncInfo :=
  if f = 0 then
    { params := fun _ => ctxParams
      body := [.other [.call 3 []], .other [.call 0 []], .other [.call 1 []], .other []] }
  else if f = 1 then
    { params := fun _ => ctxParams
      body := [.other [.call 2 []]] }
  else {}

def putProg : Prog :=
  { types := itemEnv
    filePkg := putText.pkgOf
    funcs := putFuncs
    view := fun file id => viewOf putText file 1 (putCalls id).1 (putCalls id).2 }

/-- C101, negation for helpers of other packages: after a call of a helper that ends with a call of a builtin function, the rest of the
handler is looked up in the package of the helper, where nothing of it is found. `c.Header("X-Put", "1")` stands in the handler itself, its
arguments are plain literals, the analysis succeeds, and the header is not documented. -/
theorem not_text_after_helper_of_other_package : ∃ st, ReadFrom putProg putText putCalls ∧ ContextParam putProg 0 0 c!"c" ∧
    Node.outerCallIn 1 (putProg.funcs 0).body ∧ CallsMethod putText 0 (putCalls 1).1 c!"Header" ∧
    AllHold putText 0 (putCalls 1).2 [{ value := some (.str c!"X-Put") }, { value := some (.str c!"1") }] ∧
    Documented putProg.types (putText.pkgOf 0) ([{ value := some (.str c!"X-Put") }, { value := some (.str c!"1") }].map Truth.view) c!"Header"
      { responseHeaders := [{ name := c!"X-Put", field := { type := c!"string" } }] } ∧
    Ends putProg [] {} 0 0 (st, .ok ()) ∧ st.route.responseHeaders = [] := by
  have hr : (parseFunction putProg 2 [] {} 0 0).map (fun x => (x.1.route.responseHeaders.length, x.2)) = some (0, .ok ()) := by decide +kernel
  cases hp : parseFunction putProg 2 [] {} 0 0 with
  | none => rw [hp] at hr; cases hr
  | some x =>
    obtain ⟨st, res⟩ := x
    rw [hp] at hr
    simp only [Option.map_some, Option.some.injEq, Prod.mk.injEq] at hr
    obtain ⟨h1, rfl⟩ := hr
    refine ⟨st, ⟨fun file id => ⟨1, fun d hd => ?_⟩, rfl, rfl⟩, (context_parameter_found putProg 0 0 c!"c" (by decide)).1 rfl,
      Or.inr (Or.inr (Or.inl (Or.inl rfl))), ⟨_, _, _, .selected, ⟨putInfo, rfl, rfl, rfl⟩, rfl, rfl, rfl⟩,
      .cons ⟨?_, (by intro t ht; cases ht)⟩ (.cons ⟨?_, (by intro t ht; cases ht)⟩ .nil),
      .header ⟨_, rfl, rfl⟩, ⟨2, hp⟩, List.eq_nil_of_length_eq_zero h1⟩
    · obtain ⟨k, rfl⟩ : ∃ k, d = k + 1 := ⟨d - 1, by omega⟩
      match id with
      | 0 =>
        match file with
        | 0 => rfl
        | _ + 1 => rfl
      | 1 | 2 | 3 => rfl
      | _ + 4 => rfl
    · intro v hv; cases hv; exact .str ⟨rfl, by decide, by decide, by decide⟩
    · intro v hv; cases hv; exact .str ⟨rfl, by decide, by decide, by decide⟩

/-! ### The run -/

def shopLib : Lib :=
  { routerLib with parse := fun _ cs r => match parseRoute shopRoutes 3 cs r with | some x => x | none => (cs, .err []) }

theorem shopLib_byModel : ByModel shopLib (fun _ => shopRoutes) := by
  refine ⟨fun _ f hf => (by cases hf), fun ctx cs r cs' r' h => ⟨3, ?_⟩⟩
  have h : (match parseRoute shopRoutes 3 cs r with | some x => x | none => (cs, .err [])) = (cs', .ok r') := h
  cases hp : parseRoute shopRoutes 3 cs r with
  | none => rw [hp] at h; cases h
  | some x => rw [hp] at h; rw [← h]

def getInfo : RouteInfo := ⟨c!"GET", c!"/item", c!"example.com/shop.Get", c!"shop.go", 10⟩
def findInfo : RouteInfo := ⟨c!"GET", c!"/find", c!"example.com/shop.Find", c!"shop.go", 20⟩

def shopWorld : World Proc :=
  { fs := itemWorld.fs, cwd := [c!"w"]
    st := { svc := newService [.workDir c!"/w", .ginInput (some [getInfo, findInfo]), .openApiOutput c!"api.json",
      .config (some { title := c!"t", host := c!"localhost", port := 8000, basePath := c!"/" })] } }

theorem shop_allowed : allowed shopWorld.st.svc.denyList [[getInfo, findInfo]].flatten = [getInfo, findInfo] := by
  show [[getInfo, findInfo]].flatten.filter _ = _
  rfl

/-- The run of the program succeeds; the operation of `Get` has its comment and name, the query parameter, the response and the response header
of the helper. -/
theorem shop_run : ∃ doc text op f, (Astra.parseAll shopLib c!"/w" noFaults shopWorld).1.fs.look [c!"w", c!"api.json"] = some (.file text) ∧
    shopLib.render false doc = .ok text ∧ Document.operation doc c!"/item" c!"GET" = some op ∧ op.description = c!"Get an item." ∧ op.operationId = c!"Get" ∧
    Shows op { responseHeaders := [{ name := c!"X-Audit", field := { type := c!"string" } }] } ∧
    Shows op { queryParams := [{ name := c!"id", field := { type := c!"string" } }] } ∧
    Shows op { responses := [{ statusCode := 200, contentType := c!"application/json", field := f }] } := by
  have hok : (Astra.parseAll shopLib c!"/w" noFaults shopWorld).2 = .ok () := by decide +kernel
  obtain ⟨f, _, hw⟩ := shop_written
  obtain ⟨doc, text, h1, h2, h3⟩ := run_documents_text_partial shopLib (fun _ => shopRoutes) (fun _ => shopText) shopCalls shopLib_byModel (fun _ => shop_read)
    (fun _ => False) (fun _ _ _ => ⟨fun _ _ => rfl, id, rfl, rfl, rfl, rfl, rfl, rfl, rfl, rfl⟩) (fun _ => someChoice_valid) c!"/w" noFaults shopWorld
    (Astra.parseAll shopLib c!"/w" noFaults shopWorld).1 [c!"w"]
    (Or.inr (by decide)) (by decide) item_names (by decide) [[getInfo, findInfo]] (ginInput_one rfl) rfl (by rw [shop_allowed]; unfold DistinctRoutes; decide)
    [] [] _ rfl (options_shape _).2 (by simp) 0 rfl [c!"w", c!"api.json"] (show [c!"w", c!"api.json"] = _ by decide)
    ⟨by decide, (by rintro ⟨h, _⟩; cases h), by simp⟩ id (by rw [← hok])
  obtain ⟨relative, mains, hrel, hlen, h4⟩ := h3 getInfo (by rw [shop_allowed]; simp) (by decide) (by
    rw [shop_allowed]; intro j hj
    simp only [List.mem_cons, List.not_mem_nil, or_false] at hj
    rcases hj with rfl | rfl
    · intros; rfl
    · intro hp _; exact absurd hp (by decide))
  have hrel' : relative = c!"shop.go" := by cases hrel; rfl
  subst hrel'
  obtain ⟨op, o1, o2, o3, o4, _⟩ := h4 _ _ _ (fun _ _ _ _ => ⟨0, c!"Get", 0, true, c!"c", true, shop_handler_is, shop_context 0 (by simp), hw, rfl, rfl⟩)
  exact ⟨doc, text, op, f, h1, h2, o1, by rw [o2]; decide +kernel, o3, o4 _ (by simp), o4 _ (by simp), o4 _ (by simp)⟩

/-- In the file, `Get` has the parameter `id`; the parameter `key` of `Find` is missing. -/
theorem shop_text :
    let text := match (Astra.parseAll shopLib c!"/w" noFaults shopWorld).1.fs.look [c!"w", c!"api.json"] with | some (.file t) => t | _ => []
    occurrences c!"\"name\": \"id\"" text = 1 ∧ occurrences c!"X-Audit" text = 1 ∧ occurrences c!"Find an item." text = 1 ∧ occurrences c!"key" text = 0 := by
  refine ⟨?_, ?_, ?_, ?_⟩ <;> decide +kernel

end Astra.Props
