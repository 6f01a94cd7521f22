/-
C70, C71, C72, C73, C74: values and types of arguments, variables, names and helper functions, from the syntax of the program.
-/
import Verif.Lemmas.Expr
import Verif.Props.ContextFunc

namespace Astra.Props
open Spec

/-! ### Values -/

theorem readable_value {E : ExprEnv} {file : FileId} {e : GoExpr} {v : ConstVal} (h : Readable E file e v) :
    ∃ k0, ∀ k, k0 ≤ k → ∃ s, plainText v = some s ∧ exprValue E file k e = .ok s := by
  induction h with
  | @int id text n ht =>
    refine ⟨1, fun k hk => ⟨itoa (Int.ofNat n), rfl, ?_⟩⟩
    obtain ⟨j, rfl⟩ : ∃ j, k = j + 1 := ⟨k - 1, by omega⟩
    simp only [exprValue, reduceCtorEq, if_false]
    rw [ht]
    rfl
  | @str id text s ht =>
    refine ⟨1, fun k hk => ⟨s, rfl, ?_⟩⟩
    obtain ⟨j, rfl⟩ : ∃ j, k = j + 1 := ⟨k - 1, by omega⟩
    obtain ⟨rfl, hq, _, _⟩ := ht
    simp only [exprValue, if_true]
    exact congrArg Res.ok (trimBy_quoted s hq)
  | @const id name o i hb hk =>
    refine ⟨1, fun k hkk => ⟨itoa i, rfl, ?_⟩⟩
    obtain ⟨j, rfl⟩ : ∃ j, k = j + 1 := ⟨k - 1, by omega⟩
    exact exprValue_const hb hk j name
  | @imported x id sel o i hb hk hd =>
    refine ⟨1, fun k hkk => ⟨itoa i, rfl, ?_⟩⟩
    obtain ⟨j, rfl⟩ : ∃ j, k = j + 1 := ⟨k - 1, by omega⟩
    exact exprValue_imported hb hk hd j
  | @assigned id name o id' lhs e rhs v I hI hb hk hd _ ih =>
    obtain ⟨k0, ih⟩ := ih
    refine ⟨k0 + 1, fun k hkk => ?_⟩
    obtain ⟨j, rfl⟩ : ∃ j, k = j + 1 := ⟨k - 1, by omega⟩
    obtain ⟨s, hs, he⟩ := ih j (by omega)
    refine ⟨s, hs, ?_⟩
    obtain ⟨I', hI', h1, _, h2, _⟩ := findObject_bound hb
    rw [hI] at hI'
    cases hI'
    simp only [exprValue, h1, h2, Res.bind, objValue, hk, astAtPos_declared hd, declValue, nameIndex, List.map_cons, extractVarName,
      List.findIdx?_cons, decide_true, if_true, Option.getD_some, List.getElem?_cons_zero]
    exact he
  | @declared id name o names e values v I hI hb hk hd _ ih =>
    obtain ⟨k0, ih⟩ := ih
    refine ⟨k0 + 1, fun k hkk => ?_⟩
    obtain ⟨j, rfl⟩ : ∃ j, k = j + 1 := ⟨k - 1, by omega⟩
    obtain ⟨s, hs, he⟩ := ih j (by omega)
    refine ⟨s, hs, ?_⟩
    obtain ⟨I', hI', h1, _, h2, _⟩ := findObject_bound hb
    rw [hI] at hI'
    cases hI'
    simp only [exprValue, h1, h2, Res.bind, objValue, hk, astAtPos_declared hd, declValue, nameIndex,
      List.findIdx?_cons, decide_true, if_true, Option.getD_some, List.getElem?_cons_zero]
    exact he

/-- The supported arguments other than variables have the value that Go gives them. -/
theorem readable_means {E : ExprEnv} {file : FileId} {e : GoExpr} {v : ConstVal} (h : Readable E file e v) :
    Means E file e v ∨ ∃ id name o, e = .ident id name ∧ BoundTo E file id o ∧ o.kind = .var := by
  cases h with
  | int ht => left; refine .intLit ?_; rw [ht]; exact intLiteral_natToStr _
  | str ht => left; exact .strLit (stringLiteral_plain ht)
  | const hb hk => left; exact .const hb hk
  | imported hb hk _ => left; exact .imported hb hk
  | assigned _ hb hk _ _ => right; exact ⟨_, _, _, rfl, hb, hk⟩
  | declared _ hb hk _ _ => right; exact ⟨_, _, _, rfl, hb, hk⟩

/-- C70, partial: the status code that is documented for a decimal literal, an integer constant of the same or another package,
or a variable that stands first in a declaration with such a value, is its value. Missing: other integer literals, constants
of other packages whose name is defined more than once there, and variables that are assigned to later; see below. -/
theorem status_code_value_partial (E : ExprEnv) (file : FileId) (e : GoExpr) (n : Int) (h : Readable E file e (.int n)) :
    ∃ k0, ∀ k, k0 ≤ k → extractStatusCode (argView E file k e) = .ok n := by
  obtain ⟨k0, hk⟩ := readable_value h
  refine ⟨k0, fun k hkk => ?_⟩
  obtain ⟨s, hs, he⟩ := hk k hkk
  cases hs
  simp only [extractStatusCode, argView, he, atoi_itoa]

/-- C70, partial: the name that is documented for a string literal in double quotes without escapes, or a variable that stands
first in a declaration with such a value, is its value. Missing: constants, raw strings and escapes; see below. -/
theorem name_value_partial (E : ExprEnv) (file : FileId) (e : GoExpr) (s : Str) (h : Readable E file e (.str s)) :
    ∃ k0, ∀ k, k0 ≤ k → (argView E file k e).value = .ok s := by
  obtain ⟨k0, hk⟩ := readable_value h
  refine ⟨k0, fun k hkk => ?_⟩
  obtain ⟨s', hs, he⟩ := hk k hkk
  cases hs
  exact he

/-- C70: a status code that is documented for a literal or constant is right: it is the value of the integer. (`ConstVal.other`
is a floating point constant, given by its text.) Excluded: literals with a leading 0, and constants of other packages
whose name is defined more than once there. -/
theorem status_code_sound_partial (E : ExprEnv) (file : FileId) (e : GoExpr) (v : ConstVal) (k : Nat) (n : Int)
    (hm : Means E file e v) (hv : ∀ s, v ≠ .str s) (hz : ∀ id kind x t, e ≠ .lit id kind ('0' :: x :: t))
    (hd : ∀ x id sel o, e = .selector x id sel → BoundTo E file id o → OnlyDefinition E o sel v)
    (h : extractStatusCode (argView E file k e) = .ok n) : v = .int n ∨ ∃ text, v = .other text ∧ atoi text = some n := by
  obtain ⟨s, hs, ha⟩ : ∃ s, exprValue E file k e = .ok s ∧ atoi s = some n := by
    simp only [extractStatusCode, argView] at h
    cases hx : exprValue E file k e with
    | err e' => rw [hx] at h; cases h
    | panic m => rw [hx] at h; cases h
    | ok s =>
      rw [hx] at h
      simp only at h
      cases ha : atoi s with
      | none => rw [ha] at h; cases h
      | some i => rw [ha] at h; cases h; exact ⟨s, rfl, ha⟩
  obtain ⟨j, rfl⟩ : ∃ j, k = j + 1 := by
    cases k with
    | zero => simp only [exprValue] at hs; cases hs
    | succ j => exact ⟨j, rfl⟩
  have hconst : s = constString v → v = .int n ∨ ∃ text, v = .other text ∧ atoi text = some n := by
    intro e'
    subst e'
    cases v with
    | bool b =>
      cases b
      · rw [show atoi (constString (.bool false)) = none from by decide] at ha; cases ha
      · rw [show atoi (constString (.bool true)) = none from by decide] at ha; cases ha
    | str t => exact absurd rfl (hv t)
    | int i => left; simp only [constString, atoi_itoa] at ha; cases ha; rfl
    | other t => right; exact ⟨t, rfl, ha⟩
  cases hm with
  | @intLit id text m hl =>
    left
    simp only [exprValue, reduceCtorEq, if_false] at hs
    obtain rfl : text = s := Res.ok.inj hs
    have hsign : ∀ c t, text = c :: t → c ≠ '-' ∧ c ≠ '+' := by
      intro c t he
      subst he
      constructor
      · intro hc
        subst hc
        exfalso
        simp only [intLiteral, ne_eq, List.filter_cons] at hl
        simp [numberIn, digitsIn, digitIn] at hl
      · intro hc
        subst hc
        exfalso
        simp only [intLiteral, ne_eq, List.filter_cons] at hl
        simp [numberIn, digitsIn, digitIn] at hl
    have hp : (parseNat text).map Int.ofNat = some n := by
      cases text with
      | nil => rw [show atoi [] = none from rfl] at ha; cases ha
      | cons c t =>
        rw [atoi] at ha
        · exact ha
        · intro s e'; exact (hsign _ _ e').1 rfl
        · intro s e'; exact (hsign _ _ e').2 rfl
    cases hpn : parseNat text with
    | none => rw [hpn] at hp; cases hp
    | some q =>
      rw [hpn] at hp
      cases hp
      have hdig : ∀ c ∈ text, 48 ≤ c.toNat ∧ c.toNat ≤ 57 := by
        cases text with
        | nil => intro c hc; simp at hc
        | cons c t => exact parseDigits_all hpn
      rw [intLiteral_decimal hdig (fun x t e' => hz id .int x t (by rw [e'])), hpn] at hl
      cases hl
      rfl
  | strLit _ => exact absurd rfl (hv _)
  | const hb hk =>
    rw [exprValue_const hb hk] at hs
    cases hs
    exact hconst rfl
  | imported hb hk =>
    rw [exprValue_imported hb hk (hd _ _ _ _ rfl hb)] at hs
    cases hs
    exact hconst rfl

/-! The other integer literals: an octal literal is documented as another code, literals with a base or separators are not
read at all. -/

theorem not_status_octal (E : ExprEnv) (file : FileId) (id : NodeId) (k : Nat) :
    Means E file (.lit id .int c!"0310") (.int 200) ∧ extractStatusCode (argView E file (k + 1) (.lit id .int c!"0310")) = .ok 310 :=
  ⟨.intLit (n := 200) (by decide), rfl⟩

theorem not_status_other_literals (E : ExprEnv) (file : FileId) (id : NodeId) (k : Nat) :
    ∀ text ∈ [c!"0xC8", c!"0b11001000", c!"0o310", c!"2_00"], Means E file (.lit id .int text) (.int 200) ∧
      extractStatusCode (argView E file (k + 1) (.lit id .int text)) = .err c!"invalid syntax" := by
  intro text ht
  simp only [List.mem_cons, List.not_mem_nil, or_false] at ht
  rcases ht with rfl | rfl | rfl | rfl
  · exact ⟨.intLit (n := 200) (by decide), rfl⟩
  · exact ⟨.intLit (n := 200) (by decide), rfl⟩
  · exact ⟨.intLit (n := 200) (by decide), rfl⟩
  · exact ⟨.intLit (n := 200) (by decide), rfl⟩

/-- A string constant is documented with quotes, so it is wrong for every constant that does not itself begin with a quote. -/
theorem not_name_constant (E : ExprEnv) (file : FileId) (id : NodeId) (name : Str) (o : Obj) (s : Str) (k : Nat)
    (hb : BoundTo E file id o) (hk : o.kind = .const (.str s)) (hs : s.head? ≠ some '"') :
    Means E file (.ident id name) (.str s) ∧ ∃ t, (argView E file (k + 1) (.ident id name)).value = .ok t ∧ t ≠ s := by
  refine ⟨.const hb hk, constString (.str s), exprValue_const hb hk k name, ?_⟩
  obtain ⟨t, ht⟩ := constString_str s
  intro e
  rw [ht] at e
  exact hs (by rw [← e]; rfl)

/-- Raw strings keep their quotes, and escapes are not interpreted. -/
theorem not_name_literals (E : ExprEnv) (file : FileId) (id : NodeId) (k : Nat) :
    (Means E file (.lit id .string c!"`page`") (.str c!"page") ∧
      (argView E file (k + 1) (.lit id .string c!"`page`")).value = .ok c!"`page`") ∧
    (Means E file (.lit id .string c!"\"a\\tb\"") (.str c!"a\tb") ∧
      (argView E file (k + 1) (.lit id .string c!"\"a\\tb\"")).value = .ok c!"a\\tb") ∧
    (Means E file (.lit id .string c!"\"say \\\"hi\\\"\"") (.str c!"say \"hi\"") ∧
      (argView E file (k + 1) (.lit id .string c!"\"say \\\"hi\\\"\"")).value = .ok c!"say \\\"hi\\") :=
  ⟨⟨.strLit (by decide), by rfl⟩, ⟨.strLit (by decide), by rfl⟩, ⟨.strLit (by decide), by rfl⟩⟩

/-! A program for the examples. Package `app` (file 0):

    var n = "page"                         // position 10
    func h(c *gin.Context) {
        code := 204                        // position 20
        a, b := "first", "second"          // positions 30 and 33
        key := "old"                       // position 40
        key = "new"                        // position 50
        ...
    }
-/

def appObjects : List (Nat × Obj) :=
  [(10, { kind := .var, name := c!"n", type := .basic .string c!"string", pkg := some c!"app", pos := 10 }),
   (60, { kind := .var, name := c!"n", type := .basic .string c!"string", pkg := some c!"app", pos := 10 }),
   (61, { kind := .var, name := c!"code", type := .basic .int c!"int", pkg := some c!"app", pos := 20 }),
   (62, { kind := .var, name := c!"a", type := .basic .string c!"string", pkg := some c!"app", pos := 30 }),
   (63, { kind := .var, name := c!"b", type := .basic .string c!"string", pkg := some c!"app", pos := 33 }),
   (64, { kind := .var, name := c!"key", type := .basic .string c!"string", pkg := some c!"app", pos := 40 }),
   (65, { kind := .const (.int 200), name := c!"StatusOK", pkg := some c!"net/http", pos := 7 }),
   (66, { kind := .const (.str c!"page"), name := c!"Page", pkg := some c!"app", pos := 5 }),
   (67, { kind := .var, name := c!"item", type := .pointer (.named (some c!"app") c!"Item" []), pkg := some c!"app", pos := 70 }),
   (68, { kind := .typeName, name := c!"Item", type := .named (some c!"app") c!"Item" [], pkg := some c!"app", pos := 71 }),
   (69, { kind := .builtin, name := c!"new" }),
   (80, { kind := .func { results := [.basic .string c!"string"] }, name := c!"len", pkg := some c!"app", pos := 81 }),
   (81, { kind := .typeName, name := c!"int64", type := .basic .sizedInt c!"int64" }),
   (82, { kind := .var, name := c!"ch", type := .other, pkg := some c!"app", pos := 83 }),
   (90, { kind := .func { recv := some contextRecv }, name := c!"JSON", pkg := some c!"github.com/gin-gonic/gin", pos := 1 })]

def appId (pos : Nat) : NodeId := ⟨c!"app", pos⟩

def appTree : Syn := .node 1 .other [
  .node 9 .other [.node 10 (.valueSpec [c!"n"] [.lit (appId 11) .string c!"\"page\""]) [.node 10 .other [], .node 11 .other []]],
  .node 15 .other [
    .node 20 (.assign [.ident (appId 20) c!"code"] [.lit (appId 21) .int c!"204"]) [.node 20 .other [], .node 21 .other []],
    .node 30 (.assign [.ident (appId 30) c!"a", .ident (appId 33) c!"b"] [.lit (appId 34) .string c!"\"first\"", .lit (appId 35) .string c!"\"second\""])
      [.node 30 .other [], .node 33 .other [], .node 34 .other [], .node 35 .other []],
    .node 40 (.assign [.ident (appId 40) c!"key"] [.lit (appId 41) .string c!"\"old\""]) [.node 40 .other [], .node 41 .other []],
    .node 50 (.assign [.ident (appId 50) c!"key"] [.lit (appId 51) .string c!"\"new\""]) [.node 50 .other [], .node 51 .other []]]]

def appInfo : PkgInfo :=
  { objectOf := aget appObjects
    fileOf := fun _ => c!"app.go"
    syn := [{ name := c!"app.go", id := 0, tree := appTree,
              scope := fun n => if n = c!"helper" then some (some (.func 7)) else none }]
    scope := fun n => if n = c!"helper" then some 12 else none }

def httpInfo : PkgInfo := { defs := [(c!"StatusOK", some { kind := .const (.int 200), name := c!"StatusOK", pkg := some c!"net/http", pos := 7 })] }

def appEnv : ExprEnv :=
  { load := fun p => if p = c!"app" then .ok appInfo else if p = c!"net/http" then .ok httpInfo else .error c!"not found"
    pkgOf := fun _ => c!"app"
    imports := fun _ n => if n = c!"http" then some c!"net/http" else none }

theorem appBound {pos : Nat} {o : Obj} (h : aget appObjects pos = some o) : BoundTo appEnv 0 (appId pos) o :=
  ⟨appInfo, rfl, rfl, h⟩

theorem apart_leaf (p : Nat) (w : DeclNode) : SiblingsApart (.node p w []) := .node List.Pairwise.nil (fun c hc => by simp at hc)

theorem hasPos_node {q p : Nat} {w : DeclNode} {cs : List Syn} : HasPos q (.node p w cs) ↔ q = p ∨ ∃ c ∈ cs, HasPos q c := by
  constructor
  · intro h
    cases h with
    | here => left; rfl
    | inside hc h => right; exact ⟨_, hc, h⟩
  · rintro (rfl | ⟨c, hc, h⟩)
    · exact .here
    · exact .inside hc h

theorem apart_node {p : Nat} {w : DeclNode} {cs : List Syn} : SiblingsApart (.node p w cs) ↔
    cs.Pairwise (fun a b => ∀ q, HasPos q a → ¬ HasPos q b) ∧ ∀ c ∈ cs, SiblingsApart c :=
  ⟨fun h => by cases h with | node h1 h2 => exact ⟨h1, h2⟩, fun h => .node h.1 h.2⟩

theorem appTree_apart : SiblingsApart appTree := by
  simp [appTree, apart_node, hasPos_node]

theorem app_declared {pos : Nat} {d : DeclNode} (h : Outermost pos appTree d) : DeclaredBy appInfo pos d :=
  ⟨_, List.mem_singleton.2 rfl, rfl, fun _ hg _ => List.mem_singleton.1 hg, appTree_apart, h⟩

/-- `code := 204`, then `c.Status(code)`. -/
example : Readable appEnv 0 (.ident (appId 61) c!"code") (.int 204) := by
  refine .assigned (I := appInfo) rfl (appBound (pos := 61) rfl) rfl (app_declared (d := .assign [.ident (appId 20) c!"code"] [.lit (appId 21) .int c!"204"]) ?_) (.int (n := 204) (by unfold Decimal; decide))
  exact .inside (by decide) (.tail _ (.head _)) (.inside (by decide) (.head _) .here)
/-- `http.StatusOK`. -/
example : Readable appEnv 0 (.selector (.ident (appId 2) c!"http") (appId 65) c!"StatusOK") (.int 200) := by
  refine .imported (appBound (pos := 65) rfl) rfl ⟨c!"net/http", httpInfo, rfl, rfl, ?_, ?_⟩
  · exact ⟨_, List.mem_singleton.2 rfl, rfl⟩
  · intro d hd _
    rw [List.mem_singleton.1 hd]
    exact ⟨_, rfl, rfl⟩
example : Readable appEnv 0 (.lit (appId 99) .string c!"\"page\"") (.str c!"page") := .str ⟨rfl, by decide, by decide, by decide⟩
/-- Constants with a floating point value count as integers in Go if they are whole; the text is all that is known here. -/
example : ∃ e n, Means appEnv 0 e (.int n) ∧ extractStatusCode (argView appEnv 0 1 e) = .ok n :=
  ⟨.selector (.ident (appId 2) c!"http") (appId 65) c!"StatusOK", 200, .imported (appBound (pos := 65) rfl) rfl, by decide +kernel⟩

/-- The value of a string constant, with quotes. -/
example : (argView appEnv 0 1 (.ident (appId 66) c!"Page")).value = .ok c!"\"page\"" := by decide +kernel

/-! ### Constants of other packages

The constant is looked up by its name among all definitions of its package, local ones included, in the order of a map. -/

/-- A package with the constant `Limit` and, in one of its functions, a local variable `Limit`. -/
def limitConst : Str × Option Obj := (c!"Limit", some { kind := .const (.int 413), name := c!"Limit", pkg := some c!"lib", pos := 3 })
def limitLocal : Str × Option Obj := (c!"Limit", some { kind := .var, name := c!"Limit", type := .basic .int c!"int", pkg := some c!"lib", pos := 9 })

def limitInfo (defs : List (Str × Option Obj)) : PkgInfo :=
  { defs := defs
    fileOf := fun _ => c!"lib.go"
    syn := [{ name := c!"lib.go", id := 1, tree := .node 1 .other [.node 9 (.assign [.ident ⟨c!"lib", 9⟩ c!"Limit"] [.lit ⟨c!"lib", 10⟩ .int c!"500"]) []] }] }

def limitEnv (defs : List (Str × Option Obj)) : ExprEnv :=
  { load := fun p => if p = c!"app" then .ok { objectOf := fun n => if n = 5 then limitConst.2 else none }
      else if p = c!"lib" then .ok (limitInfo defs) else .error c!"not found"
    pkgOf := fun _ => c!"app" }

/-- `lib.Limit` means 413, but 413 or 500 is documented, depending on the order in which the map is visited. -/
theorem not_imported_value : ∃ e, (∀ defs, Means (limitEnv defs) 0 e (.int 413)) ∧
    extractStatusCode (argView (limitEnv [limitConst, limitLocal]) 0 3 e) = .ok 413 ∧
    extractStatusCode (argView (limitEnv [limitLocal, limitConst]) 0 3 e) = .ok 500 :=
  ⟨.selector (.ident ⟨c!"app", 1⟩ c!"lib") ⟨c!"app", 5⟩ c!"Limit", fun _ => .imported ⟨_, rfl, rfl, rfl⟩ rfl, by decide +kernel, by decide +kernel⟩

/-! ### Variables -/

/-- C72: the node found at a position is the outermost one that begins there. -/
theorem node_at_position (I : PkgInfo) (pos : Nat) (d : DeclNode) (h : DeclaredBy I pos d) : astAtPos I pos = .ok d := astAtPos_declared h

/-- C72, partial: a variable that stands first in an assignment `x, … := e, …` has the value read off `e`. Missing: the other
variables of an assignment, and later assignments; see below. -/
theorem assigned_value_partial (E : ExprEnv) (file : FileId) (I : PkgInfo) (id id' : NodeId) (name : Str) (o : Obj) (lhs rhs : List GoExpr)
    (e : GoExpr) (k : Nat) (hI : E.load (E.pkgOf file) = .ok I) (hb : BoundTo E file id o) (hk : o.kind = .var)
    (hd : DeclaredBy I o.pos (.assign (.ident id' name :: lhs) (e :: rhs))) :
    exprValue E file (k + 1) (.ident id name) = exprValue E file k e := by
  obtain ⟨I', hI', h1, _, h2, _⟩ := findObject_bound hb
  rw [hI] at hI'
  cases hI'
  simp only [exprValue, h1, h2, Res.bind, objValue, hk, astAtPos_declared hd, declValue, nameIndex, List.map_cons, extractVarName,
    List.findIdx?_cons, decide_true, if_true, Option.getD_some, List.getElem?_cons_zero]

/-- C72, partial: the same for `var x, … = e, …`. -/
theorem declared_value_partial (E : ExprEnv) (file : FileId) (I : PkgInfo) (id : NodeId) (name : Str) (o : Obj) (names : List Str)
    (values : List GoExpr) (e : GoExpr) (k : Nat) (hI : E.load (E.pkgOf file) = .ok I) (hb : BoundTo E file id o) (hk : o.kind = .var)
    (hd : DeclaredBy I o.pos (.valueSpec (name :: names) (e :: values))) :
    exprValue E file (k + 1) (.ident id name) = exprValue E file k e := by
  obtain ⟨I', hI', h1, _, h2, _⟩ := findObject_bound hb
  rw [hI] at hI'
  cases hI'
  simp only [exprValue, h1, h2, Res.bind, objValue, hk, astAtPos_declared hd, declValue, nameIndex,
    List.findIdx?_cons, decide_true, if_true, Option.getD_some, List.getElem?_cons_zero]

/-- C72: a declaration gives the value that stands at the index of the variable. -/
theorem declaration_index (E : ExprEnv) (file : FileId) (names : List Str) (values : List GoExpr) (i : Nat) (name : Str) (e : GoExpr)
    (hn : names[i]? = some name) (hu : ∀ j, j < i → names[j]? ≠ some name) (he : values[i]? = some e) :
    declValue E file name (.valueSpec names values) = .ok e := by
  have : names.findIdx? (fun n => name = n) = some i := by
    rw [List.findIdx?_eq_some_iff_getElem]
    obtain ⟨hi, hget⟩ := List.getElem?_eq_some_iff.1 hn
    refine ⟨hi, by simp [hget], fun j hj => ?_⟩
    have := hu j hj
    rw [List.getElem?_eq_getElem (by omega)] at this
    simp only [decide_eq_true_eq]
    intro h
    exact this (by rw [h])
  simp only [declValue, nameIndex, this, Option.getD_some, he]

example : ∃ d, DeclaredBy appInfo 20 d ∧ (aget appObjects 61).map (·.pos) = some 20 :=
  ⟨_, app_declared (.inside (by decide) (.tail _ (.head _)) (.inside (by decide) (.head _) .here)), rfl⟩
example : exprValue appEnv 0 2 (.ident (appId 62) c!"a") = .ok c!"first" ∧ exprValue appEnv 0 2 (.ident (appId 60) c!"n") = .ok c!"page" := by
  decide +kernel

/-- The second variable of an assignment is not read: what is found at its position is only its name. -/
theorem not_second_variable : (∃ f ∈ appInfo.syn, ∃ lhs rhs, Outermost 30 f.tree (.assign lhs rhs) ∧
      lhs[1]? = some (.ident (appId 33) c!"b") ∧ rhs[1]? = some (.lit (appId 35) .string c!"\"second\"")) ∧
    exprValue appEnv 0 2 (.ident (appId 63) c!"b") = .err c!"invalid node type" := by
  refine ⟨⟨_, List.mem_singleton.2 rfl, [.ident (appId 30) c!"a", .ident (appId 33) c!"b"],
    [.lit (appId 34) .string c!"\"first\"", .lit (appId 35) .string c!"\"second\""], ?_, rfl, rfl⟩, by decide +kernel⟩
  exact .inside (by decide) (.tail _ (.head _)) (.inside (by decide) (.tail _ (.head _)) .here)

/-- A variable has the value of its declaration, not the one assigned to it last. -/
theorem not_assigned_later : (∃ f ∈ appInfo.syn, Outermost 50 f.tree
      (.assign [.ident (appId 50) c!"key"] [.lit (appId 51) .string c!"\"new\""])) ∧
    exprValue appEnv 0 2 (.ident (appId 64) c!"key") = .ok c!"old" := by
  refine ⟨⟨_, List.mem_singleton.2 rfl, ?_⟩, by decide +kernel⟩
  exact .inside (by decide) (.tail _ (.head _)) (.inside (by decide) (.tail _ (.tail _ (.tail _ (.head _)))) .here)

/-- A variable declared without a value, or together with others from one call, ends the program. -/
theorem not_declared_without_value (E : ExprEnv) (file : FileId) (name : Str) :
    declValue E file name (.valueSpec [name] []) = .panic c!"index out of range" := by
  simp [declValue, nameIndex]

end Astra.Props
