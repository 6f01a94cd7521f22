/-
C111: a run for a handler that reads a struct as JSON and sends it as YAML and XML.
-/
import Verif.Props.BodyNames
import Verif.Props.BoundQueryDemo

namespace Astra.Props
open Astra.Spec

/-- The text of a tag with three values. -/
def threeTag (a b c : Str) : Str := oneTag c!"json" a ++ ' ' :: (oneTag c!"yaml" b ++ ' ' :: oneTag c!"xml" c)

theorem threeTag_text (a b c : Str) (ha : ∀ x ∈ a, x ≠ '"' ∧ x ≠ '\\' ∧ x ≠ '\n') (hb : ∀ x ∈ b, x ≠ '"' ∧ x ≠ '\\' ∧ x ≠ '\n')
    (hc : ∀ x ∈ c, x ≠ '"' ∧ x ≠ '\\' ∧ x ≠ '\n') : TagText (threeTag a b c) [(c!"json", a), (c!"yaml", b), (c!"xml", c)] := by
  have h3 := TagText.pair (spaces := [' ']) (key := c!"xml") (rest := []) (by simp) (by simp) (by unfold KeyChar; decide) (literal_raw c hc) (.done (by simp))
  have h2 := TagText.pair (spaces := [' ']) (key := c!"yaml") (by simp) (by simp) (by unfold KeyChar; decide) (literal_raw b hb) h3
  have h1 := TagText.pair (spaces := []) (key := c!"json") (by simp) (by simp) (by unfold KeyChar; decide) (literal_raw a ha) h2
  simpa [threeTag, oneTag] using h1

def identField : StructField × GoType := ({ name := c!"ID", tag := threeTag c!"id" c!"ident" c!"no,attr" }, .basic .int c!"int")
def kindField : StructField × GoType := ({ name := c!"Kind" }, .pointer (.basic .string c!"string"))
def keyField : StructField × GoType := ({ name := c!"Key", tag := threeTag c!"-" c!"-" c!"-" }, .basic .string c!"string")
def holderField : StructField × GoType := ({ name := c!"holder", exported := false }, .named (some shopPkg) c!"Holder" [])

/-- `type Vehicle struct { ID int; Kind *string; Key string; holder Holder }`, where `ID` is tagged `json:"id" yaml:"ident" xml:"no,attr"`, `Key` is
left out and `Kind` has no tag. -/
def vehicleFields : List (StructField × GoType) := [identField, kindField, keyField, holderField]

def carEnv : TypeEnv where
  loadable := fun p => p = shopPkg
  underlying := fun _ n _ => if n = c!"Vehicle" then .struct vehicleFields else .interface
  files := fun _ => [[.type none [{ name := c!"Vehicle" }]]]
  nodeAt := fun _ _ => .other
  parseFloat := fun _ => none

def carTypes (x : TName) : Prop := x = (shopPkg, c!"Vehicle", [])

def vehicle : GoType := .named (some shopPkg) c!"Vehicle" []

/-- `Create` calls `BindJSON(&vehicle)`, `YAML(200, vehicle)` and `XML(201, vehicle)`. -/
def carProg : Prog :=
  { types := carEnv, filePkg := fun _ => shopPkg
    funcs := fun f => if f = 0 then { params := fun _ => ctxParams, body := [.call 0 [], .call 1 [], .call 2 []], doc := some c!"Create.\n" } else {}
    view := fun _ id =>
      if id = 0 then { func := .ok (true, c!"BindJSON"), args := [{ type := .ok (.pointer vehicle) }] }
      else if id = 1 then { func := .ok (true, c!"YAML"), args := [{ value := .ok c!"200" }, { type := .ok vehicle }] }
      else if id = 2 then { func := .ok (true, c!"XML"), args := [{ value := .ok c!"201" }, { type := .ok vehicle }] }
      else {} }

def carRoutes : RouteEnv where
  prog := carProg
  loadable p := p = shopPkg
  fileOf _ f := if f = c!"shop.go" then some 0 else none
  decls _ := [⟨c!"Create", 10, 0, []⟩]
  lowerCamel s := s

def carLib : Lib :=
  { routerLib with parse := fun _ cs r => match parseRoute carRoutes 3 cs r with | some x => x | none => (cs, .err []) }

theorem carLib_byModel : ByModel carLib (fun _ => carRoutes) := by
  refine ⟨fun _ f hf => (by cases hf), fun ctx cs r cs' r' h => ⟨3, ?_⟩⟩
  have h : (match parseRoute carRoutes 3 cs r with | some x => x | none => (cs, .err [])) = (cs', .ok r') := h
  cases hp : parseRoute carRoutes 3 cs r with
  | none => rw [hp] at h; cases h
  | some x => rw [hp] at h; rw [← h]

def carInfo : RouteInfo := ⟨c!"POST", c!"/cars", c!"example.com/shop.Create", c!"shop.go", 10⟩

def carWorld : World Proc :=
  { fs := itemWorld.fs, cwd := [c!"w"]
    st := { svc := newService [.workDir c!"/w", .ginInput (some [carInfo]), .openApiOutput c!"api.json",
      .config (some { title := c!"t", host := c!"localhost", port := 8000, basePath := c!"/" })] } }

/-! ### The struct -/

theorem ident_text : TagText identField.1.tag [(c!"json", c!"id"), (c!"yaml", c!"ident"), (c!"xml", c!"no,attr")] :=
  threeTag_text c!"id" c!"ident" c!"no,attr" (by decide) (by decide) (by decide)
theorem kind_text : TagText kindField.1.tag [] := .done (by simp [kindField])
theorem key_text : TagText keyField.1.tag [(c!"json", c!"-"), (c!"yaml", c!"-"), (c!"xml", c!"-")] :=
  threeTag_text c!"-" c!"-" c!"-" (by decide) (by decide) (by decide)

/-- The name that the tags of the format give to `ID`. -/
def identName : BodyKind → Str
  | .json => c!"id"
  | .yaml => c!"ident"
  | .xml => c!"no"

theorem ident_named (kind : BodyKind) : NamedBy kind.key identField.1 (identName kind) := by
  cases kind
  · exact .tagged (opts := []) ident_text rfl (by decide) (by decide) (by decide)
  · exact .tagged (opts := [c!"attr"]) ident_text rfl (by decide) (by decide) (by decide)
  · exact .tagged (opts := []) ident_text rfl (by decide) (by decide) (by decide)

theorem kind_named (kind : BodyKind) : NamedBy kind.key kindField.1 c!"Kind" := .untagged kind_text rfl

theorem key_left_out (kind : BodyKind) {k : Str} (h : NamedBy kind.key keyField.1 k) : False := by
  have e : ∀ {pairs' : List (Str × Str)}, TagText keyField.1.tag pairs' → tagValue pairs' kind.key = some c!"-" := by
    intro pairs' h'
    rw [← lookup_tagValue h', lookup_tagValue key_text]
    cases kind <;> rfl
  cases h with
  | untagged t e' => rw [e t] at e'; cases e'
  | unnamed t e' h3 => rw [e t] at e'; cases e'; exact absurd h3 (by simp [split])
  | tagged t e' h3 _ _ => rw [e t] at e'; cases e'; exact h3 rfl

theorem vehicle_exported {e : StructField × GoType} (he : e ∈ vehicleFields) (hx : e.1.exported = true) : e = identField ∨ e = kindField ∨ e = keyField := by
  simp only [vehicleFields, List.mem_cons, List.not_mem_nil, or_false] at he
  rcases he with h | h | h | rfl
  · exact Or.inl h
  · exact Or.inr (Or.inl h)
  · exact Or.inr (Or.inr h)
  · cases hx

theorem vehicle_struct (kind : BodyKind) : KindStruct kind.key vehicleFields := by
  refine ⟨by decide, ?_, by decide, ?_, ?_, ?_⟩
  · intro e he hx
    rcases vehicle_exported he hx with rfl | rfl | rfl <;> decide
  · intro e he hx
    rcases vehicle_exported he hx with rfl | rfl | rfl
    · refine ⟨_, ident_text, Or.inl ?_⟩
      cases kind
      · exact ⟨c!"id", rfl, Or.inr (by decide)⟩
      · exact ⟨c!"no,attr", rfl, Or.inr (by decide)⟩
      · exact ⟨c!"ident", rfl, Or.inr (by decide)⟩
    · exact ⟨_, kind_text, Or.inr (fun _ _ => rfl)⟩
    · exact ⟨_, key_text, Or.inl ⟨c!"-", (by cases kind <;> rfl), Or.inl rfl⟩⟩
  · show List.Pairwise _ [identField, kindField, keyField]
    simp only [List.pairwise_cons, List.mem_cons, List.not_mem_nil, or_false, List.Pairwise.nil, and_true]
    refine ⟨?_, ?_, by simp⟩
    · rintro y (rfl | rfl) k h h'
      · have e1 := namedBy_unique h (ident_named kind)
        have e2 := namedBy_unique h' (kind_named kind)
        rw [e1] at e2
        cases kind <;> exact absurd e2 (by decide)
      · exact key_left_out kind h'
    · rintro y rfl k h h'
      exact key_left_out kind h'
  · intro e he hx
    rcases vehicle_exported he hx with rfl | rfl | rfl
    · exact .basic (by decide)
    · exact .pointer (.basic (by decide))
    · exact .basic (by decide)

theorem kind_yaml : YamlKey kindField.1 c!"kind" := .untagged kind_text (Or.inl rfl) rfl (by decide)

theorem kind_unnamed : ¬ TagNames c!"yaml" kindField.1 := by
  rintro ⟨pairs, v, name, opts, t, e, _⟩
  rw [← lookup_tagValue t, lookup_tagValue kind_text] at e
  cases e

theorem ident_yaml_key {k : Str} (h : YamlKey identField.1 k) : k = c!"ident" := by
  have e : ∀ {pairs' : List (Str × Str)}, TagText identField.1.tag pairs' → tagValue pairs' c!"yaml" = some c!"ident" := by
    intro pairs' h'
    rw [← lookup_tagValue h', lookup_tagValue ident_text]
    rfl
  have hs : split ',' c!"ident" = [c!"ident"] := by decide
  cases h with
  | untagged t _ e' _ => rw [e t] at e'; cases e'
  | unnamed t e' h3 _ _ => rw [e t] at e'; cases e'; rw [hs] at h3; cases h3
  | tagged t e' _ h4 _ _ => rw [e t] at e'; cases e'; rw [hs] at h4; cases h4; rfl

theorem kind_yaml_key {k : Str} (h : YamlKey kindField.1 k) : k = c!"kind" := by
  cases h with
  | untagged _ _ _ _ => rfl
  | unnamed _ _ _ _ _ => rfl
  | tagged t e _ _ _ _ => rw [← lookup_tagValue t, lookup_tagValue kind_text] at e; cases e

theorem key_yaml_key {k : Str} (h : YamlKey keyField.1 k) : False := by
  have e : ∀ {pairs' : List (Str × Str)}, TagText keyField.1.tag pairs' → tagValue pairs' c!"yaml" = some c!"-" := by
    intro pairs' h'
    rw [← lookup_tagValue h', lookup_tagValue key_text]
    rfl
  cases h with
  | untagged t _ e' _ => rw [e t] at e'; cases e'
  | unnamed t e' h3 _ _ => rw [e t] at e'; cases e'; exact absurd h3 (by simp [split])
  | tagged t e' h3 _ _ _ => rw [e t] at e'; cases e'; exact h3 rfl

theorem vehicle_yaml : YamlProper vehicleFields := by
  refine ⟨?_, ?_, ?_⟩
  · intro e he hx k hk
    rcases vehicle_exported he hx with rfl | rfl | rfl
    · exact ⟨c!"ident", .tagged (opts := []) ident_text rfl (by decide) (by decide) (by decide) (by simp)⟩
    · exact ⟨_, kind_yaml⟩
    · exact (key_left_out .yaml hk).elim
  · intro e he e' he' hx hx' k h h'
    rcases vehicle_exported he hx with rfl | rfl | rfl <;> rcases vehicle_exported he' hx' with rfl | rfl | rfl
    · rfl
    · have e := ident_yaml_key h; rw [kind_yaml_key h'] at e; exact absurd e (by decide)
    · exact (key_yaml_key h').elim
    · have e := kind_yaml_key h; rw [ident_yaml_key h'] at e; exact absurd e (by decide)
    · rfl
    · exact (key_yaml_key h').elim
    · exact (key_yaml_key h).elim
    · exact (key_yaml_key h).elim
    · exact (key_yaml_key h).elim
  · intro e he hx
    rcases vehicle_exported he hx with rfl | rfl | rfl
    · exact ⟨'I', by decide, by decide⟩
    · exact ⟨'K', by decide, by decide⟩
    · exact ⟨'K', by decide, by decide⟩

/-- `ID` is an attribute in XML. -/
theorem ident_no_element {k : Str} : ¬ XmlElement identField.1 k := by
  have e : ∀ {pairs' : List (Str × Str)}, TagText identField.1.tag pairs' → tagValue pairs' c!"xml" = some c!"no,attr" := by
    intro pairs' h'
    rw [← lookup_tagValue h', lookup_tagValue ident_text]
    rfl
  have hs : split ',' c!"no,attr" = [c!"no", c!"attr"] := by decide
  intro h
  cases h with
  | untagged t e' => rw [e t] at e'; cases e'
  | unnamed t e' h3 _ => rw [e t] at e'; cases e'; rw [hs] at h3; cases h3
  | tagged t e' _ h4 _ _ _ h8 =>
    rw [e t] at e'; cases e'; rw [hs] at h4; cases h4
    exact absurd (h8 _ List.mem_cons_self) (by decide)

/-! ### The hypotheses -/

theorem car_typed : TypedProgram (fun _ => carRoutes) carEnv carTypes := by
  refine ⟨fun _ => rfl, fun _ => rfl, ?_⟩
  intro _ file id name a t x hf ha hat hx
  simp only [carRoutes, carProg] at ha
  by_cases h0 : id = 0
  · simp only [h0, if_true, List.mem_singleton] at ha
    subst ha
    cases hat
    cases hx with
    | pointer hx => cases hx; exact rfl
  · by_cases h1 : id = 1
    · simp only [h1, if_true, if_neg (show ¬ (1 : Nat) = 0 by decide), List.mem_cons, List.not_mem_nil, or_false] at ha
      rcases ha with rfl | rfl
      · cases hat
      · cases hat; cases hx; exact rfl
    · by_cases h2 : id = 2
      · simp only [h2, if_true, if_neg (show ¬ (2 : Nat) = 0 by decide), if_neg (show ¬ (2 : Nat) = 1 by decide), List.mem_cons, List.not_mem_nil,
          or_false] at ha
        rcases ha with rfl | rfl
        · cases hat
        · cases hat; cases hx; exact rfl
      · simp [h0, h1, h2] at ha

theorem car_apart (m : Str) : NamedApart carEnv m carTypes := by
  have hfin : finalPackage m shopPkg = c!"main" ∨ finalPackage m shopPkg = shopPkg := by
    unfold finalPackage
    split
    · exact Or.inl rfl
    · exact Or.inr rfl
  refine ⟨?_, ?_, ?_, ?_, ?_, ?_, ?_⟩
  · rintro x rfl y hu
    have hu : Occurs (.struct vehicleFields) y := hu
    cases hu with
    | field he hx h => exact absurd h ((query_describable (Γ := carEnv) ((vehicle_struct .json).types _ he hx)).2 y)
  · rintro x rfl
    refine ⟨by decide, by decide, by decide, by decide, ?_⟩
    rcases hfin with h | h <;> rw [h] <;> decide
  · rintro x rfl; decide
  · rintro x rfl y rfl _ h; rfl
  · rintro x rfl h; exact absurd h (by decide)
  · rintro x rfl; trivial
  · intro pkgs h g
    refine ⟨0, fun p hp q hq _ _ hne => absurd ?_ hne⟩
    obtain ⟨x, rfl, rfl⟩ := h p hp
    obtain ⟨y, rfl, rfl⟩ := h q hq
    rfl

theorem car_target (m : Str) : StructTarget carEnv carWorld.st.svc.maps.merged m vehicle vehicleFields ∧
    StructTarget carEnv carWorld.st.svc.maps.merged m (.pointer vehicle) vehicleFields := by
  have hreg : registeredFormat carWorld.st.svc.maps.merged (finalPackage m shopPkg) c!"Vehicle" = none := by
    unfold finalPackage
    split <;> decide +kernel
  exact ⟨⟨(shopPkg, c!"Vehicle", []), .value _ _ _, by decide, rfl, hreg⟩, ⟨(shopPkg, c!"Vehicle", []), .pointer _ _ _, by decide, rfl, hreg⟩⟩

theorem car_handler_is : HandlerIs carRoutes c!"example.com/shop.Create" c!"shop.go" 10 0 c!"Create" 0 true :=
  ⟨⟨c!"example.com/shop", ⟨c!"shop", c!"Create", Or.inr ⟨c!"example.com", rfl⟩, by decide, by decide, rfl, by decide, by decide, Or.inl rfl⟩, by decide +kernel⟩,
    by decide +kernel⟩

theorem car_context : ContextParam carProg 0 0 c!"c" := (context_parameter_found carProg 0 0 c!"c" (by decide)).1 rfl

theorem car_passes (id : Nat) (h : id = 0 ∨ id = 1 ∨ id = 2) : ¬ PassesContext (carProg.view 0 id) c!"c" := by
  rintro ⟨a, ha, hi⟩
  rcases h with rfl | rfl | rfl
  · cases ha with | head => cases hi | tail _ h => cases h
  · cases ha with | head => cases hi | tail _ h => cases h with | head => cases hi | tail _ h => cases h
  · cases ha with | head => cases hi | tail _ h => cases h with | head => cases hi | tail _ h => cases h

theorem car_field (t : GoType) (args : List ArgView) (j : Nat) (ha : args[j]? = some { type := .ok t })
    (h : ((typeResult carEnv true 3 [] (some shopPkg) [] t).map (fun x => x.2.isOk)) = some true) : ∃ f, IsField carEnv shopPkg args j f := by
  cases hr : typeResult carEnv true 3 [] (some shopPkg) [] t with
  | none => rw [hr] at h; cases h
  | some x =>
    obtain ⟨c', r⟩ := x
    cases r with
    | ok r => exact ⟨_, _, _, _, _, r, ha, rfl, ⟨3, hr⟩, rfl⟩
    | err _ => rw [hr] at h; cases h
    | panic _ => rw [hr] at h; cases h

theorem car_status_yaml : IsStatus (carProg.view 0 1).args 0 200 := ⟨_, c!"200", rfl, rfl, by decide +kernel⟩
theorem car_status_xml : IsStatus (carProg.view 0 2).args 0 201 := ⟨_, c!"201", rfl, rfl, by decide +kernel⟩

theorem car_view : ∃ comment id es, HandlerView carRoutes c!"example.com/shop.Create" c!"shop.go" 10 comment id es := by
  have hl : ∀ call, AllLeave carProg c!"c" call := by intro call f hf; cases hf
  obtain ⟨f0, t0⟩ := car_field (.pointer vehicle) (carProg.view 0 0).args 0 rfl (by decide +kernel)
  obtain ⟨f1, t1⟩ := car_field vehicle (carProg.view 0 1).args 1 rfl (by decide +kernel)
  obtain ⟨f2, t2⟩ := car_field vehicle (carProg.view 0 2).args 1 rfl (by decide +kernel)
  exact ⟨_, _, _, 0, c!"Create", 0, true, c!"c", car_handler_is, car_context,
    ⟨true, .context (hl _) (car_passes 0 (by simp)) rfl (.bindJSON (by simp) t0) .nil
    (.context (hl _) (car_passes 1 (by simp)) rfl (.yaml car_status_yaml t1) .nil
    (.context (hl _) (car_passes 2 (by simp)) rfl (.xml car_status_xml t2) .nil .nil))⟩, rfl, rfl⟩

theorem car_calls {pkg m : Str} {args : List ArgView} (h : Calls carProg 0 c!"c" (carProg.funcs 0).body pkg m args) :
    (m = c!"BindJSON" ∧ args = (carProg.view 0 0).args) ∨ (m = c!"YAML" ∧ args = (carProg.view 0 1).args) ∨
      (m = c!"XML" ∧ args = (carProg.view 0 2).args) := by
  have h : Calls carProg 0 c!"c" [.call 0 [], .call 1 [], .call 2 []] pkg m args := h
  have name : ∀ {n : Str}, (Res.ok (true, n) : Res (Bool × Str)) = .ok (true, m) → m = n := by
    intro n h
    injection h with h
    exact (Prod.mk.inj h).2.symm
  cases h with
  | here _ hf => exact Or.inl ⟨name hf, rfl⟩
  | helper h => exact absurd h (car_passes 0 (by simp))
  | inside _ h => cases h
  | later h =>
    cases h with
    | here _ hf => exact Or.inr (Or.inl ⟨name hf, rfl⟩)
    | helper h => exact absurd h (car_passes 1 (by simp))
    | inside _ h => cases h
    | later h =>
      cases h with
      | here _ hf => exact Or.inr (Or.inr ⟨name hf, rfl⟩)
      | helper h => exact absurd h (car_passes 2 (by simp))
      | inside _ h => cases h
      | later h => cases h

theorem car_reads : HandlerCallsWith carRoutes c!"example.com/shop.Create" c!"shop.go" 10 BodyKind.json.binders (.pointer vehicle) :=
  ⟨0, c!"Create", 0, true, c!"c", car_handler_is, car_context, shopPkg, c!"BindJSON", _, _, .here (car_passes 0 (by simp)) rfl, by decide, rfl, rfl⟩

theorem car_reads_only {t : GoType} (h : HandlerCallsWith carRoutes c!"example.com/shop.Create" c!"shop.go" 10 BodyKind.json.binders t) :
    t = .pointer vehicle := by
  obtain ⟨_, _, _, _, _, hh, hctx, pkg, m, args, a, hC, hm, ha, hat⟩ := h
  obtain ⟨rfl, rfl, rfl⟩ := handler_unique car_handler_is hh
  have := contextParam_unique car_context hctx
  subst this
  rcases car_calls hC with ⟨rfl, rfl⟩ | ⟨rfl, rfl⟩ | ⟨rfl, rfl⟩
  · cases ha; cases hat; rfl
  · exact absurd hm (by decide)
  · exact absurd hm (by decide)

theorem car_sends_yaml : HandlerSendsAs carRoutes c!"example.com/shop.Create" c!"shop.go" 10 .yaml 200 vehicle :=
  ⟨0, c!"Create", 0, true, c!"c", shopPkg, c!"YAML", _, _, car_handler_is, car_context, .later (.here (car_passes 1 (by simp)) rfl), by decide,
    car_status_yaml, rfl, rfl⟩

theorem car_sends_xml : HandlerSendsAs carRoutes c!"example.com/shop.Create" c!"shop.go" 10 .xml 201 vehicle :=
  ⟨0, c!"Create", 0, true, c!"c", shopPkg, c!"XML", _, _, car_handler_is, car_context, .later (.later (.here (car_passes 2 (by simp)) rfl)), by decide,
    car_status_xml, rfl, rfl⟩

theorem car_sends_only {kind : BodyKind} {code : Int} {t : GoType}
    (h : HandlerSendsAs carRoutes c!"example.com/shop.Create" c!"shop.go" 10 kind code t) : t = vehicle := by
  obtain ⟨_, _, _, _, _, pkg, m, args, a, hh, hctx, hC, hm, _, ha, hat⟩ := h
  obtain ⟨rfl, rfl, rfl⟩ := handler_unique car_handler_is hh
  have := contextParam_unique car_context hctx
  subst this
  rcases car_calls hC with ⟨rfl, rfl⟩ | ⟨rfl, rfl⟩ | ⟨rfl, rfl⟩
  · cases ha
  · cases ha; cases hat; rfl
  · cases ha; cases hat; rfl

theorem car_allowed : allowed carWorld.st.svc.denyList [[carInfo]].flatten = [carInfo] := by
  show [[carInfo]].flatten.filter _ = _
  rfl

theorem car_ok : Astra.parseAll carLib c!"/w" noFaults carWorld = ((Astra.parseAll carLib c!"/w" noFaults carWorld).1, .ok ()) := by
  have hok : (Astra.parseAll carLib c!"/w" noFaults carWorld).2 = .ok () := by decide +kernel
  rw [← hok]

theorem car_place : OwnPlace carWorld.cwd [c!"w"] carWorld.st.svc [] [c!"w", c!"api.json"] := by
  refine ⟨by decide, ?_, by simp⟩
  rintro ⟨h, _⟩
  cases h

/-! ### The run -/

/-- The run succeeds and meets all hypotheses: the JSON body is told as the handler reads it. C111, violated: yaml.v3 writes `Kind` under the key `kind`,
which is not a property of the schema of the YAML response, and encoding/xml writes `ID` as an attribute, while the schema of the XML response has it
as the element `no`. -/
theorem car_run : ∃ doc text, (Astra.parseAll carLib c!"/w" noFaults carWorld).1.fs.look [c!"w", c!"api.json"] = some (.file text) ∧
    carLib.render false doc = .ok text ∧ ∃ op, Document.operation doc c!"/cars" c!"POST" = some op ∧
      (∃ content s n sch, op.requestBody = some content ∧ mget content c!"application/json" = some s ∧ s = { ref := c!"#/components/schemas/" ++ n } ∧
        (n, sch) ∈ doc.schemas ∧ (∃ u, (c!"id", u) ∈ sch.properties) ∧ (∃ u, (c!"Kind", u) ∈ sch.properties)) ∧
      (∃ resp s n sch, mget op.responses c!"200" = some resp ∧ mget resp.content c!"application/yaml" = some s ∧ s = { ref := c!"#/components/schemas/" ++ n } ∧
        (n, sch) ∈ doc.schemas ∧ (∃ u, (c!"ident", u) ∈ sch.properties) ∧ YamlKey kindField.1 c!"kind" ∧ ∀ u, (c!"kind", u) ∉ sch.properties) ∧
      (∃ resp s n sch, mget op.responses c!"201" = some resp ∧ mget resp.content c!"application/xml" = some s ∧ s = { ref := c!"#/components/schemas/" ++ n } ∧
        (n, sch) ∈ doc.schemas ∧ (∃ u, (c!"no", u) ∈ sch.properties) ∧ ∀ k, ¬ XmlElement identField.1 k) := by
  obtain ⟨m, _, _, doc, text, _, h1, h2, h3⟩ := run_body_names_partial carLib (fun _ => carRoutes) carLib_byModel (fun _ => False)
    (fun _ _ _ => ⟨fun _ _ => rfl, id, rfl, rfl, rfl, rfl, rfl, rfl, rfl, rfl⟩) c!"/w" noFaults carWorld _ [c!"w"]
    (Or.inr (by decide)) (by decide) item_names (by decide) [[carInfo]] (ginInput_one rfl) rfl (by rw [car_allowed]; unfold DistinctRoutes; decide)
    [] [] _ rfl (options_shape _).2 (by simp) 0 rfl [c!"w", c!"api.json"] (show [c!"w", c!"api.json"] = _ by decide) car_place id
    rfl rfl (fun _ => List.Perm.refl _) (by decide +kernel) carEnv carTypes car_typed car_ok
  obtain ⟨relative, mains, hrel, hlen, h4⟩ := h3 (car_apart m) carInfo (by rw [car_allowed]; simp) (by decide) (by
    rw [car_allowed]; intro j hj; simp at hj; intro _ _; exact hj)
  have hrel' : relative = c!"shop.go" := by cases hrel; rfl
  subst hrel'
  obtain ⟨comment, id, es, hv⟩ := car_view
  obtain ⟨main, hmain⟩ := List.exists_mem_of_length_pos (show 0 < mains.length by rw [hlen]; decide)
  obtain ⟨op, hop, p⟩ := h4 comment id es (fun _ _ => hv)
  refine ⟨doc, text, h1, h2, op, hop, ?_, ?_, ?_⟩
  · obtain ⟨content, s, n, q1, q2, q3⟩ := (p .json _ _ (car_target m).2 (vehicle_struct _)).2 ⟨main, hmain, car_reads⟩ (fun _ _ _ h => car_reads_only h)
    obtain ⟨sch, hs⟩ := q3.found
    obtain ⟨u, hu, _⟩ := q3.told sch hs identField (by simp [vehicleFields]) rfl c!"id"
      ⟨[], .tagged (v := c!"id") (name := c!"id") (opts := []) ident_text rfl (by decide) (by decide) (by decide) (by unfold TagChar; decide)⟩ (fun h => by cases h)
    obtain ⟨u', hu', _⟩ := q3.told sch hs kindField (by simp [vehicleFields]) rfl c!"Kind" ⟨[], .untagged kind_text rfl⟩ (fun h => by cases h)
    exact ⟨content, s, n, sch, q1, q2, q3.ref, hs, ⟨u, hu⟩, ⟨u', hu'⟩⟩
  · obtain ⟨resp, s, n, q1, q2, q3⟩ := (p .yaml _ _ (car_target m).1 (vehicle_struct _)).1 200 ⟨main, hmain, car_sends_yaml⟩ (fun _ _ _ h => car_sends_only h)
    obtain ⟨sch, hs⟩ := q3.found
    obtain ⟨u, hu, _⟩ := q3.told sch hs identField (by simp [vehicleFields]) rfl c!"ident"
      (.tagged (opts := []) ident_text rfl (by decide) (by decide) (by decide) (by simp))
      (fun _ => ⟨_, c!"ident", c!"ident", [], ident_text, rfl, by decide, by decide, by decide⟩)
    exact ⟨resp, s, n, sch, q1, q2, q3.ref, hs, ⟨u, hu⟩, kind_yaml,
      q3.untold rfl vehicle_yaml sch hs kindField (by simp [vehicleFields]) rfl kind_unnamed _ kind_yaml⟩
  · obtain ⟨resp, s, n, q1, q2, q3⟩ := (p .xml _ _ (car_target m).1 (vehicle_struct _)).1 201 ⟨main, hmain, car_sends_xml⟩ (fun _ _ _ h => car_sends_only h)
    obtain ⟨sch, hs⟩ := q3.found
    obtain ⟨u, hu, _⟩ := q3.named sch hs identField (by simp [vehicleFields]) rfl c!"no" (ident_named .xml)
    exact ⟨resp, s, n, sch, q1, q2, q3.ref, hs, ⟨u, hu⟩, fun _ => ident_no_element⟩

/-- The file of the run. -/
theorem car_text :
    let text := match (Astra.parseAll carLib c!"/w" noFaults carWorld).1.fs.look [c!"w", c!"api.json"] with | some (.file t) => t | _ => []
    occurrences c!"\"Kind\": {" text = 3 ∧ occurrences c!"\"kind\"" text = 0 ∧ occurrences c!"\"ident\": {" text = 1 ∧ occurrences c!"\"no\": {" text = 1 := by
  refine ⟨?_, ?_, ?_, ?_⟩ <;> decide +kernel

end Astra.Props
