/-
C112: a run for a handler that sends structs in formats that their tags miss.
-/
import Verif.Props.MissedBodies
import Verif.Props.BodyNamesDemo

namespace Astra.Props
open Astra.Spec

/-- `type Bill struct { No int; Note string }`, tagged for JSON. -/
def billFields : List (StructField × GoType) :=
  [({ name := c!"No", tag := oneTag c!"json" c!"no" }, .basic .int c!"int"),
   ({ name := c!"Note", tag := oneTag c!"json" c!"note" }, .basic .string c!"string")]

/-- `type Tax struct { Rate int; Code string }`, one tagged for JSON, the other for YAML. -/
def taxFields : List (StructField × GoType) :=
  [({ name := c!"Rate", tag := oneTag c!"json" c!"rate" }, .basic .int c!"int"),
   ({ name := c!"Code", tag := oneTag c!"yaml" c!"code" }, .basic .string c!"string")]

def billEnv : TypeEnv where
  loadable := fun p => p = shopPkg
  underlying := fun _ n _ => if n = c!"Bill" then .struct billFields else if n = c!"Tax" then .struct taxFields else .interface
  files := fun _ => [[.type none [{ name := c!"Bill" }, { name := c!"Tax" }]]]
  nodeAt := fun _ _ => .other
  parseFloat := fun _ => none

def billTypes (x : TName) : Prop := x = (shopPkg, c!"Bill", []) ∨ x = (shopPkg, c!"Tax", [])

def bill : GoType := .named (some shopPkg) c!"Bill" []
def tax : GoType := .named (some shopPkg) c!"Tax" []

/-- `Create` calls `YAML(200, bill)` and `JSON(201, tax)`. -/
def billProg : Prog :=
  { types := billEnv, filePkg := fun _ => shopPkg
    funcs := fun f => if f = 0 then { params := fun _ => ctxParams, body := [.call 0 [], .call 1 []], doc := some c!"Create.\n" } else {}
    view := fun _ id =>
      if id = 0 then { func := .ok (true, c!"YAML"), args := [{ value := .ok c!"200" }, { type := .ok bill }] }
      else if id = 1 then { func := .ok (true, c!"JSON"), args := [{ value := .ok c!"201" }, { type := .ok tax }] }
      else {} }

def billRoutes : RouteEnv where
  prog := billProg
  loadable p := p = shopPkg
  fileOf _ f := if f = c!"shop.go" then some 0 else none
  decls _ := [⟨c!"Create", 10, 0, []⟩]
  lowerCamel s := s

def billLib : Lib :=
  { routerLib with parse := fun _ cs r => match parseRoute billRoutes 3 cs r with | some x => x | none => (cs, .err []) }

theorem billLib_byModel : ByModel billLib (fun _ => billRoutes) := by
  refine ⟨fun _ f hf => (by cases hf), fun ctx cs r cs' r' h => ⟨3, ?_⟩⟩
  have h : (match parseRoute billRoutes 3 cs r with | some x => x | none => (cs, .err [])) = (cs', .ok r') := h
  cases hp : parseRoute billRoutes 3 cs r with
  | none => rw [hp] at h; cases h
  | some x => rw [hp] at h; rw [← h]

/-! ### The structs -/

theorem bill_flat : FlatStruct billFields := by
  refine ⟨by decide, by decide, ?_⟩
  intro e he _
  simp only [billFields, List.mem_cons, List.not_mem_nil, or_false] at he
  rcases he with rfl | rfl <;> exact .basic (by decide)

theorem tax_flat : FlatStruct taxFields := by
  refine ⟨by decide, by decide, ?_⟩
  intro e he _
  simp only [taxFields, List.mem_cons, List.not_mem_nil, or_false] at he
  rcases he with rfl | rfl <;> exact .basic (by decide)

theorem no_text : TagText (oneTag c!"json" c!"no") [(c!"json", c!"no")] := oneTag_text _ _ (by simp) (by unfold KeyChar; decide) (by decide)
theorem note_text : TagText (oneTag c!"json" c!"note") [(c!"json", c!"note")] := oneTag_text _ _ (by simp) (by unfold KeyChar; decide) (by decide)
theorem rate_text : TagText (oneTag c!"json" c!"rate") [(c!"json", c!"rate")] := oneTag_text _ _ (by simp) (by unfold KeyChar; decide) (by decide)
theorem code_text : TagText (oneTag c!"yaml" c!"code") [(c!"yaml", c!"code")] := oneTag_text _ _ (by simp) (by unfold KeyChar; decide) (by decide)

theorem bill_never : NeverTagged c!"yaml" billFields := by
  intro e he _
  simp only [billFields, List.mem_cons, List.not_mem_nil, or_false] at he
  rcases he with rfl | rfl
  · exact ⟨_, no_text, rfl, c!"json", by decide, by decide⟩
  · exact ⟨_, note_text, rfl, c!"json", by decide, by decide⟩

theorem bill_misses : Misses c!"yaml" billFields :=
  ⟨_, List.mem_cons_self, rfl, _, c!"json", no_text, rfl, by decide, by decide⟩

theorem tax_misses : ∀ key ∈ bindingKeys, Misses key taxFields := by
  have h : ∀ key, key ≠ c!"json" → Misses key taxFields := fun key hk =>
    ⟨_, List.mem_cons_self, rfl, _, c!"json", rate_text, by simp [tagValue, Ne.symm hk], by decide, by decide⟩
  intro key _
  by_cases hk : key = c!"json"
  · subst hk
    exact ⟨_, List.mem_cons_of_mem _ List.mem_cons_self, rfl, _, c!"yaml", code_text, rfl, by decide, by decide⟩
  · exact h key hk

/-! ### The hypotheses -/

theorem bill_typed : TypedProgram (fun _ => billRoutes) billEnv billTypes := by
  refine ⟨fun _ => rfl, fun _ => rfl, ?_⟩
  intro _ file id name a t x hf ha hat hx
  simp only [billRoutes, billProg] at ha
  by_cases h0 : id = 0
  · simp only [h0, if_true, List.mem_cons, List.not_mem_nil, or_false] at ha
    rcases ha with rfl | rfl
    · cases hat
    · cases hat; cases hx; exact Or.inl rfl
  · by_cases h1 : id = 1
    · simp only [h1, if_true, if_neg (show ¬ (1 : Nat) = 0 by decide), List.mem_cons, List.not_mem_nil, or_false] at ha
      rcases ha with rfl | rfl
      · cases hat
      · cases hat; cases hx; exact Or.inr rfl
    · simp [h0, h1] at ha

theorem bill_apart (m : Str) : NamedApart billEnv m billTypes := by
  have hfin : finalPackage m shopPkg = c!"main" ∨ finalPackage m shopPkg = shopPkg := by
    unfold finalPackage
    split
    · exact Or.inl rfl
    · exact Or.inr rfl
  refine ⟨?_, ?_, ?_, ?_, ?_, ?_, ?_⟩
  · rintro x (rfl | rfl) y hu
    · have hu : Occurs (.struct billFields) y := hu
      cases hu with
      | field he hx h => exact absurd h ((query_describable (Γ := billEnv) (bill_flat.types _ he hx)).2 y)
    · have hu : Occurs (.struct taxFields) y := hu
      cases hu with
      | field he hx h => exact absurd h ((query_describable (Γ := billEnv) (tax_flat.types _ he hx)).2 y)
  · rintro x (rfl | rfl) <;>
    · refine ⟨by decide, by decide, by decide, by decide, ?_⟩
      rcases hfin with h | h <;> rw [h] <;> decide
  · rintro x (rfl | rfl) <;> decide
  · rintro x (rfl | rfl) y (rfl | rfl) _ h <;> first | rfl | exact absurd h (by decide)
  · rintro x (rfl | rfl) h <;> exact absurd h (by decide)
  · rintro x (rfl | rfl) <;> trivial
  · intro pkgs h g
    refine ⟨0, fun p hp q hq _ _ hne => absurd ?_ hne⟩
    obtain ⟨x, hx, rfl⟩ := h p hp
    obtain ⟨y, hy, rfl⟩ := h q hq
    rcases hx with rfl | rfl <;> rcases hy with rfl | rfl <;> rfl

theorem bill_target (m : Str) : StructTarget billEnv carWorld.st.svc.maps.merged m bill billFields ∧
    StructTarget billEnv carWorld.st.svc.maps.merged m tax taxFields := by
  refine ⟨⟨(shopPkg, c!"Bill", []), .value _ _ _, by decide, rfl, ?_⟩, ⟨(shopPkg, c!"Tax", []), .value _ _ _, by decide, rfl, ?_⟩⟩
  all_goals
    unfold finalPackage
    split <;> decide +kernel

theorem bill_handler_is : HandlerIs billRoutes c!"example.com/shop.Create" c!"shop.go" 10 0 c!"Create" 0 true :=
  ⟨⟨c!"example.com/shop", ⟨c!"shop", c!"Create", Or.inr ⟨c!"example.com", rfl⟩, by decide, by decide, rfl, by decide, by decide, Or.inl rfl⟩, by decide +kernel⟩,
    by decide +kernel⟩

theorem bill_context : ContextParam billProg 0 0 c!"c" := (context_parameter_found billProg 0 0 c!"c" (by decide)).1 rfl

theorem bill_passes (id : Nat) (h : id = 0 ∨ id = 1) : ¬ PassesContext (billProg.view 0 id) c!"c" := by
  rintro ⟨a, ha, hi⟩
  rcases h with rfl | rfl
  all_goals cases ha with | head => cases hi | tail _ h => cases h with | head => cases hi | tail _ h => cases h

theorem bill_field (t : GoType) (args : List ArgView) (j : Nat) (ha : args[j]? = some { type := .ok t })
    (h : ((typeResult billEnv true 3 [] (some shopPkg) [] t).map (fun x => x.2.isOk)) = some true) : ∃ f, IsField billEnv shopPkg args j f := by
  cases hr : typeResult billEnv true 3 [] (some shopPkg) [] t with
  | none => rw [hr] at h; cases h
  | some x =>
    obtain ⟨c', r⟩ := x
    cases r with
    | ok r => exact ⟨_, _, _, _, _, r, ha, rfl, ⟨3, hr⟩, rfl⟩
    | err _ => rw [hr] at h; cases h
    | panic _ => rw [hr] at h; cases h

theorem bill_status_yaml : IsStatus (billProg.view 0 0).args 0 200 := ⟨_, c!"200", rfl, rfl, by decide +kernel⟩
theorem bill_status_json : IsStatus (billProg.view 0 1).args 0 201 := ⟨_, c!"201", rfl, rfl, by decide +kernel⟩

theorem bill_view : ∃ comment id es, HandlerView billRoutes c!"example.com/shop.Create" c!"shop.go" 10 comment id es := by
  have hl : ∀ call, AllLeave billProg c!"c" call := by intro call f hf; cases hf
  obtain ⟨f0, t0⟩ := bill_field bill (billProg.view 0 0).args 1 rfl (by decide +kernel)
  obtain ⟨f1, t1⟩ := bill_field tax (billProg.view 0 1).args 1 rfl (by decide +kernel)
  exact ⟨_, _, _, 0, c!"Create", 0, true, c!"c", bill_handler_is, bill_context,
    ⟨true, .context (hl _) (bill_passes 0 (by simp)) rfl (.yaml bill_status_yaml t0) .nil
    (.context (hl _) (bill_passes 1 (by simp)) rfl (.json (by simp) bill_status_json t1) .nil .nil)⟩, rfl, rfl⟩

theorem bill_calls {pkg m : Str} {args : List ArgView} (h : Calls billProg 0 c!"c" (billProg.funcs 0).body pkg m args) :
    (m = c!"YAML" ∧ args = (billProg.view 0 0).args) ∨ (m = c!"JSON" ∧ args = (billProg.view 0 1).args) := by
  have h : Calls billProg 0 c!"c" [.call 0 [], .call 1 []] pkg m args := h
  have name : ∀ {n : Str}, (Res.ok (true, n) : Res (Bool × Str)) = .ok (true, m) → m = n := by
    intro n h
    injection h with h
    exact (Prod.mk.inj h).2.symm
  cases h with
  | here _ hf => exact Or.inl ⟨name hf, rfl⟩
  | helper h => exact absurd h (bill_passes 0 (by simp))
  | inside _ h => cases h
  | later h =>
    cases h with
    | here _ hf => exact Or.inr ⟨name hf, rfl⟩
    | helper h => exact absurd h (bill_passes 1 (by simp))
    | inside _ h => cases h
    | later h => cases h

theorem bill_sends_yaml : HandlerSendsAs billRoutes c!"example.com/shop.Create" c!"shop.go" 10 .yaml 200 bill :=
  ⟨0, c!"Create", 0, true, c!"c", shopPkg, c!"YAML", _, _, bill_handler_is, bill_context, .here (bill_passes 0 (by simp)) rfl, by decide,
    bill_status_yaml, rfl, rfl⟩

theorem bill_sends_json : HandlerSendsAs billRoutes c!"example.com/shop.Create" c!"shop.go" 10 .json 201 tax :=
  ⟨0, c!"Create", 0, true, c!"c", shopPkg, c!"JSON", _, _, bill_handler_is, bill_context, .later (.here (bill_passes 1 (by simp)) rfl), by decide,
    bill_status_json, rfl, rfl⟩

theorem bill_sends_only {kind : BodyKind} {code : Int} {t : GoType}
    (h : HandlerSendsAs billRoutes c!"example.com/shop.Create" c!"shop.go" 10 kind code t) : (kind = .yaml ∧ t = bill) ∨ (kind = .json ∧ t = tax) := by
  obtain ⟨_, _, _, _, _, pkg, m, args, a, hh, hctx, hC, hm, _, ha, hat⟩ := h
  obtain ⟨rfl, rfl, rfl⟩ := handler_unique bill_handler_is hh
  have := contextParam_unique bill_context hctx
  subst this
  rcases bill_calls hC with ⟨rfl, rfl⟩ | ⟨rfl, rfl⟩
  · cases ha; cases hat
    cases kind <;> first | exact Or.inl ⟨rfl, rfl⟩ | exact absurd hm (by decide)
  · cases ha; cases hat
    cases kind <;> first | exact Or.inr ⟨rfl, rfl⟩ | exact absurd hm (by decide)

theorem bill_ok : Astra.parseAll billLib c!"/w" noFaults carWorld = ((Astra.parseAll billLib c!"/w" noFaults carWorld).1, .ok ()) := by
  have hok : (Astra.parseAll billLib c!"/w" noFaults carWorld).2 = .ok () := by decide +kernel
  rw [← hok]

/-! ### The run -/

/-- C112, violated: `Bill` is tagged for JSON and sent as YAML, and the response has no content; the fields of `Tax` are tagged for different formats,
and the response has no content or a reference to a schema that the document does not have. -/
theorem bill_run : ∃ doc text, (Astra.parseAll billLib c!"/w" noFaults carWorld).1.fs.look [c!"w", c!"api.json"] = some (.file text) ∧
    billLib.render false doc = .ok text ∧ ∃ op, Document.operation doc c!"/cars" c!"POST" = some op ∧
      (∃ resp, mget op.responses c!"200" = some resp ∧ mget resp.content c!"application/yaml" = none) ∧
      (∃ resp, mget op.responses c!"201" = some resp ∧ (mget resp.content c!"application/json" = none ∨
        ∃ n, mget resp.content c!"application/json" = some { ref := c!"#/components/schemas/" ++ n } ∧ ∀ sch, (n, sch) ∉ doc.schemas)) := by
  obtain ⟨m, _, _, doc, text, _, h1, h2, h3⟩ := run_missed_bodies_untold billLib (fun _ => billRoutes) billLib_byModel (fun _ => False)
    (fun _ _ _ => ⟨fun _ _ => rfl, id, rfl, rfl, rfl, rfl, rfl, rfl, rfl, rfl⟩) c!"/w" noFaults carWorld _ [c!"w"]
    (Or.inr (by decide)) (by decide) item_names (by decide) [[carInfo]] (ginInput_one rfl) rfl (by rw [car_allowed]; unfold DistinctRoutes; decide)
    [] [] _ rfl (options_shape _).2 (by simp) 0 rfl [c!"w", c!"api.json"] (show [c!"w", c!"api.json"] = _ by decide) car_place id
    rfl rfl (fun _ => List.Perm.refl _) billEnv billTypes bill_typed bill_ok
  obtain ⟨relative, mains, hrel, hlen, h4⟩ := h3 (bill_apart m) carInfo (by rw [car_allowed]; simp) (by decide) (by
    rw [car_allowed]; intro j hj; simp at hj; intro _ _; exact hj)
  have hrel' : relative = c!"shop.go" := by cases hrel; rfl
  subst hrel'
  obtain ⟨comment, id, es, hv⟩ := bill_view
  obtain ⟨main, hmain⟩ := List.exists_mem_of_length_pos (show 0 < mains.length by rw [hlen]; decide)
  obtain ⟨op, hop, p⟩ := h4 comment id es (fun _ _ => hv)
  refine ⟨doc, text, h1, h2, op, hop, ?_, ?_⟩
  · obtain ⟨resp, q1, _, q3⟩ := (p .yaml _ _ (bill_target m).1 bill_flat bill_misses).1 200 ⟨main, hmain, bill_sends_yaml⟩ (by
      intro _ _ t' h
      rcases bill_sends_only h with ⟨_, h⟩ | ⟨h, _⟩
      · exact h
      · cases h)
    exact ⟨resp, q1, q3 bill_never⟩
  · obtain ⟨resp, q1, q2, _⟩ := (p .json _ _ (bill_target m).2 tax_flat (tax_misses _ (by decide))).1 201 ⟨main, hmain, bill_sends_json⟩ (by
      intro _ _ t' h
      rcases bill_sends_only h with ⟨h, _⟩ | ⟨_, h⟩
      · cases h
      · exact h)
    refine ⟨resp, q1, ?_⟩
    rcases q2 with h | ⟨n, h, hs⟩
    · exact Or.inl h
    · refine Or.inr ⟨n, h, fun sch hm => ?_⟩
      obtain ⟨key, hk, hno⟩ := hs ⟨sch, hm⟩
      exact hno (tax_misses key hk)

/-- The file of the run: a reference to a schema that is not there, and no content for YAML. -/
theorem bill_text :
    let text := match (Astra.parseAll billLib c!"/w" noFaults carWorld).1.fs.look [c!"w", c!"api.json"] with | some (.file t) => t | _ => []
    occurrences c!"application/yaml" text = 0 ∧ occurrences c!"\"#/components/schemas/shop.Tax\"" text = 1 ∧ occurrences c!"\"shop.Tax\"" text = 0 ∧
      occurrences c!"\"shop.Bill\"" text = 1 := by
  refine ⟨?_, ?_, ?_, ?_⟩ <;> decide +kernel

end Astra.Props
