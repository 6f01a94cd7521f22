/-
C115: a run for a handler that sends two types with one status code.
-/
import Verif.Props.MixedAnswers
import Verif.Props.FormsDemo

namespace Astra.Props
open Astra.Spec

/-- `Pick` calls `JSON(200, names)` with names of the type `[]string`, and `JSON(200, numbers)` with numbers of the type `[]int`. -/
def pickProg : Prog :=
  { types := itemEnv, filePkg := fun _ => shopPkg
    funcs := fun f => if f = 0 then { params := fun _ => ctxParams, body := [.call 0 [], .call 1 []], doc := some c!"Pick.\n" } else {}
    view := fun _ id =>
      if id = 0 then { func := .ok (true, c!"JSON"), args := [{ value := .ok c!"200" }, { type := .ok (.slice (.basic .string c!"string")) }] }
      else if id = 1 then { func := .ok (true, c!"JSON"), args := [{ value := .ok c!"200" }, { type := .ok (.slice (.basic .int c!"int")) }] }
      else {} }

def pickRoutes : RouteEnv where
  prog := pickProg
  loadable p := p = shopPkg
  fileOf _ f := if f = c!"shop.go" then some 0 else none
  decls _ := [⟨c!"Pick", 10, 0, []⟩]
  lowerCamel s := s

def pickLib : Lib :=
  { routerLib with parse := fun _ cs r => match parseRoute pickRoutes 3 cs r with | some x => x | none => (cs, .err []) }

theorem pickLib_byModel : ByModel pickLib (fun _ => pickRoutes) := by
  refine ⟨fun _ f hf => (by cases hf), fun ctx cs r cs' r' h => ⟨3, ?_⟩⟩
  have h : (match parseRoute pickRoutes 3 cs r with | some x => x | none => (cs, .err [])) = (cs', .ok r') := h
  cases hp : parseRoute pickRoutes 3 cs r with
  | none => rw [hp] at h; cases h
  | some x => rw [hp] at h; rw [← h]

def pickInfo : RouteInfo := ⟨c!"GET", c!"/pick", c!"example.com/shop.Pick", c!"shop.go", 10⟩

def pickWorld : World Proc :=
  { fs := itemWorld.fs, cwd := [c!"w"]
    st := { svc := newService [.workDir c!"/w", .ginInput (some [pickInfo]), .openApiOutput c!"api.json",
      .config (some { title := c!"t", host := c!"localhost", port := 8000, basePath := c!"/" })] } }

theorem pick_handler_is : HandlerIs pickRoutes c!"example.com/shop.Pick" c!"shop.go" 10 0 c!"Pick" 0 true :=
  ⟨⟨c!"example.com/shop", ⟨c!"shop", c!"Pick", Or.inr ⟨c!"example.com", rfl⟩, by decide, by decide, rfl, by decide, by decide, Or.inl rfl⟩, by decide +kernel⟩,
    by decide +kernel⟩

theorem pick_context : ContextParam pickProg 0 0 c!"c" := (context_parameter_found pickProg 0 0 c!"c" (by decide)).1 rfl

theorem pick_passes (id : Nat) (h : id < 2) : ¬ PassesContext (pickProg.view 0 id) c!"c" := by
  rintro ⟨a, ha, hi⟩
  have h : id = 0 ∨ id = 1 := by omega
  rcases h with rfl | rfl
  · cases ha with
    | head => cases hi
    | tail _ h => cases h with | head => cases hi | tail _ h => cases h
  · cases ha with
    | head => cases hi
    | tail _ h => cases h with | head => cases hi | tail _ h => cases h

theorem pick_field (t : GoType) (args : List ArgView) (ha : args[1]? = some { type := .ok t })
    (h : ((typeResult itemEnv true 3 [] (some shopPkg) [] t).map (fun x => x.2.isOk)) = some true) : ∃ f, IsField itemEnv shopPkg args 1 f := by
  cases hr : typeResult itemEnv true 3 [] (some shopPkg) [] t with
  | none => rw [hr] at h; cases h
  | some x =>
    obtain ⟨c', r⟩ := x
    cases r with
    | ok r => exact ⟨_, _, _, _, _, r, ha, rfl, ⟨3, hr⟩, rfl⟩
    | err _ => rw [hr] at h; cases h
    | panic _ => rw [hr] at h; cases h

theorem pick_status0 : IsStatus (pickProg.view 0 0).args 0 200 := ⟨_, c!"200", rfl, rfl, by decide +kernel⟩
theorem pick_status1 : IsStatus (pickProg.view 0 1).args 0 200 := ⟨_, c!"200", rfl, rfl, by decide +kernel⟩

theorem pick_view : ∃ es, HandlerView pickRoutes c!"example.com/shop.Pick" c!"shop.go" 10 (docOf pickProg 0 []) c!"Pick" es := by
  have hl : ∀ call, AllLeave pickProg c!"c" call := by intro call f hf; cases hf
  obtain ⟨f1, h1⟩ := pick_field _ (pickProg.view 0 0).args rfl (by decide +kernel)
  obtain ⟨f2, h2⟩ := pick_field _ (pickProg.view 0 1).args rfl (by decide +kernel)
  exact ⟨_, 0, c!"Pick", 0, true, c!"c", pick_handler_is, pick_context,
    ⟨true, .context (hl _) (pick_passes 0 (by decide)) rfl (.json (by decide) pick_status0 h1) .nil
    (.context (hl _) (pick_passes 1 (by decide)) rfl (.json (by decide) pick_status1 h2) .nil .nil)⟩, rfl, rfl⟩

theorem pick_sends (t : GoType) : HandlerSends pickRoutes c!"example.com/shop.Pick" c!"shop.go" 10 200 t ↔
    t = .slice (.basic .string c!"string") ∨ t = .slice (.basic .int c!"int") := by
  constructor
  · rintro ⟨file, name, f, named, ctx, hh, hp, pkg, m, args, a, hC, _, _, ha, hat⟩
    obtain ⟨rfl, rfl, rfl⟩ := handler_unique hh pick_handler_is
    cases contextParam_unique hp pick_context
    generalize hn : (pickRoutes.prog.funcs 0).body = nodes at hC
    have hn : [Node.call 0 [], Node.call 1 []] = nodes := hn
    subst hn
    cases hC with
    | here _ hf => cases ha; cases hat; exact Or.inl rfl
    | helper hp => exact absurd hp (pick_passes 0 (by decide))
    | inside _ h => nomatch h
    | later h =>
      cases h with
      | here _ hf => cases ha; cases hat; exact Or.inr rfl
      | helper hp => exact absurd hp (pick_passes 1 (by decide))
      | inside _ h => nomatch h
      | later h => nomatch h
  · rintro (rfl | rfl)
    · exact ⟨0, c!"Pick", 0, true, c!"c", pick_handler_is, pick_context, _, _, _, _, .here (pick_passes 0 (by decide)) rfl, by decide, pick_status0, rfl, rfl⟩
    · exact ⟨0, c!"Pick", 0, true, c!"c", pick_handler_is, pick_context, _, _, _, _, .later (.here (pick_passes 1 (by decide)) rfl), by decide, pick_status1, rfl, rfl⟩

theorem pick_allowed : allowed pickWorld.st.svc.denyList [[pickInfo]].flatten = [pickInfo] := by
  show [[pickInfo]].flatten.filter _ = _
  rfl

theorem pick_ok : Astra.parseAll pickLib c!"/w" noFaults pickWorld = ((Astra.parseAll pickLib c!"/w" noFaults pickWorld).1, .ok ()) := by
  have hok : (Astra.parseAll pickLib c!"/w" noFaults pickWorld).2 = .ok () := by decide +kernel
  rw [← hok]

theorem pick_place : OwnPlace pickWorld.cwd [c!"w"] pickWorld.st.svc [] [c!"w", c!"api.json"] := by
  refine ⟨by decide, ?_, by simp⟩
  rintro ⟨h, _⟩
  cases h

/-- C115, violated: the run succeeds, the handler sends both types with the status code 200, and there is one of them of which no value but the empty
slice is admitted. -/
theorem pick_run : ∃ doc text, (Astra.parseAll pickLib c!"/w" noFaults pickWorld).1.fs.look [c!"w", c!"api.json"] = some (.file text) ∧
    pickLib.render false doc = .ok text ∧ ∃ op resp S, Document.operation doc c!"/pick" c!"GET" = some op ∧ mget op.responses c!"200" = some resp ∧
      mget resp.content c!"application/json" = some S ∧ ∃ t, HandlerSends pickRoutes c!"example.com/shop.Pick" c!"shop.go" 10 200 t ∧
        ∀ Γ marshal v, Encodes Γ marshal false t v → v ≠ .arr [] → ¬ Admits doc.schemas S v := by
  obtain ⟨doc, text, h1, h2, h3⟩ := run_mixed_answers_partial pickLib (fun _ => pickRoutes) pickLib_byModel (fun _ => False)
    (fun _ _ _ => ⟨fun _ _ => rfl, id, rfl, rfl, rfl, rfl, rfl, rfl, rfl, rfl⟩) (fun _ => someChoice_valid) c!"/w" noFaults pickWorld _ [c!"w"]
    (Or.inr (by decide)) (by decide) item_names (by decide) [[pickInfo]] (ginInput_one rfl) rfl (by rw [pick_allowed]; unfold DistinctRoutes; decide)
    [] [] _ rfl (options_shape _).2 (by simp) 0 rfl [c!"w", c!"api.json"] (show [c!"w", c!"api.json"] = _ by decide) pick_place id
    (fun _ => rfl) pick_ok
  obtain ⟨relative, mains, hrel, hlen, h4⟩ := h3 pickInfo (by rw [pick_allowed]; simp) (by decide) (by
    rw [pick_allowed]; intro j hj; simp at hj; intro _ _; exact hj)
  have hrel' : relative = c!"shop.go" := by cases hrel; rfl
  subst hrel'
  obtain ⟨main, hmain⟩ := List.exists_mem_of_length_pos (show 0 < mains.length by rw [hlen]; decide)
  obtain ⟨es, hview⟩ := pick_view
  obtain ⟨op, hop, h5⟩ := h4 _ _ _ (fun _ _ => hview)
  obtain ⟨t, resp, S, hs, hresp, hcont, hall⟩ := h5 main hmain _ rfl 200 ⟨_, (pick_sends _).mpr (Or.inl rfl)⟩ (by
    intro t ht
    rcases (pick_sends t).mp ht with rfl | rfl
    · exact .slice (by decide) (by decide)
    · exact .slice (by decide) (by decide))
  rw [show itoa 200 = c!"200" by decide +kernel] at hresp
  refine ⟨doc, text, h1, h2, op, resp, S, hop, hresp, hcont, ?_⟩
  rcases (pick_sends t).mp hs with rfl | rfl
  · exact ⟨_, (pick_sends _).mpr (Or.inr rfl), fun Γ marshal v => (hall Γ marshal).2 _ ((pick_sends _).mpr (Or.inr rfl)) (by decide) v⟩
  · exact ⟨_, (pick_sends _).mpr (Or.inl rfl), fun Γ marshal v => (hall Γ marshal).2 _ ((pick_sends _).mpr (Or.inl rfl)) (by decide) v⟩

/-- There are such values: `[]int{7}`. -/
example : Encodes itemEnv (fun _ _ => none) false (.slice (.basic .int c!"int")) (.arr [.num c!"7"]) ∧ Json.arr [.num c!"7"] ≠ .arr [] := by
  refine ⟨.slice ?_ ?_, by simp⟩
  · rintro (h | h) <;> exact absurd h (by decide)
  · intro x hx
    rw [List.mem_singleton.mp hx]
    have := Encodes.integer (Γ := itemEnv) (marshal := fun _ _ => none) (nils := false) (k := .int) (n := c!"int") 7 (by decide)
    rw [show itoa 7 = c!"7" by decide +kernel] at this
    exact this

/-- The file of the run: both slices are taken for the same response, so the second is left out, and the numbers are not there at all. -/
theorem pick_text :
    let text := match (Astra.parseAll pickLib c!"/w" noFaults pickWorld).1.fs.look [c!"w", c!"api.json"] with | some (.file t) => t | _ => []
    occurrences c!"\"type\": \"array\"" text = 1 ∧ occurrences c!"\"type\": \"string\"" text = 1 ∧ occurrences c!"\"type\": \"integer\"" text = 0 := by
  refine ⟨?_, ?_, ?_⟩ <;> decide +kernel

end Astra.Props
