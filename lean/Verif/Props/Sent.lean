/-
C90, C91: the JSON that handlers send and read is what the document says.
-/
import Verif.Spec.Sent
import Verif.Props.RunTypes
import Verif.Props.SchemaShape

namespace Astra.Props
open Astra.Spec

/-! ### Schemas of bodies -/

theorem admits_dropFormat {schemas : List (Str × Schema)} {s : Schema} {v : Json} (h : Admits schemas s v) :
    Admits schemas (dropFormat s) v := by
  cases h with
  | ref h1 h2 h3 => exact .ref (s := dropFormat s) h1 h2 h3
  | here h1 h2 h3 h4 h5 h6 h7 => exact .here (s := dropFormat s) h1 h2 h3 h4 h5 h6 h7

theorem admits_items {schemas : List (Str × Schema)} {s : Schema} {v : Json} (h : Admits schemas s v) :
    Admits schemas { s with items := s.items.map dropFormat } v := by
  cases h with
  | ref h1 h2 h3 => exact .ref (s := { s with items := s.items.map dropFormat }) h1 h2 h3
  | here h1 h2 h3 h4 h5 h6 h7 =>
    refine .here (s := { s with items := s.items.map dropFormat }) h1 h2 h3 ?_ h5 h6 h7
    intro i xs hi hv x hx
    simp only [Option.map_eq_some_iff] at hi
    obtain ⟨i', hi', rfl⟩ := hi
    exact admits_dropFormat (h4 i' xs hi' hv x hx)

/-- Only interfaces have the schema that admits everything. -/
theorem empty_schema_interface {target : Str → Str → Option Str} {t : GoType} {s : Schema} (h : TypeSchema target t s)
    (he : { s with items := s.items.map dropFormat } = ({} : Schema)) : IsInterface t := by
  induction h with
  | primitive hp =>
    rename_i n type format
    have h1 : type = [] := congrArg Schema.type he
    exact absurd h1 (by
      have : ∀ x ∈ primitives, x.2.1 ≠ [] := by decide
      exact this _ hp)
  | interface => trivial
  | named _ => exact absurd (congrArg Schema.ref he) (by simp)
  | pointer _ ih => exact ih he
  | slice _ _ => exact absurd (congrArg Schema.type he) (by simp)
  | array _ _ => exact absurd (congrArg Schema.type he) (by simp)
  | map _ _ => exact absurd (congrArg Schema.type he) (by simp)
  | slices _ => exact absurd (congrArg Schema.type he) (by simp)
  | arrays _ => exact absurd (congrArg Schema.type he) (by simp)
  | maps _ => exact absurd (congrArg Schema.type he) (by simp)

/-- The schema of the body whose type was translated. -/
theorem body_of_type {Γ : TypeEnv} {c c' : List Field} {pkg m : Str} {t : GoType} {r : Result} (hd : Describable Γ t) (ha : ¬ IsArray t)
    (h : Translates Γ c (some pkg) t (c', .ok r)) {SE : SchemaEnv} {b : BTag}
    (htgt : ∀ x, Occurs t x → (targetOf SE.names m b x.1 x.2.1).isSome = true) :
    ∃ s, TypeSchema (targetOf SE.names m b) t s ∧
      mapFieldToSchema SE b (cleanField m (parseResultToField r)) = some { s with items := s.items.map dropFormat } := by
  obtain ⟨k, h⟩ := h
  have key : ∀ rec, typeStep Γ true rec c (some pkg) [] t = some (c', .ok r) →
      ∃ s, TypeSchema (targetOf SE.names m b) t s ∧
        mapFieldToSchema SE b (cleanField m (parseResultToField r)) = some { s with items := s.items.map dropFormat } := by
    intro rec h
    obtain ⟨s, hs⟩ := describable_shape (names := SE.names) (m := m) (b := b) Γ rec hd c (some pkg) [] c' r h (Or.inl rfl)
      (fun f hf _ => nameless_not_substituted hf) (fun k n p _ hne _ => absurd rfl hne) htgt r.doc r.isEmbedded r.bindingTags r.validationTags
    cases r
    exact ⟨s, hs.type, body_schema_partial SE b _ s hs.field (fun h => ha (hs.array h)) hs.noEnum hs.dots⟩
  cases k with
  | zero => exact key _ h
  | succ k => exact key _ h

/-! ### The calls and the entries -/

/-- A response entry for JSON comes from a call that sends it, and every such call has one; the same for bodies. `C` are the calls. -/
structure JsonEntries (Γ : TypeEnv) (C : Str → Str → List ArgView → Prop) (es : List Entry) : Prop where
  sent : ∀ e ∈ es, ∀ rt ∈ e.responses, rt.contentType = c!"application/json" →
    ∃ pkg m args, C pkg m args ∧ m ∈ [c!"JSON", c!"AbortWithStatusJSON"] ∧ IsStatus args 0 rt.statusCode ∧ IsField Γ pkg args 1 rt.field
  sends : ∀ pkg m args code, C pkg m args → m ∈ [c!"JSON", c!"AbortWithStatusJSON"] → IsStatus args 0 code →
    ∃ e ∈ es, ∃ rt ∈ e.responses, rt.contentType = c!"application/json" ∧ rt.statusCode = code
  bound : ∀ e ∈ es, ∀ bp ∈ e.body, bp.contentType = c!"application/json" →
    bp.name = [] ∧ ∃ pkg m args, C pkg m args ∧ m ∈ [c!"BindJSON", c!"ShouldBindJSON", c!"Bind", c!"ShouldBind"] ∧ IsField Γ pkg args 0 bp.field
  binds : ∀ pkg m args, C pkg m args → m ∈ [c!"BindJSON", c!"ShouldBindJSON", c!"Bind", c!"ShouldBind"] →
    ∃ e ∈ es, ∃ bp ∈ e.body, bp.contentType = c!"application/json"

theorem JsonEntries.none {Γ : TypeEnv} {C : Str → Str → List ArgView → Prop}
    (h : ∀ pkg m args, C pkg m args → m ∉ supportedMethods) : JsonEntries Γ C [] where
  sent := by simp
  sends := fun pkg m args _ hC hm _ => absurd (by
    simp only [List.mem_cons, List.not_mem_nil, or_false] at hm
    rcases hm with rfl | rfl <;> decide) (h pkg m args hC)
  bound := by simp
  binds := fun pkg m args hC hm => absurd (by
    simp only [List.mem_cons, List.not_mem_nil, or_false] at hm
    rcases hm with rfl | rfl | rfl | rfl <;> decide) (h pkg m args hC)

theorem JsonEntries.append {Γ : TypeEnv} {C C1 C2 : Str → Str → List ArgView → Prop} {es1 es2 : List Entry}
    (h1 : JsonEntries Γ C1 es1) (h2 : JsonEntries Γ C2 es2) (h : ∀ pkg m args, C pkg m args ↔ C1 pkg m args ∨ C2 pkg m args) :
    JsonEntries Γ C (es1 ++ es2) where
  sent := by
    intro e he rt hrt hj
    rcases List.mem_append.mp he with he | he
    · obtain ⟨pkg, m, args, hC, hr⟩ := h1.sent e he rt hrt hj
      exact ⟨pkg, m, args, (h _ _ _).mpr (Or.inl hC), hr⟩
    · obtain ⟨pkg, m, args, hC, hr⟩ := h2.sent e he rt hrt hj
      exact ⟨pkg, m, args, (h _ _ _).mpr (Or.inr hC), hr⟩
  sends := by
    intro pkg m args code hC hm hs
    rcases (h _ _ _).mp hC with hC | hC
    · obtain ⟨e, he, hr⟩ := h1.sends pkg m args code hC hm hs
      exact ⟨e, List.mem_append_left _ he, hr⟩
    · obtain ⟨e, he, hr⟩ := h2.sends pkg m args code hC hm hs
      exact ⟨e, List.mem_append_right _ he, hr⟩
  bound := by
    intro e he rt hrt hj
    rcases List.mem_append.mp he with he | he
    · obtain ⟨h0, pkg, m, args, hC, hr⟩ := h1.bound e he rt hrt hj
      exact ⟨h0, pkg, m, args, (h _ _ _).mpr (Or.inl hC), hr⟩
    · obtain ⟨h0, pkg, m, args, hC, hr⟩ := h2.bound e he rt hrt hj
      exact ⟨h0, pkg, m, args, (h _ _ _).mpr (Or.inr hC), hr⟩
  binds := by
    intro pkg m args hC hm
    rcases (h _ _ _).mp hC with hC | hC
    · obtain ⟨e, he, hr⟩ := h1.binds pkg m args hC hm
      exact ⟨e, List.mem_append_left _ he, hr⟩
    · obtain ⟨e, he, hr⟩ := h2.binds pkg m args hC hm
      exact ⟨e, List.mem_append_right _ he, hr⟩

theorem JsonEntries.same {Γ : TypeEnv} {C C1 : Str → Str → List ArgView → Prop} {es : List Entry}
    (h1 : JsonEntries Γ C1 es) (h : ∀ pkg m args, C pkg m args ↔ C1 pkg m args) : JsonEntries Γ C es := by
  have : C = C1 := by funext a b c; exact propext (h a b c)
  rw [this]; exact h1

/-- What one documented call contributes. -/
theorem documented_json {Γ : TypeEnv} {pkg : Str} {args : List ArgView} {m : Str} {e : Entry} (h : Documented Γ pkg args m e) :
    (∀ rt ∈ e.responses, rt.contentType = c!"application/json" →
      m ∈ [c!"JSON", c!"AbortWithStatusJSON"] ∧ IsStatus args 0 rt.statusCode ∧ IsField Γ pkg args 1 rt.field) ∧
    (m ∈ [c!"JSON", c!"AbortWithStatusJSON"] → ∀ code, IsStatus args 0 code →
      ∃ rt ∈ e.responses, rt.contentType = c!"application/json" ∧ rt.statusCode = code) ∧
    (∀ bp ∈ e.body, bp.contentType = c!"application/json" →
      m ∈ [c!"BindJSON", c!"ShouldBindJSON", c!"Bind", c!"ShouldBind"] ∧ bp.name = [] ∧ IsField Γ pkg args 0 bp.field) ∧
    (m ∈ [c!"BindJSON", c!"ShouldBindJSON", c!"Bind", c!"ShouldBind"] → ∃ bp ∈ e.body, bp.contentType = c!"application/json") := by
  have two : ∀ {i : Nat} {a b : Int}, IsStatus args i a → IsStatus args i b → a = b := by
    rintro i a b ⟨x, s, h1, h2, h3⟩ ⟨y, s', k1, k2, k3⟩
    rw [h1] at k1; cases k1
    rw [h2] at k2; cases k2
    rw [h3] at k3; cases k3
    rfl
  cases h with
  | json hm hs hf =>
    refine ⟨?_, ?_, by simp, ?_⟩
    · intro rt hrt _
      simp only [List.mem_singleton] at hrt
      subst hrt
      exact ⟨hm, hs, hf⟩
    · intro _ code hcode
      exact ⟨_, List.mem_singleton.mpr rfl, rfl, two hs hcode⟩
    · intro hm'
      simp only [List.mem_cons, List.not_mem_nil, or_false] at hm hm'
      rcases hm with rfl | rfl <;> exact absurd hm' (by decide)
  | xml hs hf => exact ⟨by simp, fun h => absurd h (by decide), by simp, fun h => absurd h (by decide)⟩
  | yaml hs hf => exact ⟨by simp, fun h => absurd h (by decide), by simp, fun h => absurd h (by decide)⟩
  | protobuf hs hf => exact ⟨by simp, fun h => absurd h (by decide), by simp, fun h => absurd h (by decide)⟩
  | string hs => exact ⟨by simp, fun h => absurd h (by decide), by simp, fun h => absurd h (by decide)⟩
  | status hm hs =>
    simp only [List.mem_cons, List.not_mem_nil, or_false] at hm
    rcases hm with rfl | rfl | rfl <;> exact ⟨by simp, fun h => absurd h (by decide), by simp, fun h => absurd h (by decide)⟩
  | query hm hn =>
    simp only [List.mem_cons, List.not_mem_nil, or_false] at hm
    rcases hm with rfl | rfl <;> exact ⟨by simp, fun h => absurd h (by decide), by simp, fun h => absurd h (by decide)⟩
  | queryArray hm hn =>
    simp only [List.mem_cons, List.not_mem_nil, or_false] at hm
    rcases hm with rfl | rfl <;> exact ⟨by simp, fun h => absurd h (by decide), by simp, fun h => absurd h (by decide)⟩
  | queryMap hm hn =>
    simp only [List.mem_cons, List.not_mem_nil, or_false] at hm
    rcases hm with rfl | rfl <;> exact ⟨by simp, fun h => absurd h (by decide), by simp, fun h => absurd h (by decide)⟩
  | bindQuery hm hf =>
    simp only [List.mem_cons, List.not_mem_nil, or_false] at hm
    rcases hm with rfl | rfl <;> exact ⟨by simp, fun h => absurd h (by decide), by simp, fun h => absurd h (by decide)⟩
  | bind hm hf =>
    refine ⟨by simp, ?_, ?_, ?_⟩
    · intro h
      simp only [List.mem_cons, List.not_mem_nil, or_false] at hm
      rcases hm with rfl | rfl <;> exact absurd h (by decide)
    · intro bp hbp _
      simp only [List.mem_map] at hbp
      obtain ⟨ct, _, rfl⟩ := hbp
      refine ⟨?_, rfl, hf⟩
      simp only [List.mem_cons, List.not_mem_nil, or_false] at hm ⊢
      rcases hm with rfl | rfl
      · exact Or.inr (Or.inr (Or.inl rfl))
      · exact Or.inr (Or.inr (Or.inr rfl))
    · intro _
      exact ⟨_, List.mem_map.mpr ⟨c!"application/json", by decide, rfl⟩, rfl⟩
  | bindJSON hm hf =>
    refine ⟨by simp, ?_, ?_, ?_⟩
    · intro h
      simp only [List.mem_cons, List.not_mem_nil, or_false] at hm
      rcases hm with rfl | rfl <;> exact absurd h (by decide)
    · intro bp hbp _
      simp only [List.mem_singleton] at hbp
      subst hbp
      refine ⟨?_, rfl, hf⟩
      simp only [List.mem_cons, List.not_mem_nil, or_false] at hm ⊢
      rcases hm with rfl | rfl
      · exact Or.inl rfl
      · exact Or.inr (Or.inl rfl)
    · intro _
      exact ⟨_, List.mem_singleton.mpr rfl, rfl⟩
  | bindXML hm hf =>
    simp only [List.mem_cons, List.not_mem_nil, or_false] at hm
    rcases hm with rfl | rfl <;> exact ⟨by simp, fun h => absurd h (by decide), by simp, fun h => absurd h (by decide)⟩
  | bindYAML hm hf =>
    simp only [List.mem_cons, List.not_mem_nil, or_false] at hm
    rcases hm with rfl | rfl <;> exact ⟨by simp, fun h => absurd h (by decide), by simp, fun h => absurd h (by decide)⟩
  | postForm hm hn =>
    simp only [List.mem_cons, List.not_mem_nil, or_false] at hm
    rcases hm with rfl | rfl <;> exact ⟨by simp, fun h => absurd h (by decide), by simp, fun h => absurd h (by decide)⟩
  | postFormArray hm hn =>
    simp only [List.mem_cons, List.not_mem_nil, or_false] at hm
    rcases hm with rfl | rfl <;> exact ⟨by simp, fun h => absurd h (by decide), by simp, fun h => absurd h (by decide)⟩
  | postFormMap hm hn =>
    simp only [List.mem_cons, List.not_mem_nil, or_false] at hm
    rcases hm with rfl | rfl <;> exact ⟨by simp, fun h => absurd h (by decide), by simp, fun h => absurd h (by decide)⟩
  | formFile hn => exact ⟨by simp, fun h => absurd h (by decide), by simp, fun h => absurd h (by decide)⟩
  | getHeader hn => exact ⟨by simp, fun h => absurd h (by decide), by simp, fun h => absurd h (by decide)⟩
  | bindHeader hm hf =>
    simp only [List.mem_cons, List.not_mem_nil, or_false] at hm
    rcases hm with rfl | rfl <;> exact ⟨by simp, fun h => absurd h (by decide), by simp, fun h => absurd h (by decide)⟩
  | header hn => exact ⟨by simp, fun h => absurd h (by decide), by simp, fun h => absurd h (by decide)⟩

theorem JsonEntries.one {Γ : TypeEnv} {pkg : Str} {args : List ArgView} {m : Str} {e : Entry} (h : Documented Γ pkg args m e) :
    JsonEntries Γ (fun pkg' m' args' => pkg' = pkg ∧ m' = m ∧ args' = args) [e] := by
  obtain ⟨h1, h2, h3, h4⟩ := documented_json h
  refine ⟨?_, ?_, ?_, ?_⟩
  · intro e' he rt hrt hj
    rw [List.mem_singleton] at he
    subst he
    exact ⟨pkg, m, args, ⟨rfl, rfl, rfl⟩, h1 rt hrt hj⟩
  · rintro _ _ _ code ⟨rfl, rfl, rfl⟩ hm hs
    exact ⟨e, List.mem_singleton.mpr rfl, h2 hm code hs⟩
  · intro e' he bp hbp hj
    rw [List.mem_singleton] at he
    subst he
    obtain ⟨k1, k2, k3⟩ := h3 bp hbp hj
    exact ⟨k2, pkg, m, args, ⟨rfl, rfl, rfl⟩, k1, k3⟩
  · rintro _ _ _ ⟨rfl, rfl, rfl⟩ hm
    exact ⟨e, List.mem_singleton.mpr rfl, h4 hm⟩

theorem analysed_json {P : Prog} (hno : P.customs = []) {file : FileId} {ctx : Str} {nodes : List Node} {es : List Entry}
    (h : Analysed P file ctx nodes es) : JsonEntries P.types (Calls P file ctx nodes) es := by
  obtain ⟨b, h⟩ := h
  generalize true = b0 at h
  induction h with
  | unresolved hl hp hf _ ih =>
    refine ih.same (fun pkg m args => ⟨fun h => ?_, .later⟩)
    cases h with
    | here _ h => rw [hf] at h; cases h
    | helper h => exact absurd h hp
    | inside h => exact absurd h (unresolved_not_followed hl hp hf)
    | later h => exact h
  | lost hl hp ht _ _ ih =>
    refine ih.same (fun pkg m args => ⟨fun h => ?_, .later⟩)
    cases h with
    | here h => exact absurd hp h
    | helper _ h => rw [ht] at h; cases h
    | inside h => exact absurd h (lost_not_followed hl hp ht)
    | later h => exact h
  | noContext hl hp ht hfile hn _ ih =>
    refine ih.same (fun pkg m args => ⟨fun h => ?_, .later⟩)
    cases h with
    | here h => exact absurd hp h
    | helper _ h hc => rw [ht] at h; cases h; rw [hfile] at hc; exact absurd hn (context_or_not hc)
    | inside h => exact absurd h (noContext_not_followed hl hp ht hfile hn)
    | later h => exact h
  | brokenHelper hl hp ht hfile hc h0 _ ih0 ih =>
    refine ih0.append ih (fun pkg m args => ⟨fun h => ?_, fun h => ?_⟩)
    · cases h with
      | here h => exact absurd hp h
      | helper _ h4 h5 h6 =>
        rw [ht] at h4
        cases h4
        rw [hfile] at h5 h6
        cases contextParam_unique hc h5
        exact Or.inl h6
      | inside h => exact absurd h (broken_not_followed hl hp ht hfile hc (changes_of_analysed h0))
      | later h => exact Or.inr h
    · rcases h with h | h
      · exact .helper hp ht (by rw [hfile]; exact hc) (by rw [hfile]; exact h)
      · exact .later h
  | nil => exact .none (fun _ _ _ h => nomatch h)
  | other _ _ ih1 ih2 =>
    refine ih1.append ih2 (fun pkg m args => ⟨fun h => ?_, fun h => h.elim .under .later⟩)
    cases h with
    | under h => exact Or.inl h
    | later h => exact Or.inr h
  | custom hc => exact absurd hc (no_customs_take hno)
  | helper _ hp ht hc h0 _ _ ih0 ih1 ih2 =>
    rename_i file ctx b b1 b2 id children rest f ctx' es0 es es' _ _ _
    have hfol : Followed P file ctx id := Or.inr (Or.inr ⟨hp, _, _, _, ht, hc, h0⟩)
    refine ih0.append (ih1.append ih2 (C := fun pkg m args => Calls P file ctx children pkg m args ∨ Calls P file ctx rest pkg m args)
      (fun _ _ _ => Iff.rfl)) (fun pkg m args => ⟨fun h => ?_, fun h => ?_⟩)
    · cases h with
      | here h => exact absurd hp h
      | helper _ h4 h5 h6 =>
        rw [ht] at h4
        cases h4
        cases contextParam_unique hc h5
        exact Or.inl h6
      | inside _ h => exact Or.inr (Or.inl h)
      | later h => exact Or.inr (Or.inr h)
    · rcases h with h | h | h
      · exact .helper hp ht hc h
      · exact .inside hfol h
      · exact .later h
  | plain _ hp hf _ _ ih1 ih2 =>
    rename_i file ctx b b1 b2 id children rest m0 es es' _ _ _
    have hfol : Followed P file ctx id := Or.inr (Or.inl ⟨hp, _, hf⟩)
    refine ih1.append ih2 (fun pkg m args => ⟨fun h => ?_, fun h => h.elim (.inside hfol) .later⟩)
    cases h with
    | here _ h => rw [hf] at h; cases h
    | helper h => exact absurd h hp
    | inside _ h => exact Or.inl h
    | later h => exact Or.inr h
  | unsupported _ hp hf hm _ _ ih1 ih2 =>
    rename_i file ctx b b1 b2 id children rest m0 es es' _ _ _
    have hfol : Followed P file ctx id := Or.inr (Or.inl ⟨hp, _, hf⟩)
    have h0 : JsonEntries P.types (fun pkg m args => pkg = P.filePkg file ∧ m = m0 ∧ args = (P.view file id).args) [] :=
      .none (by rintro _ _ _ ⟨rfl, rfl, rfl⟩; exact hm)
    refine h0.append (ih1.append ih2 (C := fun pkg m args => Calls P file ctx children pkg m args ∨ Calls P file ctx rest pkg m args)
      (fun _ _ _ => Iff.rfl)) (fun pkg m args => ⟨fun h => ?_, fun h => ?_⟩)
    · cases h with
      | here _ h => rw [hf] at h; cases h; exact Or.inl ⟨rfl, rfl, rfl⟩
      | helper h => exact absurd h hp
      | inside _ h => exact Or.inr (Or.inl h)
      | later h => exact Or.inr (Or.inr h)
    · rcases h with ⟨rfl, rfl, rfl⟩ | h | h
      · exact .here hp hf
      · exact .inside hfol h
      · exact .later h
  | context _ hp hf hd _ _ ih1 ih2 =>
    rename_i file ctx b b1 b2 id children rest m0 e es es' _ _ _
    have hfol : Followed P file ctx id := Or.inr (Or.inl ⟨hp, _, hf⟩)
    refine (JsonEntries.one hd).append (ih1.append ih2 (C := fun pkg m args => Calls P file ctx children pkg m args ∨ Calls P file ctx rest pkg m args)
      (fun _ _ _ => Iff.rfl)) (fun pkg m args => ⟨fun h => ?_, fun h => ?_⟩)
    · cases h with
      | here _ h => rw [hf] at h; cases h; exact Or.inl ⟨rfl, rfl, rfl⟩
      | helper h => exact absurd h hp
      | inside _ h => exact Or.inr (Or.inl h)
      | later h => exact Or.inr (Or.inr h)
    · rcases h with ⟨rfl, rfl, rfl⟩ | h | h
      · exact .here hp hf
      · exact .inside hfol h
      · exact .later h

/-- The handler of an entry is one function. -/
theorem handler_unique {E : RouteEnv} {handler file : Str} {line : Int} {i i' : FileId} {n n' : Str} {f f' : FuncId} {b b' : Bool}
    (h : HandlerIs E handler file line i n f b) (h' : HandlerIs E handler file line i' n' f' b') : i = i' ∧ n = n' ∧ f = f' := by
  obtain ⟨p, g, k⟩ := h.inFile
  obtain ⟨p', g', k'⟩ := h'.inFile
  obtain ⟨a1, a2⟩ := split_function_name g
  obtain ⟨b1, b2⟩ := split_function_name g'
  rw [a1] at b1
  rw [a2] at b2
  cases b1
  cases b2
  rw [k] at k'
  cases k'
  have := h.only
  rw [h'.only] at this
  cases this
  exact ⟨rfl, rfl, rfl⟩

/-! ### The operation -/

/-- What the entries of a document are for. -/
def Describing (Γ : TypeEnv) (marshal : Str → Str → Option (Json → Prop)) (schemas : List (Str × Schema)) (target : Str → Str → Option Str)
    (D : TName → Prop) : Prop :=
  ∀ x, D x → ∃ n e, target x.1 x.2.1 = some n ∧ (n, e) ∈ schemas ∧ Describes Γ marshal target D x e

theorem Describing.admits {Γ : TypeEnv} {marshal : Str → Str → Option (Json → Prop)} {schemas : List (Str × Schema)}
    {target : Str → Str → Option Str} {D : TName → Prop} (h : Describing Γ marshal schemas target D) {t : GoType} {v : Json} {s : Schema}
    (hv : Encodes Γ marshal false t v) (hd : Describable Γ t) (ht : ∀ x, Occurs t x → D x) (hs : TypeSchema target t s) :
    Admits schemas { s with items := s.items.map dropFormat } v := by
  refine admits_items (described_admits ?_ hv hd ht s hs)
  intro x hx n hn
  obtain ⟨n', e, h1, h2, h3⟩ := h x hx
  rw [hn] at h1
  cases h1
  exact ⟨e, h2, h3⟩

theorem Describing.target {Γ : TypeEnv} {marshal : Str → Str → Option (Json → Prop)} {schemas : List (Str × Schema)}
    {target : Str → Str → Option Str} {D : TName → Prop} (h : Describing Γ marshal schemas target D) {t : GoType} (ht : ∀ x, Occurs t x → D x) :
    ∀ x, Occurs t x → (target x.1 x.2.1).isSome = true := by
  intro x hx
  obtain ⟨n, _, h1, _⟩ := h x (ht x hx)
  rw [h1]
  rfl

theorem json_tag : contentTypeToBindingTag c!"application/json" = .json := by decide

theorem sent_documented {Γ : TypeEnv} {marshal : Str → Str → Option (Json → Prop)} {SE : SchemaEnv} {cs : List Field} {ch : RouteChoice} {m path : Str}
    {es : List Entry} {n : Nat} {R : Route} {schemas : List (Str × Schema)} {D : TName → Prop} {C : Str → Str → List ArgView → Prop}
    (G : Gathered es path (n + 1) R) (J : JsonEntries Γ C es) (hD : Describing Γ marshal schemas (targetOf SE.names m .json) D)
    {t : GoType} (hd : Describable Γ t) (harr : ¬ IsArray t) (ht : ∀ x, Occurs t x → D x) {code : Int}
    (hsome : ∃ pkg m args, C pkg m args ∧ m ∈ [c!"JSON", c!"AbortWithStatusJSON"] ∧ IsStatus args 0 code)
    (hone : ∀ pkg m args a t', C pkg m args → m ∈ [c!"JSON", c!"AbortWithStatusJSON"] → IsStatus args 0 code → args[1]? = some a →
      a.type = .ok t' → t' = t) {v : Json} (hv : Encodes Γ marshal false t v) :
    ∃ resp, mget (operationOf SE cs ch (cleanRoute m R)).responses (itoa code) = some resp ∧
      ((∃ s, mget resp.content c!"application/json" = some s ∧ Admits schemas s v) ∨ IsInterface t) := by
  obtain ⟨h1, h2⟩ := responses_exact_partial SE cs ch (cleanRoute m R)
  -- the schema of every recorded JSON response with this code
  have hall : ∀ rt ∈ (cleanRoute m R).returnTypes, rt.statusCode = code → rt.contentType = c!"application/json" →
      ∃ s, TypeSchema (targetOf SE.names m .json) t s ∧ returnSchema SE rt = some { s with items := s.items.map dropFormat } := by
    intro rt hrt hcode hct
    obtain ⟨y, hy, rfl⟩ := List.mem_map.mp hrt
    obtain ⟨e, he, hye⟩ := G.source y hy
    simp only at hcode hct
    obtain ⟨pkg, mm, args, hC, hm, hst, a, t', c, c', r, ha, hat, htr, hf⟩ := J.sent e he y hye hct
    rw [hcode] at hst
    have := hone pkg mm args a t' hC hm hst ha hat
    subst this
    obtain ⟨s, k1, k2⟩ := body_of_type (m := m) (SE := SE) (b := .json) hd harr htr (hD.target ht)
    refine ⟨s, k1, ?_⟩
    unfold returnSchema
    simp only
    rw [hct, json_tag, hf]
    exact k2
  -- one of them is there
  obtain ⟨pkg, mm, args, hC, hm, hst⟩ := hsome
  obtain ⟨e, he, rt, hrt, hj, hcode⟩ := J.sends pkg mm args code hC hm hst
  obtain ⟨y, hy, hy1, hy2⟩ := G.responses (Nat.succ_pos n) e he rt hrt
  have hy' : ({ y with field := cleanField m y.field } : ReturnType) ∈ (cleanRoute m R).returnTypes := List.mem_map.mpr ⟨y, hy, rfl⟩
  have hk := (h1 (itoa code)).mpr ⟨_, hy', by simp only; rw [hy1, hcode]⟩
  obtain ⟨resp, hresp⟩ := Option.isSome_iff_exists.mp (mget_isSome_iff.mpr hk)
  refine ⟨resp, hresp, ?_⟩
  have hc := h2 code c!"application/json"
  unfold contentAt at hc
  rw [hresp] at hc
  simp only [Option.bind_some] at hc
  obtain ⟨s0, k1, k2⟩ := hall _ hy' (by simp only; rw [hy1, hcode]) (by simp only; rw [hy2, hj])
  by_cases hempty : ({ s0 with items := s0.items.map dropFormat } : Schema) = {}
  · exact Or.inr (empty_schema_interface k1 hempty)
  · left
    have hmem : ({ y with field := cleanField m y.field } : ReturnType) ∈ (cleanRoute m R).returnTypes.filter (fun rt => rt.statusCode = code ∧
        rt.contentType = c!"application/json" ∧ returnSchema SE rt ≠ none ∧ returnSchema SE rt ≠ some {}) := by
      rw [List.mem_filter]
      refine ⟨hy', ?_⟩
      rw [k2]
      simp only [decide_eq_true_eq]
      exact ⟨by rw [hy1, hcode], by rw [hy2, hj], by simp, fun h => hempty (Option.some.inj h)⟩
    obtain ⟨z, hz⟩ : ∃ z, ((cleanRoute m R).returnTypes.filter (fun rt => rt.statusCode = code ∧
        rt.contentType = c!"application/json" ∧ returnSchema SE rt ≠ none ∧ returnSchema SE rt ≠ some {})).getLast? = some z := by
      rw [← Option.isSome_iff_exists, List.getLast?_isSome]
      exact List.ne_nil_of_mem hmem
    have hz' := List.mem_of_getLast? hz
    rw [List.mem_filter] at hz'
    obtain ⟨hz1, hz2⟩ := hz'
    simp only [decide_eq_true_eq] at hz2
    obtain ⟨s, j1, j2⟩ := hall z hz1 hz2.1 hz2.2.1
    rw [hz, Option.bind_some, j2] at hc
    exact ⟨_, hc, hD.admits hv hd ht j1⟩

theorem bound_documented {Γ : TypeEnv} {marshal : Str → Str → Option (Json → Prop)} {SE : SchemaEnv} {cs : List Field} {ch : RouteChoice} {m path : Str}
    {es : List Entry} {n : Nat} {R : Route} {schemas : List (Str × Schema)} {D : TName → Prop} {C : Str → Str → List ArgView → Prop}
    (G : Gathered es path (n + 1) R) (J : JsonEntries Γ C es) (hD : Describing Γ marshal schemas (targetOf SE.names m .json) D)
    {t : GoType} (hd : Describable Γ t) (harr : ¬ IsArray t) (ht : ∀ x, Occurs t x → D x)
    (hsome : ∃ pkg m args, C pkg m args ∧ m ∈ [c!"BindJSON", c!"ShouldBindJSON", c!"Bind", c!"ShouldBind"])
    (hone : ∀ pkg m args a t', C pkg m args → m ∈ [c!"BindJSON", c!"ShouldBindJSON", c!"Bind", c!"ShouldBind"] → args[0]? = some a →
      a.type = .ok t' → t' = t) {v : Json} (hv : Encodes Γ marshal false t v) :
    ∃ content s, (operationOf SE cs ch (cleanRoute m R)).requestBody = some content ∧ mget content c!"application/json" = some s ∧
      Admits schemas s v := by
  obtain ⟨h1, _⟩ := request_body_exact SE cs ch (cleanRoute m R)
  have hall : ∀ bp ∈ (cleanRoute m R).body, bp.contentType = c!"application/json" →
      bp.name = [] ∧ ∃ s, TypeSchema (targetOf SE.names m .json) t s ∧ bodyParamSchema SE bp = some { s with items := s.items.map dropFormat } := by
    intro bp hbp hct
    obtain ⟨y, hy, rfl⟩ := List.mem_map.mp hbp
    obtain ⟨e, he, hye⟩ := G.mem_body.mp hy
    simp only at hct
    obtain ⟨hn, pkg, mm, args, hC, hm, a, t', c, c', r, ha, hat, htr, hf⟩ := J.bound e he y hye hct
    have := hone pkg mm args a t' hC hm ha hat
    subst this
    obtain ⟨s, k1, k2⟩ := body_of_type (m := m) (SE := SE) (b := .json) hd harr htr (hD.target ht)
    refine ⟨hn, s, k1, ?_⟩
    unfold bodyParamSchema
    simp only
    rw [hct, json_tag, hf]
    exact k2
  obtain ⟨pkg, mm, args, hC, hm⟩ := hsome
  obtain ⟨e, he, bp, hbp, hj⟩ := J.binds pkg mm args hC hm
  have hy' : ({ bp with field := cleanField m bp.field } : BodyParam) ∈ (cleanRoute m R).body :=
    List.mem_map.mpr ⟨bp, G.mem_body.mpr ⟨e, he, hbp⟩, rfl⟩
  obtain ⟨hn, s0, k1, k2⟩ := hall _ hy' hj
  have hc := h1 c!"application/json"
  have hin : ∃ s, (c!"application/json", s) ∈ (cleanRoute m R).body.filterMap (fun bp => (bodyParamSchema SE bp).map (fun s =>
      (bp.contentType, if bp.name = [] then s else ({ type := c!"object", properties := [(bp.name, s)] } : Schema)))) := by
    refine ⟨{ s0 with items := s0.items.map dropFormat }, ?_⟩
    rw [List.mem_filterMap]
    refine ⟨_, hy', ?_⟩
    rw [k2]
    simp only [Option.map_some]
    rw [if_pos hn, hj]
  obtain ⟨s, hs⟩ := Option.isSome_iff_exists.mp (lastFor_some_iff.mpr hin)
  rw [hs] at hc
  have hm := lastFor_mem hs
  rw [List.mem_filterMap] at hm
  obtain ⟨bp', hb1, hb2⟩ := hm
  rw [Option.map_eq_some_iff] at hb2
  obtain ⟨s1, hb3, hb4⟩ := hb2
  obtain ⟨hb5, hb6⟩ := Prod.mk.inj hb4
  obtain ⟨hn', s2, j1, j2⟩ := hall bp' hb1 hb5
  rw [hb3] at j2
  cases j2
  rw [if_pos hn'] at hb6
  subst hb6
  cases hr : (operationOf SE cs ch (cleanRoute m R)).requestBody with
  | none => rw [hr] at hc; cases hc
  | some content =>
    rw [hr] at hc
    exact ⟨content, _, rfl, hc, hD.admits hv hd ht j1⟩

end Astra.Props
