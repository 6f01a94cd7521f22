/-
C80: the JSON file of the OpenAPI output is the document, key by key.
-/
import Verif.Spec.OpenApiFile
import Verif.Model.OpenApiJson
import Verif.Lemmas.Codec
import Verif.Props.EndToEnd
import Verif.Props.JsonText

namespace Astra.Props
open Astra.Spec Astra.Run

/-! ### Looking up members -/

theorem keyOf_members {ms : List Member} (hn : (ms.map (·.key)).Nodup) {o : Bool} {k : Str} {v : Json} (hm : ⟨o, k, v⟩ ∈ ms) :
    keyOf (.obj (members ms)) k = if o && isZeroJson v then none else some v := by
  show aget (members ms) k = _
  induction ms with
  | nil => cases hm
  | cons a as ih =>
    simp only [List.map_cons, List.nodup_cons] at hn
    rcases List.mem_cons.mp hm with rfl | hm
    · simp only [members]
      split
      · exact aget_members_none hn.1
      · simp [aget]
    · have hne : a.key ≠ k := by
        intro e; exact hn.1 (by rw [e]; exact List.mem_map.mpr ⟨_, hm, rfl⟩)
      simp only [members]
      split
      · exact ih hn.2 hm
      · simp only [aget, hne, if_false]; exact ih hn.2 hm

theorem keyOf_members_none {ms : List Member} {k : Str} (h : k ∉ ms.map (·.key)) : keyOf (.obj (members ms)) k = none := aget_members_none h

theorem members_sublist (ms : List Member) : ((members ms).map (·.1)).Sublist (ms.map (·.key)) := by
  induction ms with
  | nil => exact .slnil
  | cons a as ih =>
    simp only [members]
    split
    · exact .cons _ ih
    · exact .cons_cons _ ih

theorem objectWith_members {ms : List Member} {ks : List Str} (h : (ms.map (·.key)).Sublist ks) (hn : ks.Nodup) :
    ObjectWith (.obj (members ms)) ks := by
  have := (members_sublist ms).trans h
  exact ⟨_, rfl, hn.sublist this, fun e he => this.mem (List.mem_map.mpr ⟨e, he, rfl⟩)⟩

theorem shows_text {ms : List Member} (hn : (ms.map (·.key)).Nodup) {k s : Str} (hm : ⟨true, k, .str s⟩ ∈ ms) :
    ShowsText (keyOf (.obj (members ms)) k) s := by
  rw [keyOf_members hn hm, ShowsText]
  cases s <;> rfl

theorem shows_flag {ms : List Member} (hn : (ms.map (·.key)).Nodup) {k : Str} {b : Bool} (hm : ⟨true, k, .bool b⟩ ∈ ms) :
    ShowsFlag (keyOf (.obj (members ms)) k) b := by
  rw [keyOf_members hn hm, ShowsFlag]
  cases b <;> rfl

theorem shows_fixed {ms : List Member} (hn : (ms.map (·.key)).Nodup) {k : Str} {v : Json} (hm : ⟨false, k, v⟩ ∈ ms) :
    keyOf (.obj (members ms)) k = some v := by
  rw [keyOf_members hn hm]; rfl

theorem shows_number {ms : List Member} (hn : (ms.map (·.key)).Nodup) {k : Str} {n : Int} (hm : ⟨true, k, .num (itoa n)⟩ ∈ ms) :
    ShowsNumber (keyOf (.obj (members ms)) k) n := by
  rw [keyOf_members hn hm, ShowsNumber]
  have : isZeroJson (.num (itoa n)) = decide (n = 0) := by
    show decide (itoa n = c!"0") = _
    congr 1
    apply propext
    constructor
    · intro h
      have := atoi_itoa n
      rw [h] at this
      exact (Option.some.inj this).symm
    · rintro rfl; rfl
  rw [this]
  by_cases h : n = 0 <;> simp [h]

theorem each_map {α β : Type} {P : α → β → Prop} {f : α → β} {l : List α} (h : ∀ a ∈ l, P a (f a)) : Each P l (l.map f) := by
  induction l with
  | nil => exact .nil
  | cons a l ih => exact .cons (h a (by simp)) (ih fun b hb => h b (by simp [hb]))

theorem shows_list {α : Type} {P : α → Json → Prop} {f : α → Json} {l : List α} {ms : List Member} (hn : (ms.map (·.key)).Nodup) {k : Str}
    (hm : ⟨true, k, .arr (l.map f)⟩ ∈ ms) (h : ∀ a ∈ l, P a (f a)) : ShowsList P l (keyOf (.obj (members ms)) k) := by
  rw [keyOf_members hn hm]
  cases l with
  | nil => exact Or.inl ⟨rfl, rfl⟩
  | cons a l => exact Or.inr ⟨by simp, _, rfl, each_map h⟩

theorem shows_map {α : Type} {P : α → Json → Prop} {f : α → Json} {l : List (Str × α)} {ms : List Member} (hn : (ms.map (·.key)).Nodup) {k : Str}
    (hm : ⟨true, k, .obj (l.map (fun e => (e.1, f e.2)))⟩ ∈ ms) (h : ∀ e ∈ l, P e.2 (f e.2)) : ShowsMap P l (keyOf (.obj (members ms)) k) := by
  rw [keyOf_members hn hm]
  cases l with
  | nil => exact Or.inl ⟨rfl, rfl⟩
  | cons a l => exact Or.inr ⟨by simp, _, rfl, each_map fun e he => ⟨rfl, h e he⟩⟩

theorem pointer_keys (k : Str) (v : Option Json) : ((pointerMember k v).map (·.key)).Sublist [k] := by
  cases v <;> simp [pointerMember]

theorem keyOf_pointer {ms : List Member} (hn : (ms.map (·.key)).Nodup) {k : Str} {v : Option Json} {pre post : List Member}
    (e : ms = pre ++ (pointerMember k v ++ post)) (hk : k ∉ pre.map (·.key) ∧ k ∉ post.map (·.key)) : keyOf (.obj (members ms)) k = v := by
  subst e
  cases v with
  | none => exact keyOf_members_none (by simpa [pointerMember] using hk)
  | some a => exact shows_fixed hn (by simp [pointerMember])

theorem shows_optional {α : Type} {P : α → Json → Prop} {f : α → Json} {x : Option α} {v : Option Json} (e : v = x.map f) (h : ∀ a, x = some a → P a (f a)) :
    ShowsOptional P x v := by
  subst e
  cases x with
  | none => rfl
  | some a => exact ⟨_, rfl, h a rfl⟩

/-! ### Schemas -/

theorem enum_shown (v : EnumVal) : ShowsValue v (encEnum v) := by cases v <;> rfl

def schemaKeys : List Str :=
  [c!"$ref", c!"maxLength", c!"enum", c!"type", c!"format", c!"allOf", c!"items", c!"properties", c!"additionalProperties", c!"description"]

mutual
theorem shows_schema : (s : Schema) → ShowsSchema s (encSchema s)
  | ⟨ref, type, format, maxLength, enum, allOf, items, properties, additionalProperties, description⟩ => by
    rw [ShowsSchema, encSchema]
    have hk : (([⟨true, c!"$ref", .str ref⟩, ⟨true, c!"maxLength", .num (itoa maxLength)⟩, ⟨true, c!"enum", .arr (enum.map encEnum)⟩,
      ⟨true, c!"type", .str type⟩, ⟨true, c!"format", .str format⟩, ⟨true, c!"allOf", .arr (encSchemaList allOf)⟩]
      ++ pointerMember c!"items" (encSchemaPtr items) ++ [⟨true, c!"properties", .obj (encSchemaMap properties)⟩]
      ++ pointerMember c!"additionalProperties" (encSchemaPtr additionalProperties) ++ [⟨true, c!"description", .str description⟩] : List Member).map
        (·.key)).Sublist schemaKeys := by
      simp only [List.map_append]
      exact ((((List.Sublist.refl _).append (pointer_keys _ _)).append (.refl _)).append (pointer_keys _ _)).append (.refl _)
    have hn := (by decide : schemaKeys.Nodup).sublist hk
    refine ⟨objectWith_members hk (by decide), shows_text hn (by simp), shows_text hn (by simp), shows_text hn (by simp), shows_text hn (by simp),
      shows_number hn (by simp), shows_list hn (by simp) (fun v _ => enum_shown v), ?_, ?_, ?_, ?_⟩
    · rw [keyOf_members hn (o := true) (v := .arr (encSchemaList allOf)) (by simp)]
      exact shows_schemas allOf
    · rw [keyOf_pointer hn (k := c!"items") (v := encSchemaPtr items) (by rw [List.append_assoc, List.append_assoc, List.append_assoc]) ⟨by simp, by
        cases additionalProperties <;> simp [pointerMember, encSchemaPtr]⟩]
      exact shows_item items
    · rw [keyOf_members hn (o := true) (v := .obj (encSchemaMap properties)) (by simp)]
      exact shows_properties properties
    · rw [keyOf_pointer hn (k := c!"additionalProperties") (v := encSchemaPtr additionalProperties) (by rw [List.append_assoc]) ⟨by
        cases items <;> simp [pointerMember, encSchemaPtr], by simp⟩]
      exact shows_item additionalProperties
theorem shows_schemas : (l : List Schema) → ShowsSchemas l (if true && isZeroJson (.arr (encSchemaList l)) then none else some (.arr (encSchemaList l)))
  | [] => by rw [ShowsSchemas]; rfl
  | s :: ss => by rw [ShowsSchemas, encSchemaList]; exact ⟨_, _, rfl, shows_schema s, shows_rest ss⟩
theorem shows_rest : (l : List Schema) → ShowsRest l (encSchemaList l)
  | [] => by rw [ShowsRest, encSchemaList]
  | s :: ss => by rw [ShowsRest, encSchemaList]; exact ⟨_, _, rfl, shows_schema s, shows_rest ss⟩
theorem shows_item : (o : Option Schema) → ShowsItem o (encSchemaPtr o)
  | none => by rw [ShowsItem, encSchemaPtr]
  | some s => by rw [ShowsItem, encSchemaPtr]; exact ⟨_, rfl, shows_schema s⟩
theorem shows_properties : (l : List (Str × Schema)) → ShowsProperties l (if true && isZeroJson (.obj (encSchemaMap l)) then none else some (.obj (encSchemaMap l)))
  | [] => by rw [ShowsProperties]; rfl
  | (k, s) :: m => by rw [ShowsProperties, encSchemaMap]; exact ⟨_, _, rfl, shows_schema s, shows_entries m⟩
theorem shows_entries : (l : List (Str × Schema)) → ShowsEntries l (encSchemaMap l)
  | [] => by rw [ShowsEntries, encSchemaMap]
  | (k, s) :: m => by rw [ShowsEntries, encSchemaMap]; exact ⟨_, _, rfl, shows_schema s, shows_entries m⟩
end

/-! ### The other objects -/

macro "keys" : tactic => `(tactic| (simp only [structMember, List.map_cons, List.map_nil]; decide))

theorem empty_text {s : Str} (h : ShowsText none s) : s = [] := by
  unfold ShowsText at h
  split at h
  · assumption
  · cases h

theorem isZero_encSchema (s : Schema) : isZeroJson (encSchema s) = true ↔ s = {} := by
  constructor
  · intro h
    have hs := shows_schema s
    have e : encSchema s = .obj [] := by
      obtain ⟨ref, type, format, maxLength, enum, allOf, items, properties, additionalProperties, description⟩ := s
      rw [encSchema] at h ⊢
      simp only [isZeroJson, List.isEmpty_iff] at h
      rw [h]
    rw [e] at hs
    obtain ⟨ref, type, format, maxLength, enum, allOf, items, properties, additionalProperties, description⟩ := s
    rw [ShowsSchema] at hs
    obtain ⟨_, h1, h2, h3, h4, h5, h6, h7, h8, h9, h10⟩ := hs
    have hn : maxLength = 0 := by
      unfold ShowsNumber at h5
      split at h5
      · assumption
      · cases h5
    have he : enum = [] := by
      rcases h6 with h | ⟨_, _, h, _⟩
      · exact h.1
      · cases h
    have hp : ∀ o : Option Schema, ShowsItem o none → o = none := by
      intro o ho
      cases o with
      | none => rfl
      | some s => rw [ShowsItem] at ho; obtain ⟨_, h, _⟩ := ho; cases h
    have ha : allOf = [] := by
      cases allOf with
      | nil => rfl
      | cons a l => rw [ShowsSchemas] at h7; obtain ⟨_, _, h, _⟩ := h7; cases h
    have hq : properties = [] := by
      cases properties with
      | nil => rfl
      | cons a l => obtain ⟨k, a⟩ := a; rw [ShowsProperties] at h9; obtain ⟨_, _, h, _⟩ := h9; cases h
    have e1 := empty_text h1
    have e2 := empty_text h2
    have e3 := empty_text h3
    have e4 := empty_text h4
    have e8 := hp _ h8
    have e10 := hp _ h10
    subst hn he ha hq e1 e2 e3 e4 e8 e10
    rfl
  · rintro rfl; decide

theorem shows_held {yaml : Bool} {ms : List Member} (hn : (ms.map (·.key)).Nodup) {k : Str} {s : Schema} (hm : structMember yaml k (encSchema s) ∈ ms) :
    ShowsHeldSchema yaml s (keyOf (.obj (members ms)) k) := by
  rw [keyOf_members hn hm]
  by_cases h : yaml = true ∧ s = {}
  · exact Or.inl ⟨h.1, h.2, by rw [if_pos]; rw [h.1, (isZero_encSchema s).mpr h.2]; rfl⟩
  · refine Or.inr ⟨h, _, if_neg (fun e => h ?_), shows_schema s⟩
    rw [Bool.and_eq_true] at e
    exact ⟨e.1, (isZero_encSchema s).mp e.2⟩

theorem shows_param (yaml : Bool) (p : OParam) : ShowsParameter yaml p (encOParam yaml p) := by
  have hn : ([⟨true, c!"name", .str p.name⟩, ⟨true, c!"in", .str p.loc⟩, ⟨true, c!"required", .bool p.required⟩,
    ⟨true, c!"style", .str p.style⟩, ⟨true, c!"explode", .bool p.explode⟩, structMember yaml c!"schema" (encSchema p.schema)].map Member.key).Nodup := by keys
  exact ⟨objectWith_members (.refl _) hn, shows_text hn (by simp), shows_text hn (by simp), shows_flag hn (by simp), shows_text hn (by simp), shows_flag hn (by simp),
    shows_held hn (by simp)⟩

theorem shows_media (yaml : Bool) (s : Schema) : ShowsMedia yaml s (encMediaType yaml s) := by
  have hn : ([structMember yaml c!"schema" (encSchema s)].map Member.key).Nodup := by keys
  exact ⟨objectWith_members (.refl _) hn, shows_held hn (by simp)⟩

theorem shows_body (yaml : Bool) (c : List (Str × Schema)) : ShowsBody yaml c (encRequestBody yaml c) := by
  have hn : ([⟨true, c!"content", encContent yaml c⟩].map Member.key).Nodup := by keys
  exact ⟨objectWith_members (.refl _) hn, shows_map hn (List.mem_singleton.mpr rfl) (fun e _ => shows_media yaml e.2)⟩

theorem shows_header (yaml : Bool) (h : OHeader) : ShowsHeader yaml h (encOHeader yaml h) := by
  have hn : ([⟨true, c!"required", .bool h.required⟩, structMember yaml c!"schema" (encSchema h.schema)].map Member.key).Nodup := by keys
  exact ⟨objectWith_members (.refl _) hn, shows_flag hn (by simp), shows_held hn (by simp)⟩

theorem shows_response (yaml : Bool) (r : OResponse) : ShowsResponse yaml r (encOResponse yaml r) := by
  have hn : ([⟨false, c!"description", .str []⟩, ⟨true, c!"headers", .obj (r.headers.map (fun e => (e.1, encOHeader yaml e.2)))⟩,
    ⟨true, c!"content", encContent yaml r.content⟩].map Member.key).Nodup := by keys
  exact ⟨objectWith_members (.refl _) hn, shows_fixed hn (by simp), shows_map hn (by simp) (fun e _ => shows_header yaml e.2),
    shows_map (f := encMediaType yaml) hn (by simp [encContent]) (fun e _ => shows_media yaml e.2)⟩

theorem shows_operation (yaml : Bool) (o : Operation) : ShowsOperation yaml o (encOperation yaml o) := by
  have hk : (([⟨true, c!"description", .str o.description⟩, ⟨true, c!"operationId", .str o.operationId⟩,
    ⟨true, c!"parameters", .arr (o.parameters.map (encOParam yaml))⟩] ++ pointerMember c!"requestBody" (o.requestBody.map (encRequestBody yaml))
    ++ [⟨true, c!"responses", .obj (o.responses.map (fun e => (e.1, encOResponse yaml e.2)))⟩] : List Member).map (·.key)).Sublist
      [c!"description", c!"operationId", c!"parameters", c!"requestBody", c!"responses"] := by
    simp only [List.map_append]
    exact ((List.Sublist.refl _).append (pointer_keys _ _)).append (.refl _)
  have hn := (by decide : [c!"description", c!"operationId", c!"parameters", c!"requestBody", c!"responses"].Nodup).sublist hk
  refine ⟨objectWith_members hk (by decide), shows_text hn (by simp), shows_text hn (by simp), shows_list hn (by simp) (fun p _ => shows_param yaml p),
    shows_optional (f := encRequestBody yaml) ?_ (fun c _ => shows_body yaml c), shows_map (f := encOResponse yaml) hn (by simp) (fun e _ => shows_response yaml e.2)⟩
  exact keyOf_pointer hn (by rw [List.append_assoc]) ⟨by simp, by simp⟩

theorem keyOf_pointers : ∀ (l : List (Str × Option Json)), (l.map (·.1)).Nodup → ∀ k v, (k, v) ∈ l →
    keyOf (.obj (members (l.flatMap (fun e => pointerMember e.1 e.2)))) k = v := by
  intro l hn k v hm
  have hs : ∀ l : List (Str × Option Json), ((l.flatMap (fun e => pointerMember e.1 e.2)).map (·.key)).Sublist (l.map (·.1)) := by
    intro l
    induction l with
    | nil => exact .slnil
    | cons e l ih =>
      rw [List.flatMap_cons, List.map_append, List.map_cons]
      exact (pointer_keys e.1 e.2).append ih
  obtain ⟨l1, l2, rfl⟩ := List.append_of_mem hm
  have hn' := hn.sublist (hs _)
  rw [List.map_append, List.map_cons, List.nodup_append] at hn
  refine keyOf_pointer hn' (by rw [List.flatMap_append, List.flatMap_cons]) ⟨fun h => ?_, fun h => ?_⟩
  · exact hn.2.2 k ((hs l1).mem h) k (by simp) rfl
  · exact (List.nodup_cons.mp hn.2.1).1 ((hs l2).mem h)

theorem shows_pathItem (yaml : Bool) (p : PathItem) : ShowsPathItem yaml p (encPathItem yaml p) := by
  let l : List (Str × Option Json) := [(c!"get", p.get.map (encOperation yaml)), (c!"put", p.put.map (encOperation yaml)), (c!"post", p.post.map (encOperation yaml)),
    (c!"delete", p.delete.map (encOperation yaml)), (c!"options", p.options.map (encOperation yaml)), (c!"head", p.head.map (encOperation yaml)), (c!"patch", p.patch.map (encOperation yaml))]
  have e : encPathItem yaml p = .obj (members (l.flatMap (fun e => pointerMember e.1 e.2))) := by
    simp [encPathItem, l]
  have hn : (l.map (·.1)).Nodup := by show [c!"get", c!"put", c!"post", c!"delete", c!"options", c!"head", c!"patch"].Nodup; decide
  have hs : ∀ l : List (Str × Option Json), ((l.flatMap (fun e => pointerMember e.1 e.2)).map (·.key)).Sublist (l.map (·.1)) := by
    intro l
    induction l with
    | nil => exact .slnil
    | cons e l ih =>
      rw [List.flatMap_cons, List.map_append, List.map_cons]
      exact (pointer_keys e.1 e.2).append ih
  rw [e]
  refine ⟨objectWith_members (hs l) hn, ?_, ?_, ?_, ?_, ?_, ?_, ?_⟩ <;>
    exact shows_optional (f := encOperation yaml) (keyOf_pointers l hn _ _ (by simp [l])) (fun o _ => shows_operation yaml o)

theorem shows_info (i : Info) : ShowsInfo i (encInfo i) := by
  have hc : ([⟨true, c!"name", .str i.contact.name⟩, ⟨true, c!"url", .str i.contact.url⟩, ⟨true, c!"email", .str i.contact.email⟩].map Member.key).Nodup := by keys
  have hl : ([⟨false, c!"name", .str i.license.name⟩, ⟨true, c!"url", .str i.license.url⟩].map Member.key).Nodup := by keys
  have hn : ([⟨false, c!"title", .str i.title⟩, ⟨true, c!"description", .str i.description⟩,
    ⟨false, c!"contact", .obj (members [⟨true, c!"name", .str i.contact.name⟩, ⟨true, c!"url", .str i.contact.url⟩,
      ⟨true, c!"email", .str i.contact.email⟩])⟩,
    ⟨false, c!"license", .obj (members [⟨false, c!"name", .str i.license.name⟩, ⟨true, c!"url", .str i.license.url⟩])⟩,
    ⟨false, c!"version", .str i.version⟩].map Member.key).Nodup := by keys
  exact ⟨objectWith_members (.refl _) hn, shows_fixed hn (by simp), shows_text hn (by simp),
    ⟨_, shows_fixed hn (by simp), objectWith_members (.refl _) hc, shows_text hc (by simp), shows_text hc (by simp), shows_text hc (by simp)⟩,
    ⟨_, shows_fixed hn (by simp), objectWith_members (.refl _) hl, shows_fixed hl (by simp), shows_text hl (by simp)⟩, shows_fixed hn (by simp)⟩

theorem shows_components {yaml : Bool} {ms : List Member} (hn : (ms.map (·.key)).Nodup) {k : Str} {l : List (Str × Schema)}
    (hm : structMember yaml k (.obj (members [⟨true, c!"schemas", .obj (l.map (fun e => (e.1, encSchema e.2)))⟩])) ∈ ms) :
    ShowsHeldComponents yaml l (keyOf (.obj (members ms)) k) := by
  have hs : ([⟨true, c!"schemas", .obj (l.map (fun e => (e.1, encSchema e.2)))⟩].map Member.key).Nodup := by keys
  rw [keyOf_members hn hm]
  have hz : isZeroJson (.obj (members [⟨true, c!"schemas", .obj (l.map (fun e => (e.1, encSchema e.2)))⟩])) = true ↔ l = [] := by
    cases l <;> simp [members, isZeroJson]
  by_cases h : yaml = true ∧ l = []
  · exact Or.inl ⟨h.1, h.2, by rw [if_pos]; rw [h.1, hz.mpr h.2]; rfl⟩
  · refine Or.inr ⟨h, _, if_neg (fun e => h ?_), objectWith_members (.refl _) hs, shows_map hs (by simp) (fun e _ => shows_schema e.2)⟩
    rw [Bool.and_eq_true] at e
    exact ⟨e.1, hz.mp e.2⟩

theorem shows_document (yaml : Bool) (d : Document) : ShowsDocument yaml d (encDocument yaml d) := by
  have hn : ([⟨false, c!"openapi", .str d.openapi⟩, ⟨false, c!"info", encInfo d.info⟩,
    ⟨true, c!"servers", .arr (d.servers.map (fun u => .obj (members [⟨true, c!"url", .str u⟩])))⟩,
    ⟨true, c!"paths", .obj (d.paths.map (fun e => (e.1, encPathItem yaml e.2)))⟩,
    structMember yaml c!"components" (.obj (members [⟨true, c!"schemas", .obj (d.schemas.map (fun e => (e.1, encSchema e.2)))⟩]))].map Member.key).Nodup := by keys
  refine ⟨objectWith_members (.refl _) hn, shows_fixed hn (by simp), ⟨_, shows_fixed hn (by simp), shows_info _⟩,
    shows_list (f := fun u => .obj (members [⟨true, c!"url", .str u⟩])) hn (by simp) (fun u _ => ?_), shows_map (f := encPathItem yaml) hn (by simp) (fun e _ => shows_pathItem yaml e.2),
    shows_components hn (by simp)⟩
  have hu : ([⟨true, c!"url", .str u⟩].map Member.key).Nodup := by keys
  exact ⟨objectWith_members (.refl _) hu, shows_text hu (by simp)⟩

/-! ### The text is JSON -/

def GoodSchema (s : Schema) : Prop := GoodJson (encSchema s)

theorem encSchemaList_eq (l : List Schema) : encSchemaList l = l.map encSchema := by
  induction l with
  | nil => rw [encSchemaList]; rfl
  | cons s l ih => rw [encSchemaList, ih]; rfl

theorem encSchemaMap_eq (l : List (Str × Schema)) : encSchemaMap l = l.map (fun e => (e.1, encSchema e.2)) := by
  induction l with
  | nil => rw [encSchemaMap]; rfl
  | cons s l ih => obtain ⟨k, s⟩ := s; rw [encSchemaMap, ih]; rfl

theorem good_str (s : Str) : GoodJson (.str s) := by simp [GoodJson]
theorem good_bool (b : Bool) : GoodJson (.bool b) := by simp [GoodJson]
theorem good_int (i : Int) : GoodJson (.num (itoa i)) := by simpa only [GoodJson] using goodNum_itoa i

theorem good_obj {α : Type} {f : α → Json} {l : List (Str × α)} (h : ∀ e ∈ l, GoodJson (f e.2)) : GoodJson (.obj (l.map (fun e => (e.1, f e.2)))) := by
  rw [GoodJson, goodMembers_iff]
  intro e he
  obtain ⟨x, hx, rfl⟩ := List.mem_map.mp he
  exact h x hx

theorem good_pointer {k : Str} {v : Option Json} (h : ∀ j, v = some j → GoodJson j) : ∀ m ∈ pointerMember k v, GoodJson m.value := by
  cases v with
  | none => simp [pointerMember]
  | some j => simpa [pointerMember] using h j rfl

theorem good_schema {s : Schema} (h1 : ∀ t, EnumVal.float t ∈ s.enum → GoodNum t) (h2 : ∀ a ∈ s.allOf, GoodSchema a)
    (h3 : ∀ a, s.items = some a → GoodSchema a) (h4 : ∀ e ∈ s.properties, GoodSchema e.2) (h5 : ∀ a, s.additionalProperties = some a → GoodSchema a) :
    GoodSchema s := by
  obtain ⟨ref, type, format, maxLength, enum, allOf, items, properties, additionalProperties, description⟩ := s
  simp only at h1 h2 h3 h4 h5
  unfold GoodSchema
  rw [encSchema]
  apply good_members
  have hp : ∀ o : Option Schema, (∀ a, o = some a → GoodSchema a) → ∀ j, encSchemaPtr o = some j → GoodJson j := by
    intro o ho j hj
    cases o with
    | none => rw [encSchemaPtr] at hj; cases hj
    | some a => rw [encSchemaPtr] at hj; cases hj; exact ho a rfl
  intro m hm
  simp only [List.mem_append, List.mem_cons, List.not_mem_nil, or_false] at hm
  rcases hm with (((((rfl | rfl | rfl | rfl | rfl | rfl) | hm) | rfl) | hm) | rfl)
  · exact good_str _
  · exact good_int _
  · exact good_arr (fun v hv => by
      cases v with
      | str s => exact good_str _
      | bool b => exact good_bool _
      | int i => exact good_int _
      | float t => simpa only [encEnum, GoodJson] using h1 t hv)
  · exact good_str _
  · exact good_str _
  · rw [encSchemaList_eq]; exact good_arr h2
  · exact good_pointer (hp _ h3) m hm
  · rw [encSchemaMap_eq]; exact good_obj h4
  · exact good_pointer (hp _ h5) m hm
  · exact good_str _

theorem members_mem {ms : List Member} {m : Member} (h : m ∈ ms) (hz : (m.omitempty && isZeroJson m.value) = false) : (m.key, m.value) ∈ members ms := by
  induction ms with
  | nil => cases h
  | cons a as ih =>
    simp only [members]
    rcases List.mem_cons.mp h with rfl | h
    · simp [hz]
    · split
      · exact ih h
      · exact List.mem_cons_of_mem _ (ih h)

theorem good_zeroJson {j : Json} (h : isZeroJson j = true) : GoodJson j := by
  cases j with
  | null => trivial
  | bool b => trivial
  | num t => obtain rfl : t = c!"0" := by simpa [isZeroJson] using h
             exact goodNum_itoa 0
  | str s => exact good_str _
  | arr xs => obtain rfl : xs = [] := by simpa [isZeroJson] using h
              trivial
  | obj ms => obtain rfl : ms = [] := by simpa [isZeroJson] using h
              trivial

theorem GoodSchema.properties {s : Schema} (h : GoodSchema s) : ∀ e ∈ s.properties, GoodSchema e.2 := by
  obtain ⟨ref, type, format, maxLength, enum, allOf, items, properties, additionalProperties, description⟩ := s
  unfold GoodSchema at h
  rw [encSchema, GoodJson, goodMembers_iff] at h
  intro e he
  cases properties with
  | nil => cases he
  | cons a m =>
    have := h (c!"properties", .obj (encSchemaMap (a :: m))) (members_mem (m := ⟨true, c!"properties", .obj (encSchemaMap (a :: m))⟩) (by simp) (by
      rw [encSchemaMap_eq]; rfl))
    rw [encSchemaMap_eq] at this
    rw [GoodJson, goodMembers_iff] at this
    exact this (e.1, encSchema e.2) (List.mem_map.mpr ⟨e, he, rfl⟩)

theorem good_zero : GoodSchema {} := good_schema (by simp) (by simp) (by simp) (by simp) (by simp)
theorem good_ref (r : Str) : GoodSchema { ref := r } := good_schema (by simp) (by simp) (by simp) (by simp) (by simp)

theorem good_format (tf : Option TypeFormat) : GoodSchema (formatSchema tf) := by
  unfold formatSchema
  split
  · split
    · exact good_zero
    · exact good_schema (by simp) (by simp) (by simp) (by simp) (by simp)
  · exact good_zero

theorem format_parts (tf : Option TypeFormat) : (formatSchema tf).enum = [] ∧ (formatSchema tf).allOf = [] ∧ (formatSchema tf).items = none ∧
    (formatSchema tf).properties = [] ∧ (formatSchema tf).additionalProperties = none := by
  unfold formatSchema
  split
  · split <;> exact ⟨rfl, rfl, rfl, rfl, rfl⟩
  · exact ⟨rfl, rfl, rfl, rfl, rfl⟩

theorem good_elem (E : SchemaEnv) (b : BTag) (t pkg : Str) : GoodSchema (elemSchema E b t pkg) := by
  unfold elemSchema
  split
  · split
    · exact good_ref _
    · exact good_format _
  · exact good_format _

theorem good_leaf (E : SchemaEnv) (b : BTag) (c : Field) (h : ∀ t, EnumVal.float t ∈ c.enumValues → GoodNum t) : GoodSchema (leafSchema E b c) := by
  have hp := format_parts (aget predefinedTypeMap c.type)
  unfold leafSchema
  split
  · exact good_schema (by simp) (by simp) (by rintro a ⟨⟩; exact good_elem ..) (by simp) (by simp)
  split
  · exact good_schema (by simp) (by simp) (by rintro a ⟨⟩; exact good_elem ..) (by simp) (by simp)
  split
  · exact good_schema (by simp) (by simp) (by simp) (by simp) (by rintro a ⟨⟩; exact good_elem ..)
  split
  · split
    · exact good_ref _
    · exact good_format _
  · exact good_schema h (by simp [mapPredefined, hp]) (by simp [mapPredefined, hp]) (by simp [mapPredefined, hp]) (by simp [mapPredefined, hp])

theorem good_compose {embedded : List Schema} {props : List (Str × Schema)} (h1 : ∀ s ∈ embedded, GoodSchema s) (h2 : ∀ e ∈ props, GoodSchema e.2) :
    GoodSchema (composeStruct embedded props) := by
  have hp : GoodSchema { properties := props } := good_schema (by simp) (by simp) (by simp) h2 (by simp)
  unfold composeStruct
  split
  · exact good_schema (by simp) (by simp) (by simp) h2 (by simp)
  split
  · exact good_schema (by simp) h1 (by simp) (by simp) (by simp)
  · refine good_schema (by simp) ?_ (by simp) (by simp) (by simp)
    intro a ha
    rcases List.mem_append.mp ha with ha | ha
    · exact h1 a ha
    · rw [List.mem_singleton] at ha
      subst ha
      exact hp

theorem mem_mset {V : Type} {m : List (Str × V)} {k : Str} {v : V} {e : Str × V} (h : e ∈ mset m k v) : e = (k, v) ∨ e ∈ m := by
  induction m with
  | nil => simpa [mset] using h
  | cons a m ih =>
    obtain ⟨k', v'⟩ := a
    simp only [mset] at h
    split at h
    · rcases List.mem_cons.mp h with h | h
      · exact Or.inl h
      · exact Or.inr (List.mem_cons_of_mem _ h)
    split at h
    · rcases List.mem_cons.mp h with h | h
      · exact Or.inl h
      · exact Or.inr h
    · rcases List.mem_cons.mp h with h | h
      · exact Or.inr (by simp [h])
      · rcases ih h with h | h
        · exact Or.inl h
        · exact Or.inr (List.mem_cons_of_mem _ h)

theorem good_structLoop (E : SchemaEnv) (b : BTag) (fs : List (Str × Field))
    (h : ∀ e ∈ fs, ∀ s, componentToSchema E b e.2 = some s → GoodSchema s) :
    ∀ embedded props r, (∀ s ∈ embedded, GoodSchema s) → (∀ e ∈ props, GoodSchema e.2) → structLoop E b fs embedded props = some r →
      (∀ s ∈ r.1, GoodSchema s) ∧ ∀ e ∈ r.2, GoodSchema e.2 := by
  induction fs with
  | nil =>
    intro embedded props r h1 h2 hr
    rw [structLoop] at hr
    cases hr
    exact ⟨h1, h2⟩
  | cons e fs ih =>
    obtain ⟨k, f⟩ := e
    have ih := ih (fun e he => h e (List.mem_cons_of_mem _ he))
    intro embedded props r h1 h2 hr
    rw [structLoop] at hr
    split at hr
    · split at hr
      · refine ih _ _ _ ?_ h2 hr
        intro s hs
        rcases List.mem_append.mp hs with hs | hs
        · exact h1 s hs
        · rw [List.mem_singleton] at hs; subst hs; exact good_ref _
      · exact ih _ _ _ h1 h2 hr
    · split at hr
      · cases hr
      · split at hr
        · exact ih _ _ _ h1 h2 hr
        · split at hr
          · rename_i s hs
            refine ih _ _ _ h1 ?_ hr
            intro e he
            rcases mem_mset he with rfl | he
            · exact h (k, f) (by simp) s hs
            · exact h2 e he
          · exact ih _ _ _ h1 h2 hr

theorem good_component (E : SchemaEnv) (b : BTag) {f : Field} (h : FiniteEnums f) : ∀ s, componentToSchema E b f = some s → GoodSchema s := by
  induction h with
  | @mk f h1 _ ih =>
    obtain ⟨package, type, name, enumValues, isRequired, isEmbedded, sliceType, arrayType, arrayLength, mapKeyPackage, mapKeyType,
      mapValueType, structFields, bindingTags, validationTags, doc⟩ := f
    simp only at h1 ih
    intro s hs
    rw [componentToSchema] at hs
    split at hs
    · cases hs; exact good_format _
    split at hs
    · split at hs
      · rename_i hr
        cases hs
        obtain ⟨k1, k2⟩ := good_structLoop E b structFields ih _ _ _ (by simp) (by simp) hr
        exact good_compose k1 k2
      · cases hs
    · cases hs
      exact good_leaf _ _ _ h1

theorem good_mapField (E : SchemaEnv) (b : BTag) (f : Field) : ∀ s, mapFieldToSchema E b f = some s → GoodSchema s := by
  have hp := format_parts (aget predefinedTypeMap f.type)
  intro s hs
  unfold mapFieldToSchema at hs
  split at hs
  · obtain ⟨r, _, rfl⟩ := Option.map_eq_some_iff.mp hs
    exact good_ref _
  split at hs
  · cases hs
    refine good_schema (by simp [mapPredefined, hp]) (by simp [mapPredefined, hp]) ?_ (by simp [mapPredefined, hp]) (by simp [mapPredefined, hp])
    rintro a ⟨⟩
    split
    · split
      · exact good_ref _
      · exact good_schema (by simp) (by simp) (by simp) (by simp) (by simp)
    · exact good_schema (by simp) (by simp) (by simp) (by simp) (by simp)
  split at hs
  · cases hs
    refine good_schema (by simp [mapPredefined, hp]) (by simp [mapPredefined, hp]) (by simp [mapPredefined, hp]) (by simp [mapPredefined, hp]) ?_
    rintro a ⟨⟩
    split
    · split
      · exact good_ref _
      · exact good_zero
    · exact good_format _
  · cases hs; exact good_format _

theorem good_mapParam (E : SchemaEnv) (b : BTag) (p : Param) : ∀ s, mapParamToSchema E b p = some s → GoodSchema s := by
  intro s hs
  unfold mapParamToSchema at hs
  split at hs
  · exact good_mapField E b _ s hs
  split at hs
  · cases hs
    refine good_schema (by simp) (by simp) ?_ (by simp) (by simp)
    rintro a ⟨⟩
    split
    · split
      · exact good_ref _
      · exact good_format _
    · exact good_format _
  split at hs
  · cases hs
    refine good_schema (by simp) (by simp) (by simp) (by simp) ?_
    rintro a ⟨⟩
    split
    · split
      · exact good_ref _
      · exact good_zero
    · exact good_format _
  · cases hs; exact good_format _

/-! #### The operations -/

variable {yaml : Bool}

theorem good_oParam {p : OParam} (h : GoodSchema p.schema) : GoodJson (encOParam yaml p) := by
  apply good_members
  simp only [List.mem_cons, List.not_mem_nil, or_false]
  rintro m (rfl | rfl | rfl | rfl | rfl | rfl) <;> first | exact good_str _ | exact good_bool _ | exact h

theorem good_content {c : List (Str × Schema)} (h : ∀ e ∈ c, GoodSchema e.2) : GoodJson (encContent yaml c) :=
  good_obj (fun e he => by
    apply good_members
    simp only [List.mem_cons, List.not_mem_nil, or_false]
    rintro m rfl
    exact h e he)

theorem good_header {x : OHeader} (h : GoodSchema x.schema) : GoodJson (encOHeader yaml x) := by
  apply good_members
  simp only [List.mem_cons, List.not_mem_nil, or_false]
  rintro m (rfl | rfl) <;> first | exact good_bool _ | exact h

def GoodResponse (r : OResponse) : Prop := (∀ e ∈ r.headers, GoodSchema e.2.schema) ∧ ∀ e ∈ r.content, GoodSchema e.2

theorem good_response {r : OResponse} (h : GoodResponse r) : GoodJson (encOResponse yaml r) := by
  apply good_members
  simp only [List.mem_cons, List.not_mem_nil, or_false]
  rintro m (rfl | rfl | rfl)
  · exact good_str _
  · exact good_obj (fun e he => good_header (h.1 e he))
  · exact good_content h.2

def GoodOperation (o : Operation) : Prop :=
  (∀ p ∈ o.parameters, GoodSchema p.schema) ∧ (∀ c, o.requestBody = some c → ∀ e ∈ c, GoodSchema e.2) ∧ ∀ e ∈ o.responses, GoodResponse e.2

theorem good_operation {o : Operation} (h : GoodOperation o) : GoodJson (encOperation yaml o) := by
  apply good_members
  simp only [List.mem_append, List.mem_cons, List.not_mem_nil, or_false]
  rintro m (((rfl | rfl | rfl) | hm) | rfl)
  · exact good_str _
  · exact good_str _
  · exact good_arr (fun p hp => good_oParam (h.1 p hp))
  · refine good_pointer (fun j hj => ?_) m hm
    obtain ⟨c, hc, rfl⟩ := Option.map_eq_some_iff.mp hj
    apply good_members
    simp only [List.mem_cons, List.not_mem_nil, or_false]
    rintro m rfl
    exact good_content (h.2.1 c hc)
  · exact good_obj (fun e he => good_response (h.2.2 e he))

def GoodPath (p : PathItem) : Prop :=
  ∀ o, p.get = some o ∨ p.put = some o ∨ p.post = some o ∨ p.delete = some o ∨ p.options = some o ∨ p.head = some o ∨ p.patch = some o → GoodOperation o

theorem good_pathItem {p : PathItem} (h : GoodPath p) : GoodJson (encPathItem yaml p) := by
  apply good_members
  have key : ∀ {k : Str} {o : Option Operation}, (∀ x, o = some x → GoodOperation x) → ∀ m ∈ pointerMember k (o.map (encOperation yaml)), GoodJson m.value := by
    intro k o ho
    refine good_pointer (fun j hj => ?_)
    obtain ⟨c, hc, rfl⟩ := Option.map_eq_some_iff.mp hj
    exact good_operation (ho c hc)
  simp only [List.mem_append]
  rintro m ((((((hm | hm) | hm) | hm) | hm) | hm) | hm) <;> exact key (fun x hx => h x (by simp [hx])) m hm

theorem good_set {p : PathItem} (h : GoodPath p) {o : Operation} (ho : GoodOperation o) (m : Str) : GoodPath (p.set m o) := by
  unfold PathItem.set GoodPath
  repeat' split
  all_goals
    intro x hx
    rcases hx with hx | hx | hx | hx | hx | hx | hx <;> first
      | (have hx' : some o = some x := hx; cases hx'; exact ho)
      | exact h x (.inl hx)
      | exact h x (.inr (.inl hx))
      | exact h x (.inr (.inr (.inl hx)))
      | exact h x (.inr (.inr (.inr (.inl hx))))
      | exact h x (.inr (.inr (.inr (.inr (.inl hx)))))
      | exact h x (.inr (.inr (.inr (.inr (.inr (.inl hx))))))
      | exact h x (.inr (.inr (.inr (.inr (.inr (.inr hx))))))

section
variable (E : SchemaEnv) (components : List Field) (hfin : ∀ f ∈ components, FiniteEnums f)

include hfin in
theorem good_queryOf (iter : List (Str × Schema) → List (Str × Schema)) (hi : ∀ l, (iter l).Perm l) (p : Param) :
    ∀ x ∈ queryParametersOf E components iter p, GoodSchema x.schema := by
  intro x hx
  unfold queryParametersOf at hx
  split at hx
  · cases hx
  rename_i s hs
  split at hx
  · split at hx
    · cases hx
    rename_i c hc
    split at hx
    · cases hx
    rename_i comp hcomp
    obtain ⟨e, he, rfl⟩ := List.mem_map.mp hx
    have hg := good_component E .form (hfin c (List.mem_of_find?_eq_some hc)) comp hcomp
    exact hg.properties e ((hi _).mem_iff.mp he)
  · rw [List.mem_singleton] at hx
    subst hx
    exact good_mapParam E _ p s hs

include hfin in
theorem good_query (iter : Nat → List (Str × Schema) → List (Str × Schema)) (hi : ∀ n l, (iter n l).Perm l) (ps : List Param) :
    ∀ n, ∀ x ∈ queryParameters E components iter n ps, GoodSchema x.schema := by
  induction ps with
  | nil => intro n x hx; cases hx
  | cons p ps ih =>
    intro n x hx
    rcases List.mem_append.mp hx with hx | hx
    · exact good_queryOf E components hfin (iter n) (hi n) p x hx
    · exact ih (n + 1) x hx

theorem good_bodyFold (bs : List BodyParam) : ∀ rb : Option (List (Str × Schema)), (∀ c, rb = some c → ∀ e ∈ c, GoodSchema e.2) →
    ∀ c, bs.foldl (bodyStep E) rb = some c → ∀ e ∈ c, GoodSchema e.2 := by
  induction bs with
  | nil => exact fun rb h => h
  | cons b bs ih =>
    intro rb h
    refine ih _ ?_
    unfold bodyStep
    split
    · exact h
    · rename_i s hs
      rintro c ⟨⟩ e he
      rcases mem_mset he with rfl | he
      · have hg := good_mapField E _ _ s hs
        show GoodSchema (bodySchema b s)
        unfold bodySchema
        split
        · exact good_schema (by simp) (by simp) (by simp) (by simpa using hg) (by simp)
        · exact hg
      · cases rb with
        | none => cases he
        | some c' => exact h c' rfl e he

theorem good_headers (ps : List Param) : ∀ e ∈ responseHeaders E ps, GoodSchema e.2.schema := by
  unfold responseHeaders
  suffices ∀ (ps : List Param) (m : List (Str × OHeader)), (∀ e ∈ m, GoodSchema e.2.schema) → ∀ e ∈ ps.foldl (fun m p => match mapParamToSchema E .header p with
    | some s => mset m p.name { required := p.isRequired, schema := s }
    | none => m) m, GoodSchema e.2.schema from this ps [] (by simp)
  intro ps
  induction ps with
  | nil => exact fun m h => h
  | cons p ps ih =>
    intro m h
    refine ih _ ?_
    dsimp only
    split
    · rename_i s hs
      intro e he
      rcases mem_mset he with rfl | he
      · exact good_mapParam E _ p s hs
      · exact h e he
    · exact h

theorem mget_mem {V : Type} {m : List (Str × V)} {k : Str} {v : V} (h : mget m k = some v) : (k, v) ∈ m := by
  induction m with
  | nil => cases h
  | cons a m ih =>
    obtain ⟨k', v'⟩ := a
    simp only [mget] at h
    split at h
    · rename_i hk; cases h; simp [hk]
    · exact List.mem_cons_of_mem _ (ih h)

theorem good_responseStep {headers : List (Str × OHeader)} (hh : ∀ e ∈ headers, GoodSchema e.2.schema) {m : List (Str × OResponse)}
    (h : ∀ e ∈ m, GoodResponse e.2) (rt : ReturnType) : ∀ e ∈ responseStep E headers m rt, GoodResponse e.2 := by
  unfold responseStep
  have hm' : ∀ e ∈ (if (mget m (itoa rt.statusCode)).isSome then m else mset m (itoa rt.statusCode) { headers := headers }), GoodResponse e.2 := by
    split
    · exact h
    · intro e he
      rcases mem_mset he with rfl | he
      · exact ⟨hh, by simp⟩
      · exact h e he
  simp only
  split
  · intro e he
    rcases mem_mset he with rfl | he
    · have hr : GoodResponse ((mget (if (mget m (itoa rt.statusCode)).isSome then m else mset m (itoa rt.statusCode) { headers := headers }) (itoa rt.statusCode)).getD {}) := by
        cases hg : mget (if (mget m (itoa rt.statusCode)).isSome then m else mset m (itoa rt.statusCode) { headers := headers }) (itoa rt.statusCode) with
        | none => exact ⟨by simp, by simp⟩
        | some r => exact hm' _ (mget_mem hg)
      refine ⟨hr.1, ?_⟩
      intro e he
      rcases mem_mset he with rfl | he
      · show GoodSchema _
        cases hs : mapFieldToSchema E (contentTypeToBindingTag rt.contentType) rt.field with
        | none => exact good_zero
        | some s => exact good_mapField E _ _ s hs
      · exact hr.2 e he
    · exact hm' e he
  · exact hm'

theorem good_responses {headers : List (Str × OHeader)} (hh : ∀ e ∈ headers, GoodSchema e.2.schema) (rts : List ReturnType) :
    ∀ m : List (Str × OResponse), (∀ e ∈ m, GoodResponse e.2) → ∀ e ∈ rts.foldl (responseStep E headers) m, GoodResponse e.2 := by
  induction rts with
  | nil => exact fun m h => h
  | cons rt rts ih => exact fun m h => ih _ (good_responseStep E hh h rt)

include hfin in
theorem good_operationOf (ch : RouteChoice) (hch : ValidChoice ch) (r : Route) : GoodOperation (operationOf E components ch r) := by
  refine ⟨?_, good_bodyFold E r.body none (by simp), good_responses E (good_headers E _) _ _ (by simp)⟩
  intro p hp
  have hp := (hch.1 _).1.mem_iff.mp hp
  rcases List.mem_append.mp hp with hp | hp
  · rcases List.mem_append.mp hp with hp | hp
    · obtain ⟨x, _, hx⟩ := List.mem_filterMap.mp hp
      obtain ⟨s, hs, rfl⟩ := Option.map_eq_some_iff.mp hx
      exact good_mapParam E _ x s hs
    · obtain ⟨x, _, hx⟩ := List.mem_filterMap.mp hp
      obtain ⟨s, hs, rfl⟩ := Option.map_eq_some_iff.mp hx
      exact good_mapParam E _ x s hs
  · exact good_query E components hfin ch.iter hch.2 _ _ p hp

include hfin in
theorem good_addRoutes (ch : Nat → RouteChoice) (hch : ∀ n, ValidChoice (ch n)) (rs : List Route) : ∀ n (paths : List (Str × PathItem)),
    (∀ e ∈ paths, GoodPath e.2) → ∀ e ∈ addRoutes E components ch n rs paths, GoodPath e.2 := by
  induction rs with
  | nil => exact fun n paths h => h
  | cons r rs ih =>
    intro n paths h
    refine ih _ _ ?_
    intro e he
    rcases mem_mset he with rfl | he
    · refine good_set ?_ (good_operationOf E components hfin (ch n) (hch n) r) _
      cases hg : mget paths (openapiPath r.path) with
      | none => rintro o (h | h | h | h | h | h | h) <;> cases h
      | some p => exact h _ (mget_mem hg)
    · exact h e he

theorem good_description {s : Schema} (h : GoodSchema s) (d : Str) : GoodSchema { s with description := d } := by
  obtain ⟨ref, type, format, maxLength, enum, allOf, items, properties, additionalProperties, description⟩ := s
  unfold GoodSchema at h ⊢
  rw [encSchema, GoodJson, goodMembers_iff] at h
  rw [encSchema]
  refine good_members (fun m hm => ?_)
  rcases List.mem_append.mp hm with hm | hm
  · cases hz : m.omitempty && isZeroJson m.value with
    | true => exact good_zeroJson (Bool.and_eq_true_iff.mp hz).2
    | false => exact h _ (members_mem (List.mem_append.mpr (.inl hm)) hz)
  · rw [List.mem_singleton] at hm
    subst hm
    exact good_str _

include hfin in
theorem good_componentSchemas : ∀ e ∈ componentSchemas E components, GoodSchema e.2 := by
  have step : ∀ c, FiniteEnums c → ∀ (bs : List BTag) (m : List (Str × Schema)), (∀ e ∈ m, GoodSchema e.2) → ∀ e ∈ addComponentSchemas E c bs m, GoodSchema e.2 := by
    intro c hc bs
    induction bs with
    | nil => exact fun m h => h
    | cons b bs ih =>
      intro m h
      unfold addComponentSchemas
      split
      · exact ih m h
      · rename_i s hs
        simp only
        split
        · refine ih _ ?_
          intro e he
          rcases mem_mset he with rfl | he
          · show GoodSchema (if _ then _ else _)
            split
            · exact good_description (good_component E b hc s hs) _
            · exact good_component E b hc s hs
          · exact h e he
        · exact ih m h
  have all : ∀ (cs : List Field), (∀ f ∈ cs, FiniteEnums f) → ∀ m : List (Str × Schema), (∀ e ∈ m, GoodSchema e.2) →
      ∀ e ∈ cs.foldl (fun m c => addComponentSchemas E c bindingTags m) m, GoodSchema e.2 := by
    intro cs
    induction cs with
    | nil => exact fun _ m h => h
    | cons c cs ih => exact fun hc m h => ih (fun f hf => hc f (by simp [hf])) _ (step c (hc c (by simp)) _ m h)
  exact all components hfin [] (by simp)

end

theorem good_document {d : Document} (h1 : ∀ e ∈ d.paths, GoodPath e.2) (h2 : ∀ e ∈ d.schemas, GoodSchema e.2) : GoodJson (encDocument yaml d) := by
  apply good_members
  simp only [List.mem_cons, List.not_mem_nil, or_false]
  rintro m (rfl | rfl | rfl | rfl | rfl)
  · exact good_str _
  · apply good_members
    simp only [List.mem_cons, List.not_mem_nil, or_false]
    rintro m (rfl | rfl | rfl | rfl | rfl) <;> first | exact good_str _ | skip
    · apply good_members
      simp only [List.mem_cons, List.not_mem_nil, or_false]
      rintro m (rfl | rfl | rfl) <;> exact good_str _
    · apply good_members
      simp only [List.mem_cons, List.not_mem_nil, or_false]
      rintro m (rfl | rfl) <;> exact good_str _
  · exact good_arr (fun u _ => by
      apply good_members
      simp only [List.mem_cons, List.not_mem_nil, or_false]
      rintro m rfl
      exact good_str _)
  · exact good_obj (fun e he => good_pathItem (h1 e he))
  · apply good_members
    simp only [List.mem_cons, List.not_mem_nil, or_false]
    rintro m rfl
    exact good_obj h2

theorem good_generated {ch : Choices} (hch : ∀ n, ValidChoice (ch.route n)) {table : List (Str × Str)} {s : OpenApiInput}
    (hfin : ∀ f ∈ s.components, FiniteEnums f) {d : Document} (h : generateDoc ch table s = .ok d) : GoodJson (encDocument yaml d) := by
  unfold generateDoc at h
  split at h
  · cases h
  split at h
  · cases h
  · cases h
  · cases h
    exact good_document (good_addRoutes _ _ hfin _ hch _ _ _ (by simp)) (good_componentSchemas _ _ hfin)

/-! ### The file -/

/-- The analysis adds no component with an enum value that is not a number. -/
def KeepsFinite (L : Lib) : Prop :=
  ∀ ctx cs r cs' r', L.parse ctx cs r = (cs', .ok r') → (∀ f ∈ cs, FiniteEnums f) → ∀ f ∈ cs', FiniteEnums f

/-- C80: when the generator of an OpenAPI output with a JSON file name succeeds, the file it has written is a JSON text whose value is the
generated document, key by key. -/
theorem openapi_file_shows_document {L : Lib} {φ : Faults} {w w' : World Proc} {loc : Nat}
    (hch : ∀ n, ValidChoice (L.choices.route n)) (hfin : ∀ f ∈ w.st.svc.components, FiniteEnums f)
    (hy : isYaml (withExtension [c!".json", c!".yaml", c!".yml"] (w.st.svc.cells.getD loc [])) = false)
    (h : openApiGenerate L loc φ w = (w', .ok ())) :
    ∃ q doc text j,
      resolve w.cwd (pathJoin [w.st.svc.workDir, withExtension [c!".json", c!".yaml", c!".yml"] (w.st.svc.cells.getD loc [])]) = some q ∧
      w'.fs = w.fs.put q (.file text) ∧ JsonText text j ∧
      generateDoc L.choices w.st.names { config := w.st.svc.config, routes := w.st.svc.routes, components := w.st.svc.components, types := w.st.svc.maps.merged } = .ok doc ∧
      ShowsDocument false doc j := by
  obtain ⟨q, doc, text, h1, h2, h3, h4, h5, _⟩ := openApiGenerate_inv h
  rw [openApiExt_spec] at h2 h3
  rw [hy] at h2
  cases h2
  exact ⟨q, doc, _, encDocument false doc, h3, h5, written_is_json _ _ _ (good_generated hch hfin h1), h1, shows_document false doc⟩

theorem finite_clean {m : Str} {f : Field} (h : FiniteEnums f) : FiniteEnums (cleanField m f) := by
  induction h with
  | mk h1 h2 ih =>
    rename_i f
    obtain ⟨package, type, name, enumValues, isRequired, isEmbedded, sliceType, arrayType, arrayLength, mapKeyPackage, mapKeyType, mapValueType, structFields, bindingTags, validationTags, doc⟩ := f
    rw [cleanField]
    have hf : ∀ (l : List (Str × Field)), (∀ e ∈ l, FiniteEnums (cleanField m e.2)) → ∀ e ∈ cleanFields m l, FiniteEnums e.2 := by
      intro l
      induction l with
      | nil => intro _ e he; simp [cleanFields] at he
      | cons a l ihl =>
        obtain ⟨k, g⟩ := a
        intro hl e he
        rw [cleanFields] at he
        rcases List.mem_cons.mp he with rfl | he
        · exact hl (k, g) (by simp)
        · exact ihl (fun e he => hl e (by simp [he])) e he
    have hs : ∀ f : Field, (renameMain m (handleSubstituteTypes f)).enumValues = f.enumValues ∧
        ((renameMain m (handleSubstituteTypes f)).structFields = [] ∨ (renameMain m (handleSubstituteTypes f)).structFields = f.structFields) := by
      intro f
      unfold renameMain handleSubstituteTypes
      split
      · exact ⟨rfl, .inl rfl⟩
      · exact ⟨rfl, .inr rfl⟩
    split
    · rename_i h0
      exact .mk (fun t ht => h1 t ((hs _).1 ▸ ht)) (fun e he => by rw [h0] at he; cases he)
    · exact .mk (fun t ht => h1 t ((hs _).1 ▸ ht)) (hf _ ih)

theorem finite_analysed {L : Lib} (hL : KeepsFinite L) {wd : Str} {fs : List CustomFunc} {m m' : Str} {cs cs' : List Field} {rs rs' : List Route}
    (h : AnalysedInOrder L wd fs m cs rs m' cs' rs') (hc : ∀ f ∈ cs, FiniteEnums f) : ∀ f ∈ cs', FiniteEnums f := by
  induction h with
  | done => exact hc
  | step _ h2 _ ih => exact ih (hL _ _ _ _ _ h2 hc)

theorem finite_passes {L : Lib} (hL : KeepsFinite L) {wd : Str} {fs : List CustomFunc} {n : Nat} {m m' : Str} {cs cs' : List Field} {rs rs' : List Route}
    (h : AnalysedPasses L wd fs n m cs rs m' cs' rs') (hc : ∀ f ∈ cs, FiniteEnums f) : ∀ f ∈ cs', FiniteEnums f := by
  induction h with
  | done => exact hc
  | pass h1 _ ih => exact ih (finite_analysed hL h1 hc)

theorem finite_result {L : Lib} (hL : KeepsFinite L) {s : Service} {wd : Str} {routers : List (List RouteInfo)} {m : Str} {rs : List Route} {cs : List Field}
    (h : RunResult L s wd routers m rs cs) (hc : ∀ f ∈ s.components, FiniteEnums f) : ∀ f ∈ cs, FiniteEnums f := by
  obtain ⟨found, m1, cs1, rs1, _, h2, _, _, rfl⟩ := h
  intro f hf
  obtain ⟨g, hg, rfl⟩ := List.mem_map.mp hf
  exact finite_clean (finite_passes hL h2 hc g hg)

/-- C80, for a whole run: a service with gin routers and an OpenAPI output with a JSON file name, which comes after no other OpenAPI
output. If the run succeeds, whatever faults it survived, the file of the output is a JSON text, and its value is the document for the
result of the routers, key by key. -/
theorem run_writes_document (L : Lib) (hkey : KeepsKeys L) (hkf : KeepsFinite L) (hch : ∀ n, ValidChoice (L.choices.route n))
    (U : FPath → Prop) (hL : Tame L U) (getwd : Str) (φ : Faults) (w w' : World Proc) (d : FPath)
    (hd : DirAt w.cwd w.st.svc.workDir d) (hg : resolve w.cwd getwd = some w.cwd) (hnames : ProperNames w.fs) (hc : ∀ x ∈ w.cwd, '/' ∉ x)
    (routers : List (List RouteInfo)) (hin : Each GinInput w.st.svc.inputs routers) (hroutes : w.st.svc.routes = [])
    (hfin : ∀ f ∈ w.st.svc.components, FiniteEnums f)
    (hnd : DistinctRoutes (allowed w.st.svc.denyList routers.flatten))
    (before after : List Output) (o : Output) (hout : w.st.svc.outputs = before ++ o :: after) (hown : OwnCells w.st.svc.outputs)
    (hbefore : ∀ b ∈ before, Plain b) (loc : Nat) (ho : o.generate = .openapi loc)
    (hy : isYaml (withExtension [c!".json", c!".yaml", c!".yml"] (w.st.svc.cells.getD loc [])) = false)
    (q : FPath) (hq : OutputPlace d w.st.svc o.generate q)
    (hplace : OwnPlace w.cwd d w.st.svc after q) (hU : ¬ U q)
    (h : Astra.parseAll L getwd φ w = (w', .ok ())) :
    ∃ m rs cs doc text j, RunResult L w.st.svc (workDirAfter getwd w.st.svc) routers m rs cs ∧
      generateDoc L.choices w.st.names { config := w.st.svc.config, routes := rs, components := cs, types := w.st.svc.maps.merged } = .ok doc ∧
      w'.fs.look q = some (.file text) ∧ JsonText text j ∧ ShowsDocument false doc j := by
  obtain ⟨m, rs, cs, doc, text, hres, h1, h2, h3⟩ := openapi_file_of_run L hkey U hL getwd φ w w' d hd hg hnames hc routers hin hroutes hnd
    before after o hout hown hbefore loc ho q hq hplace hU h
  rw [hy] at h2
  cases h2
  exact ⟨m, rs, cs, doc, _, encDocument false doc, hres, h1, h3, written_is_json _ _ _ (good_generated hch (finite_result hkf hres hfin) h1), shows_document false doc⟩

/-! ### Where the operations are -/

theorem each_lookup {α : Type} {P : α → Json → Prop} {m : List (Str × α)} {ms : List (Str × Json)}
    (h : Each (fun e f => f.1 = e.1 ∧ P e.2 f.2) m ms) (k : Str) : ShowsOptional P (mget m k) (aget ms k) := by
  induction h with
  | nil => rfl
  | cons h1 _ ih =>
    rename_i a b as bs _
    obtain ⟨ka, a⟩ := a
    obtain ⟨kb, b⟩ := b
    obtain ⟨rfl, h1⟩ := h1
    simp only [mget, aget]
    by_cases hk : kb = k
    · simp only [hk, if_true]; exact ⟨b, rfl, h1⟩
    · simp only [if_neg hk]; exact ih

/-- C80: in a JSON value that shows a document, the operation of a path and one of the seven methods is under `paths`, the path and the
method in lower case; where the document has no operation there is none. -/
theorem shown_operation {d : Document} {j : Json} (h : ShowsDocument yaml d j) (path method : Str) (hm : method ∈ documentedMethods) :
    ShowsOptional (ShowsOperation yaml) (Document.operation d path method)
      (((keyOf j c!"paths").bind (fun ps => keyOf ps path)).bind (fun p => keyOf p (method.map Char.toLower))) := by
  obtain ⟨_, _, _, _, h, _⟩ := h
  unfold Document.operation opAt
  rcases h with ⟨h1, h2⟩ | ⟨_, ms, h2, h3⟩
  · rw [h1, h2]; rfl
  · rw [h2]
    have hp := each_lookup h3 path
    simp only [Option.bind_some, keyOf]
    cases hg : mget d.paths path with
    | none =>
      rw [hg] at hp
      rw [show aget ms path = none from hp]
      rfl
    | some p =>
      rw [hg] at hp
      obtain ⟨x, e, _, k1, k2, k3, k4, k5, k6, k7⟩ := hp
      rw [e]
      simp only [Option.bind_some]
      simp only [documentedMethods, List.mem_cons, List.not_mem_nil, or_false] at hm
      rcases hm with rfl | rfl | rfl | rfl | rfl | rfl | rfl
      · exact k1
      · exact k3
      · exact k2
      · exact k7
      · exact k4
      · exact k6
      · exact k5

/-! ### Non-vacuity -/

/-- A component with an enum of numbers. -/
def fileLevel : Field := { package := c!"example.com/m", name := c!"Level", type := c!"int", enumValues := [.int 1, .int 2] }

/-- An analysis that gives every route a path parameter and a response with the component. -/
def fileLib : Lib :=
  { exampleLib with
    choices := someChoices
    parse := fun _ cs r => (if cs = [] then [fileLevel] else cs, .ok { r with
      operationId := c!"get"
      pathParams := [{ name := c!"id", field := { type := c!"string" }, isRequired := true }]
      returnTypes := [{ statusCode := 200, contentType := c!"application/json", field := { package := c!"example.com/m", type := c!"Level" } }] }) }

def fileWorld : World Proc :=
  { routerWorld with
    st := { svc := newService [.workDir c!"/w", .ginInput (some routerInfos), .jsonOutput c!"routes", .openApiOutput c!"api", .jsonOutput c!"again",
      .deny (.exact c!"/secret"), .config (some { title := c!"t", host := c!"localhost", port := 8000, basePath := c!"/" })] } }


theorem fileLib_keys : KeepsKeys fileLib := by
  intro ctx cs r cs' r' h
  cases h
  exact ⟨rfl, rfl⟩

theorem fileLib_finite : KeepsFinite fileLib := by
  intro ctx cs r cs' r' h hc
  cases h
  split
  · intro f hf
    rw [List.mem_singleton] at hf
    subst hf
    exact .mk (fun t ht => by simp [fileLevel] at ht) (fun e he => by cases he)
  · exact hc

theorem fileLib_choices : ∀ n, ValidChoice (fileLib.choices.route n) := fun _ => someChoice_valid

/-- The run of the example succeeds, and the operation of the second entry is in the value of the file of the OpenAPI output. -/
example : (Astra.parseAll fileLib c!"/w" noFaults fileWorld).2 = .ok () ∧
    ((Astra.parseAll fileLib c!"/w" noFaults fileWorld).1.fs.look [c!"w", c!"api.json"]).bind (fun n => match n with
      | .file text => (decodeText text).bind (fun j => ((keyOf j c!"paths").bind (keyOf · c!"/b")).bind (fun p => (keyOf p c!"get").bind (fun o =>
          match keyOf o c!"operationId" with
          | some (.str s) => some s
          | _ => none)))
      | .dir => none) = some c!"get" := by
  constructor <;> decide +kernel

/-- The example meets the hypotheses of the theorem about whole runs. -/
example : KeepsKeys fileLib ∧ KeepsFinite fileLib ∧ (∀ n, ValidChoice (fileLib.choices.route n)) ∧
    Tame fileLib (fun _ => False) ∧ DirAt fileWorld.cwd fileWorld.st.svc.workDir [c!"w"] ∧
    resolve fileWorld.cwd c!"/w" = some fileWorld.cwd ∧ (∀ x ∈ fileWorld.cwd, '/' ∉ x) ∧
    fileWorld.st.svc.inputs = [⟨modeGin, .ginCreate (some routerInfos), .ginParse⟩] ∧ fileWorld.st.svc.routes = [] ∧
    (∀ f ∈ fileWorld.st.svc.components, FiniteEnums f) ∧
    DistinctRoutes (allowed fileWorld.st.svc.denyList routerInfos) ∧ OwnCells fileWorld.st.svc.outputs ∧
    isYaml (withExtension [c!".json", c!".yaml", c!".yml"] (fileWorld.st.svc.cells.getD 1 [])) = false ∧
    OutputPlace [c!"w"] fileWorld.st.svc (.openapi 1) [c!"w", c!"api.json"] ∧
    OwnPlace fileWorld.cwd [c!"w"] fileWorld.st.svc (fileWorld.st.svc.outputs.drop 2) [c!"w", c!"api.json"] := by
  refine ⟨fileLib_keys, fileLib_finite, fileLib_choices, fun _ _ _ => ⟨fun _ _ => rfl, id, rfl, rfl, rfl, rfl, rfl, rfl, rfl, rfl⟩, Or.inr (by decide), by decide, by decide, rfl, rfl,
    (fun f hf => by cases hf), ?_, (options_shape _).2, by decide, show [c!"w", c!"api.json"] = _ by decide, by decide, ?_, ?_⟩
  · show (List.map _ (allowed _ _)).Nodup
    decide +kernel
  · rintro ⟨h, _⟩
    cases h
  · intro o ho
    have : fileWorld.st.svc.outputs.drop 2 = [_] := rfl
    rw [this, List.mem_singleton] at ho
    subst ho
    show ¬ ([c!"w", c!"api.json"] = walk [c!"w"] (segments (withExtension [c!".json"] (fileWorld.st.svc.cells.getD 2 []))))
    decide

end Astra.Props
