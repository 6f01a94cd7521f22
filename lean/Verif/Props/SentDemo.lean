/-
C89, C90, C91: a program that meets the hypotheses.
-/
import Verif.Props.SentRun

namespace Astra.Props
open Astra.Spec

theorem literal_raw : ∀ v : Str, (∀ c ∈ v, c ≠ '"' ∧ c ≠ '\\' ∧ c ≠ '\n') → Literal v v
  | [], _ => .empty
  | c :: v, h => .raw (h c (by simp)).1 (h c (by simp)).2.1 (h c (by simp)).2.2 (literal_raw v (fun d hd => h d (by simp [hd])))

/-- The text of a tag with a value for json only. -/
def jsonOnly (v : Str) : Str := c!"json:\"" ++ (v ++ c!"\"")

theorem jsonOnly_text (v : Str) (h : ∀ c ∈ v, c ≠ '"' ∧ c ≠ '\\' ∧ c ≠ '\n') : TagText (jsonOnly v) [(c!"json", v)] := by
  have := TagText.pair (spaces := []) (key := c!"json") (rest := []) (by simp) (by simp) (by unfold KeyChar; decide) (literal_raw v h)
    (.done (by simp))
  simpa [jsonOnly] using this

theorem member_of_value {f : StructField} {pairs : List (Str × Str)} {v name : Str} {opts : List Str} (h : TagText f.tag pairs)
    (hv : tagValue pairs c!"json" = some v) (hs : split ',' v = name :: opts) (hn : name ≠ []) {k : Str} {o : List Str} (hm : JsonMember f k o) :
    k = name ∧ o = opts := by
  have e : ∀ {pairs' : List (Str × Str)}, TagText f.tag pairs' → tagValue pairs' c!"json" = some v := by
    intro pairs' h'
    rw [← lookup_tagValue h', lookup_tagValue h, hv]
  cases hm with
  | untagged h1 h2 => rw [e h1] at h2; cases h2
  | tagged h1 h2 _ h4 _ _ =>
    rw [e h1] at h2; cases h2
    rw [hs] at h4; cases h4
    exact ⟨rfl, rfl⟩
  | unnamed h1 h2 h3 =>
    rw [e h1] at h2; cases h2
    rw [hs] at h3; cases h3
    exact absurd rfl hn

/-- A field with a tag for json only. -/
theorem jsonOnly_field {f : StructField} (v name : Str) (opts : List Str) (htag : f.tag = jsonOnly v) (hc : ∀ c ∈ v, c ≠ '"' ∧ c ≠ '\\' ∧ c ≠ '\n')
    (hs : split ',' v = name :: opts) (hn : name ≠ [])
    (hv : v.takeWhile (· ≠ ',') ≠ c!"-" ∧ ∀ c ∈ v.takeWhile (· ≠ ','), TagChar c) :
    JsonTag f ∧ (∀ k o, JsonMember f k o → k = name ∧ o = opts) ∧ ¬ NoJsonTag f := by
  have h := jsonOnly_text v hc
  rw [← htag] at h
  refine ⟨⟨_, h, ?_, ?_⟩, fun k o hm => member_of_value h rfl hs hn hm, ?_⟩
  · intro key hk
    simp only [List.mem_cons, List.not_mem_nil, or_false] at hk
    rcases hk with rfl | rfl | rfl | rfl | rfl <;> rfl
  · intro w hw
    cases hw
    exact Or.inr hv
  · rintro ⟨pairs, h1, h2⟩
    rw [← lookup_tagValue h1, lookup_tagValue h] at h2
    cases h2

def shopPkg : Str := c!"example.com/shop"

/-- `type Item struct { Name string; Tags map[string][]string; Owner *Owner; Price float64; *Stamp }`, tagged for JSON. -/
def itemFields : List (StructField × GoType) :=
  [({ name := c!"Name", tag := jsonOnly c!"name", pos := 7 }, .basic .string c!"string"),
   ({ name := c!"Tags", tag := jsonOnly c!"tags,omitempty" }, .map (.basic .string c!"string") (.slice (.basic .string c!"string"))),
   ({ name := c!"Owner", tag := jsonOnly c!"owner" }, .pointer (.named (some shopPkg) c!"Owner" [])),
   ({ name := c!"Price", tag := jsonOnly c!"price,omitempty" }, .basic .float c!"float64"),
   ({ name := c!"Stamp", embedded := true }, .pointer (.named (some shopPkg) c!"Stamp" []))]

def ownerFields : List (StructField × GoType) := [({ name := c!"ID", tag := jsonOnly c!"id" }, .basic .int c!"int")]

/-- `type Stamp struct { State Status }`. -/
def stampFields : List (StructField × GoType) := [({ name := c!"State", tag := jsonOnly c!"state" }, .named (some shopPkg) c!"Status" [])]

/-- `const Open, Done Status = "open", "done"`. -/
def statusSpec : ConstSpec :=
  { typeIdent := some c!"Status", values := [.lit c!"\"open\"", .lit c!"\"done\""], truth := [(c!"Status", .str c!"open"), (c!"Status", .str c!"done")] }

/-- The types, and `type Status string` with the constants `open` and `done`; the field `Name` has a comment. -/
def itemEnv : TypeEnv where
  loadable := fun p => p = shopPkg
  underlying := fun _ n _ => if n = c!"Item" then .struct itemFields else if n = c!"Owner" then .struct ownerFields
    else if n = c!"Stamp" then .struct stampFields else if n = c!"Status" then .basic .string c!"string" else .interface
  files := fun _ => [[.const [statusSpec],
    .type (some c!"Types of the shop.\n") [{ name := c!"Item", doc := some c!"An Item is sold.\n" }, { name := c!"Owner" }],
    .type none [{ name := c!"Stamp" }, { name := c!"Status" }]]]
  nodeAt := fun _ pos => if pos = 7 then .field [c!"Name"] c!"How it is called.\n" else .other
  parseFloat := fun _ => none

def itemTypes (x : TName) : Prop := x = (shopPkg, c!"Item", []) ∨ x = (shopPkg, c!"Owner", []) ∨ x = (shopPkg, c!"Stamp", []) ∨
  x = (shopPkg, c!"Status", [])

/-- A `Status` is always one of its constants. -/
def itemMarshal (_ n : Str) : Option (Json → Prop) :=
  if n = c!"Status" then some (fun v => v = .str c!"open" ∨ v = .str c!"done") else none

/-- `c.BindJSON(&item); c.JSON(200, items)`, with `items` of type `[]Item`. -/
def itemProg : Prog :=
  { types := itemEnv, filePkg := fun _ => shopPkg
    funcs := fun f => if f = 0 then { params := fun _ => ctxParams, body := [.call 0 [], .other [.call 1 []]], doc := some c!"Post.\n" } else {}
    view := fun _ id =>
      if id = 0 then { func := .ok (true, c!"BindJSON"), args := [{ type := .ok (.pointer (.named (some shopPkg) c!"Item" [])) }] }
      else if id = 1 then { func := .ok (true, c!"JSON"), args := [{ value := .ok c!"200" }, { type := .ok (.slice (.named (some shopPkg) c!"Item" [])) }] }
      else {} }

def itemRoutes : RouteEnv where
  prog := itemProg
  loadable p := p = shopPkg
  fileOf _ f := if f = c!"shop.go" then some 0 else none
  decls _ := [⟨c!"Post", 10, 0, []⟩]
  lowerCamel s := s

def itemLib : Lib :=
  { routerLib with parse := fun _ cs r => match parseRoute itemRoutes 3 cs r with | some x => x | none => (cs, .err []) }

theorem itemLib_byModel : ByModel itemLib (fun _ => itemRoutes) := by
  refine ⟨fun _ f hf => (by cases hf), fun ctx cs r cs' r' h => ⟨3, ?_⟩⟩
  have h : (match parseRoute itemRoutes 3 cs r with | some x => x | none => (cs, .err [])) = (cs', .ok r') := h
  cases hp : parseRoute itemRoutes 3 cs r with
  | none => rw [hp] at h; cases h
  | some x => rw [hp] at h; rw [← h]

def itemInfo : RouteInfo := ⟨c!"POST", c!"/items", c!"example.com/shop.Post", c!"shop.go", 10⟩

def itemWorld : World Proc :=
  { fs := [([c!"w"], .dir), ([c!"w", c!"main.go"], .file c!"package main"), ([c!"w", c!"go.mod"], .file c!"module m\n")], cwd := [c!"w"]
    st := { svc := newService [.workDir c!"/w", .ginInput (some [itemInfo]), .openApiOutput c!"api.yaml",
      .config (some { title := c!"t", host := c!"localhost", port := 8000, basePath := c!"/" })] } }

/-! ### The hypotheses -/

theorem item_typed : TypedProgram (fun _ => itemRoutes) itemEnv itemTypes := by
  refine ⟨fun _ => rfl, fun _ => rfl, ?_⟩
  intro _ file id name a t x hf ha hat hx
  simp only [itemRoutes, itemProg] at ha
  by_cases h0 : id = 0
  · simp only [h0, if_true, List.mem_singleton] at ha
    subst ha
    cases hat
    cases hx with
    | pointer hx => cases hx; exact Or.inl rfl
  · by_cases h1 : id = 1
    · simp only [h1, if_true, if_neg (show ¬ (1 : Nat) = 0 by decide), List.mem_cons, List.not_mem_nil, or_false] at ha
      rcases ha with rfl | rfl
      · cases hat
      · cases hat
        cases hx with
        | slice hx => cases hx; exact Or.inl rfl
    · simp [h0, h1] at ha

/-- A field with a tag for json only is a member. -/
theorem jsonOnly_member {f : StructField} (v name : Str) (opts : List Str) (h1 : f.tag = jsonOnly v) (h2 : ∀ c ∈ v, c ≠ '"' ∧ c ≠ '\\' ∧ c ≠ '\n')
    (h3 : v ≠ c!"-") (h4 : split ',' v = name :: opts) (h5 : name ≠ []) (h6 : ∀ c ∈ name, TagChar c) : JsonMember f name opts := by
  have h := jsonOnly_text v h2
  rw [← h1] at h
  exact .tagged h rfl h3 h4 h5 h6

/-- A field, its place in a struct, its JSON name and its options. -/
abbrev Row := List Nat × (StructField × GoType) × Str × List Str

/-- The fields a struct offers, under different names. -/
structure Rows (Γ : TypeEnv) (fs : List (StructField × GoType)) (rows : List Row) : Prop where
  offers : ∀ path e, Offers Γ fs path e → ∃ r ∈ rows, path = r.1 ∧ e = r.2.1
  offered : ∀ r ∈ rows, Offers Γ fs r.1 r.2.1
  member : ∀ r ∈ rows, JsonMember r.2.1.1 r.2.2.1 r.2.2.2 ∧ ∀ k o, JsonMember r.2.1.1 k o → k = r.2.2.1 ∧ o = r.2.2.2
  names : ∀ r ∈ rows, ∀ r' ∈ rows, r.2.2.1 = r'.2.2.1 → r = r'

theorem rows_wins {Γ : TypeEnv} {fs : List (StructField × GoType)} {rows : List Row} (h : Rows Γ fs rows) {r : Row} (hr : r ∈ rows) :
    Wins Γ fs r.1 r.2.2.1 r.2.2.2 r.2.1 := by
  refine ⟨h.offered r hr, (h.member r hr).1, ?_⟩
  intro path' e' o' hne ho hm
  obtain ⟨r', hr', rfl, rfl⟩ := h.offers _ _ ho
  have := h.names r hr r' hr' ((h.member r' hr').2 _ _ hm).1
  subst this
  exact absurd rfl hne

theorem rows_embeds {Γ : TypeEnv} {fs : List (StructField × GoType)} {rows : List Row}
    (h : Rows Γ fs rows) : ∀ path e path' e' k o o', Offers Γ fs path e → JsonMember e.1 k o → Wins Γ fs path' k o' e' → e'.2 = e.2 := by
  intro path e path' e' k o o' h1 h2 h3
  obtain ⟨r, hr, rfl, rfl⟩ := h.offers _ _ h1
  obtain ⟨r', hr', rfl, rfl⟩ := h.offers _ _ h3.offered
  have := h.names r hr r' hr' (((h.member r hr).2 _ _ h2).1.symm.trans ((h.member r' hr').2 _ _ h3.member).1)
  subst this
  rfl

/-- An encoding of a struct, from the rows of its members. -/
theorem rows_encodes {Γ : TypeEnv} {marshal : Str → Str → Option (Json → Prop)} {fs : List (StructField × GoType)} {rows : List Row}
    (h : Rows Γ fs rows) (ms : List (Str × Json)) (pick : Str → Row) (hnd : (ms.map (·.1)).Nodup)
    (hpick : ∀ m ∈ ms, pick m.1 ∈ rows ∧ (pick m.1).2.2.1 = m.1 ∧ c!"string" ∉ (pick m.1).2.2.2)
    (hall : ∀ r ∈ rows, r.2.2.1 ∈ ms.map (·.1) ∨ c!"omitempty" ∈ r.2.2.2)
    (hv : ∀ m ∈ ms, Encodes Γ marshal false (pick m.1).2.1.2 m.2) : Encodes Γ marshal false (.struct fs) (.obj ms) := by
  refine .struct (fun k => (pick k).1) (fun k => (pick k).2.2.2) (fun k => (pick k).2.1) hnd ?_ ?_ ?_ (fun m hm _ => hv m hm)
  · intro m hm
    obtain ⟨h1, h2, _⟩ := hpick m hm
    have := rows_wins h h1
    rw [h2] at this
    exact this
  · intro path k o e hw
    obtain ⟨r, hr, rfl, rfl⟩ := h.offers _ _ hw.offered
    obtain ⟨rfl, rfl⟩ := (h.member r hr).2 _ _ hw.member
    exact (hall r hr).imp id Or.inl
  · intro m hm hs
    exact absurd hs (hpick m hm).2.2

/-- The rows of a struct without embedded fields. -/
theorem offers_plain {Γ : TypeEnv} {fs : List (StructField × GoType)} (hp : ∀ e ∈ fs, e.1.embedded = false) {path : List Nat}
    {e : StructField × GoType} (h : Offers Γ fs path e) : ∃ i : Nat, path = [i] ∧ fs[i]? = some e := by
  cases h with
  | own h1 _ _ => exact ⟨_, rfl, h1⟩
  | inner h1 h2 _ =>
    have := hp _ (List.mem_of_getElem? h1)
    rw [h2.1] at this
    cases this

def nameField : StructField × GoType := ({ name := c!"Name", tag := jsonOnly c!"name", pos := 7 }, .basic .string c!"string")
def tagsField : StructField × GoType := ({ name := c!"Tags", tag := jsonOnly c!"tags,omitempty" }, .map (.basic .string c!"string") (.slice (.basic .string c!"string")))
def ownerField : StructField × GoType := ({ name := c!"Owner", tag := jsonOnly c!"owner" }, .pointer (.named (some shopPkg) c!"Owner" []))
def priceField : StructField × GoType := ({ name := c!"Price", tag := jsonOnly c!"price,omitempty" }, .basic .float c!"float64")
def stampField : StructField × GoType := ({ name := c!"Stamp", embedded := true }, .pointer (.named (some shopPkg) c!"Stamp" []))
def stateField : StructField × GoType := ({ name := c!"State", tag := jsonOnly c!"state" }, .named (some shopPkg) c!"Status" [])
def idField : StructField × GoType := ({ name := c!"ID", tag := jsonOnly c!"id" }, .basic .int c!"int")

theorem stamp_noTag : NoJsonTag stampField.1 := ⟨[], .done (by simp [stampField]), rfl⟩

theorem stamp_inlines : Inlines itemEnv stampField stampFields := by
  refine ⟨rfl, ⟨[], .done (by simp [stampField]), ?_⟩, _, .pointer _ _ _, rfl⟩
  intro v hv
  cases hv

def itemRows : List Row := [([0], nameField, c!"name", []), ([1], tagsField, c!"tags", [c!"omitempty"]), ([2], ownerField, c!"owner", []),
  ([3], priceField, c!"price", [c!"omitempty"]), ([4, 0], stateField, c!"state", [])]

def ownerRows : List Row := [([0], idField, c!"id", [])]

def stampRows : List Row := [([0], stateField, c!"state", [])]

/-- What is needed of each of the tagged fields. -/
theorem demo_fields : ∀ r ∈ itemRows ++ ownerRows ++ stampRows, JsonTag r.2.1.1 ∧
    (JsonMember r.2.1.1 r.2.2.1 r.2.2.2 ∧ ∀ k o, JsonMember r.2.1.1 k o → k = r.2.2.1 ∧ o = r.2.2.2) ∧ ¬ NoJsonTag r.2.1.1 := by
  have go : ∀ (f : StructField) (v name : Str) (opts : List Str), f.tag = jsonOnly v → (∀ c ∈ v, c ≠ '"' ∧ c ≠ '\\' ∧ c ≠ '\n') → v ≠ c!"-" →
      split ',' v = name :: opts → name ≠ [] → (∀ c ∈ name, TagChar c) →
      (v.takeWhile (· ≠ ',') ≠ c!"-" ∧ ∀ c ∈ v.takeWhile (· ≠ ','), TagChar c) →
      JsonTag f ∧ (JsonMember f name opts ∧ ∀ k o, JsonMember f k o → k = name ∧ o = opts) ∧ ¬ NoJsonTag f := by
    intro f v name opts h1 h2 h3 h4 h5 h6 h7
    obtain ⟨a1, a2, a3⟩ := jsonOnly_field v name opts h1 h2 h4 h5 h7
    exact ⟨a1, ⟨jsonOnly_member v name opts h1 h2 h3 h4 h5 h6, a2⟩, a3⟩
  intro r hr
  simp only [itemRows, ownerRows, stampRows, List.cons_append, List.nil_append, List.mem_cons, List.not_mem_nil, or_false] at hr
  rcases hr with rfl | rfl | rfl | rfl | rfl | rfl | rfl
  · exact go _ c!"name" _ _ rfl (by decide) (by decide) (by decide) (by decide) (by unfold TagChar; decide) ⟨by decide, by unfold TagChar; decide⟩
  · exact go _ c!"tags,omitempty" _ _ rfl (by decide) (by decide) (by decide) (by decide) (by unfold TagChar; decide) ⟨by decide, by unfold TagChar; decide⟩
  · exact go _ c!"owner" _ _ rfl (by decide) (by decide) (by decide) (by decide) (by unfold TagChar; decide) ⟨by decide, by unfold TagChar; decide⟩
  · exact go _ c!"price,omitempty" _ _ rfl (by decide) (by decide) (by decide) (by decide) (by unfold TagChar; decide) ⟨by decide, by unfold TagChar; decide⟩
  · exact go _ c!"state" _ _ rfl (by decide) (by decide) (by decide) (by decide) (by unfold TagChar; decide) ⟨by decide, by unfold TagChar; decide⟩
  · exact go _ c!"id" _ _ rfl (by decide) (by decide) (by decide) (by decide) (by unfold TagChar; decide) ⟨by decide, by unfold TagChar; decide⟩
  · exact go _ c!"state" _ _ rfl (by decide) (by decide) (by decide) (by decide) (by unfold TagChar; decide) ⟨by decide, by unfold TagChar; decide⟩

theorem not_inlined {e : StructField × GoType} (h : e.1.embedded = false) : ∀ gs, ¬ Inlines itemEnv e gs := by
  rintro gs ⟨h', _⟩
  rw [h] at h'
  cases h'

theorem stamp_rows : Rows itemEnv stampFields stampRows := by
  refine ⟨?_, ?_, fun r hr => (demo_fields r (by simp [hr])).2.1, ?_⟩
  · intro path e h
    obtain ⟨i, rfl, hi⟩ := offers_plain (by decide) h
    match i, hi with
    | 0, hi => cases hi; exact ⟨_, List.mem_cons_self, rfl, rfl⟩
  · intro r hr
    simp only [stampRows, List.mem_singleton] at hr
    subst hr
    exact .own rfl rfl (not_inlined rfl)
  · intro r hr r' hr' _
    simp only [stampRows, List.mem_singleton] at hr hr'
    rw [hr, hr']

theorem owner_rows : Rows itemEnv ownerFields ownerRows := by
  refine ⟨?_, ?_, fun r hr => (demo_fields r (by simp [hr])).2.1, ?_⟩
  · intro path e h
    obtain ⟨i, rfl, hi⟩ := offers_plain (by decide) h
    match i, hi with
    | 0, hi => cases hi; exact ⟨_, List.mem_cons_self, rfl, rfl⟩
  · intro r hr
    simp only [ownerRows, List.mem_singleton] at hr
    subst hr
    exact .own rfl rfl (not_inlined rfl)
  · intro r hr r' hr' _
    simp only [ownerRows, List.mem_singleton] at hr hr'
    rw [hr, hr']

theorem item_rows : Rows itemEnv itemFields itemRows := by
  refine ⟨?_, ?_, fun r hr => (demo_fields r (by simp [hr])).2.1, ?_⟩
  · intro path e h
    cases h with
    | @own _ i _ hi _ hn =>
      match i, hi with
      | 0, hi => cases hi; exact ⟨([0], nameField, c!"name", []), by simp [itemRows], rfl, rfl⟩
      | 1, hi => cases hi; exact ⟨([1], tagsField, c!"tags", [c!"omitempty"]), by simp [itemRows], rfl, rfl⟩
      | 2, hi => cases hi; exact ⟨([2], ownerField, c!"owner", []), by simp [itemRows], rfl, rfl⟩
      | 3, hi => cases hi; exact ⟨([3], priceField, c!"price", [c!"omitempty"]), by simp [itemRows], rfl, rfl⟩
      | 4, hi => cases hi; exact absurd stamp_inlines (hn _)
    | @inner _ gs i b _ path hi hin ho =>
      match i, hi with
      | 0, hi => cases hi; exact absurd hin (not_inlined rfl _)
      | 1, hi => cases hi; exact absurd hin (not_inlined rfl _)
      | 2, hi => cases hi; exact absurd hin (not_inlined rfl _)
      | 3, hi => cases hi; exact absurd hin (not_inlined rfl _)
      | 4, hi =>
        cases hi
        obtain ⟨_, _, x, hx, hu⟩ := hin
        cases hx
        have hu : GoType.struct stampFields = .struct gs := hu
        cases hu
        obtain ⟨r, hr, rfl, rfl⟩ := stamp_rows.offers _ _ ho
        simp only [stampRows, List.mem_singleton] at hr
        subst hr
        exact ⟨([4, 0], stateField, c!"state", []), by simp [itemRows], rfl, rfl⟩
  · intro r hr
    simp only [itemRows, List.mem_cons, List.not_mem_nil, or_false] at hr
    rcases hr with rfl | rfl | rfl | rfl | rfl
    · exact .own rfl rfl (not_inlined rfl)
    · exact .own rfl rfl (not_inlined rfl)
    · exact .own rfl rfl (not_inlined rfl)
    · exact .own rfl rfl (not_inlined rfl)
    · exact .inner rfl stamp_inlines (.own rfl rfl (not_inlined rfl))
  · intro r hr r' hr' h
    simp only [itemRows, List.mem_cons, List.not_mem_nil, or_false] at hr hr'
    rcases hr with rfl | rfl | rfl | rfl | rfl <;> rcases hr' with rfl | rfl | rfl | rfl | rfl <;> first | rfl | exact absurd h (by decide)

theorem stamp_finite : EmbedsFinitely itemEnv stampFields := by
  refine .mk (fun e he gs h => absurd h (not_inlined ?_ _))
  simp only [stampFields, List.mem_singleton] at he
  subst he
  rfl

theorem item_embeds : Embeds itemEnv itemMarshal itemFields := by
  refine ⟨.mk ?_, ?_, rows_embeds item_rows⟩
  · intro e he gs h
    simp only [itemFields, List.mem_cons, List.not_mem_nil, or_false] at he
    rcases he with rfl | rfl | rfl | rfl | rfl
    · exact absurd h (not_inlined rfl _)
    · exact absurd h (not_inlined rfl _)
    · exact absurd h (not_inlined rfl _)
    · exact absurd h (not_inlined rfl _)
    · obtain ⟨_, _, x, hx, hu⟩ := h
      cases hx
      have hu : GoType.struct stampFields = .struct gs := hu
      cases hu
      exact stamp_finite
  · intro e he hem x hx
    simp only [itemFields, List.mem_cons, List.not_mem_nil, or_false] at he
    rcases he with rfl | rfl | rfl | rfl | rfl
    · cases hem
    · cases hem
    · cases hem
    · cases hem
    · cases hx
      exact ⟨rfl, stampFields, rfl⟩

theorem plain_embeds {fs : List (StructField × GoType)} {rows : List Row} (h : Rows itemEnv fs rows) (hp : ∀ e ∈ fs, e.1.embedded = false) :
    Embeds itemEnv itemMarshal fs := by
  refine ⟨.mk (fun e he gs h => absurd h (not_inlined (hp e he) _)), ?_, rows_embeds h⟩
  intro e he hem
  rw [hp e he] at hem
  cases hem

theorem item_struct : JsonStruct itemEnv itemFields ∧ (∀ y ∈ itemFields, ∀ k o, JsonMember y.1 k o → c!"string" ∉ o) ∧ ¬ NoJsonTag nameField.1 := by
  have d0 := demo_fields ([0], nameField, c!"name", []) (by simp [itemRows])
  have d1 := demo_fields ([1], tagsField, c!"tags", [c!"omitempty"]) (by simp [itemRows])
  have d2 := demo_fields ([2], ownerField, c!"owner", []) (by simp [itemRows])
  have d3 := demo_fields ([3], priceField, c!"price", [c!"omitempty"]) (by simp [itemRows])
  have d4 : JsonTag stampField.1 := ⟨[], .done (by simp [stampField]), by simp [tagValue], by intro v hv; cases hv⟩
  refine ⟨⟨by decide, by decide, ?_, ?_, ?_, ?_⟩, ?_, d0.2.2⟩
  · intro y hy hem
    simp only [itemFields, List.mem_cons, List.not_mem_nil, or_false] at hy
    rcases hy with rfl | rfl | rfl | rfl | rfl
    · cases hem
    · cases hem
    · cases hem
    · cases hem
    · exact ⟨rfl, stamp_noTag, _, .pointer _ _ _⟩
  · intro y hy _
    simp only [itemFields, List.mem_cons, List.not_mem_nil, or_false] at hy
    rcases hy with rfl | rfl | rfl | rfl | rfl
    · exact d0.1
    · exact d1.1
    · exact d2.1
    · exact d3.1
    · exact d4
  · show List.Pairwise _ [nameField, tagsField, ownerField, priceField]
    simp only [List.pairwise_cons, List.mem_cons, List.not_mem_nil, or_false, List.Pairwise.nil, and_true]
    refine ⟨?_, ?_, ?_, by simp⟩
    · rintro y (rfl | rfl | rfl) k o o' h h'
      · have e := (d0.2.1.2 k o h).1; rw [(d1.2.1.2 k o' h').1] at e; exact absurd e (by decide)
      · have e := (d0.2.1.2 k o h).1; rw [(d2.2.1.2 k o' h').1] at e; exact absurd e (by decide)
      · have e := (d0.2.1.2 k o h).1; rw [(d3.2.1.2 k o' h').1] at e; exact absurd e (by decide)
    · rintro y (rfl | rfl) k o o' h h'
      · have e := (d1.2.1.2 k o h).1; rw [(d2.2.1.2 k o' h').1] at e; exact absurd e (by decide)
      · have e := (d1.2.1.2 k o h).1; rw [(d3.2.1.2 k o' h').1] at e; exact absurd e (by decide)
    · rintro y rfl k o o' h h'
      have e := (d2.2.1.2 k o h).1; rw [(d3.2.1.2 k o' h').1] at e; exact absurd e (by decide)
  · intro y hy _
    simp only [itemFields, List.mem_cons, List.not_mem_nil, or_false] at hy
    rcases hy with rfl | rfl | rfl | rfl | rfl
    · exact .single (.basic (by decide) (by decide))
    · exact .maps (.slice (by rintro (h | h) <;> exact absurd h (by decide)))
    · exact .single (.pointer (.named (by decide) (by decide) (by decide) (by decide) (by decide)))
    · exact .single (.basic (by decide) (by decide))
    · exact .single (.pointer (.named (by decide) (by decide) (by decide) (by decide) (by decide)))
  · intro y hy k o hm
    simp only [itemFields, List.mem_cons, List.not_mem_nil, or_false] at hy
    rcases hy with rfl | rfl | rfl | rfl | rfl
    · rw [(d0.2.1.2 k o hm).2]; decide
    · rw [(d1.2.1.2 k o hm).2]; decide
    · rw [(d2.2.1.2 k o hm).2]; decide
    · rw [(d3.2.1.2 k o hm).2]; decide
    · exact noTag_options stamp_noTag k o hm

/-- A struct with a single field. -/
theorem one_struct {r : Row} (hr : r ∈ itemRows ++ ownerRows ++ stampRows) (he : r.2.1.1.embedded = false) (hx : r.2.1.1.exported = true) (hn : r.2.1.1.name ≠ [])
    (hty : Describable itemEnv r.2.1.2) (ho : c!"string" ∉ r.2.2.2) :
    JsonStruct itemEnv [r.2.1] ∧ (∀ y ∈ [r.2.1], ∀ k o, JsonMember y.1 k o → c!"string" ∉ o) ∧ ¬ NoJsonTag r.2.1.1 := by
  have d := demo_fields r hr
  refine ⟨⟨?_, ?_, ?_, ?_, ?_, ?_⟩, ?_, d.2.2⟩
  · simp [hx]
  · intro e h _; rw [List.mem_singleton.mp h]; exact hn
  · intro e h h'; rw [List.mem_singleton.mp h, he] at h'; cases h'
  · intro e h _; rw [List.mem_singleton.mp h]; exact d.1
  · simp [hx, he]
  · intro e h _; rw [List.mem_singleton.mp h]; exact hty
  · intro y h k o hm
    rw [List.mem_singleton.mp h] at hm
    rw [(d.2.1.2 k o hm).2]
    exact ho

theorem item_documentable (m : Str) : Documentable itemEnv itemMarshal itemWorld.st.svc.maps.merged m itemTypes := by
  have hfin : finalPackage m shopPkg = c!"main" ∨ finalPackage m shopPkg = shopPkg := by
    unfold finalPackage
    split
    · exact Or.inl rfl
    · exact Or.inr rfl
  have hreg : ∀ n ∈ [c!"Item", c!"Owner", c!"Stamp", c!"Status"], registeredFormat itemWorld.st.svc.maps.merged (finalPackage m shopPkg) n = none := by
    rcases hfin with h | h <;> rw [h] <;> decide +kernel
  refine ⟨?_, ?_, ?_, ?_, ?_, ?_, ?_, ?_, ?_⟩
  · rintro x (rfl | rfl | rfl | rfl) y hu
    · have hu : Occurs (.struct itemFields) y := hu
      cases hu with
      | field hm _ ho =>
        simp only [itemFields, List.mem_cons, Prod.mk.injEq, List.not_mem_nil, or_false] at hm
        rcases hm with ⟨_, rfl⟩ | ⟨_, rfl⟩ | ⟨_, rfl⟩ | ⟨_, rfl⟩ | ⟨_, rfl⟩
        · cases ho
        · cases ho with | key ho => cases ho | value ho => cases ho with | slice ho => cases ho
        · cases ho with | pointer ho => cases ho; exact Or.inr (Or.inl rfl)
        · cases ho
        · cases ho with | pointer ho => cases ho; exact Or.inr (Or.inr (Or.inl rfl))
    · have hu : Occurs (.struct ownerFields) y := hu
      cases hu with
      | field hm _ ho =>
        simp only [ownerFields, List.mem_cons, Prod.mk.injEq, List.not_mem_nil, or_false] at hm
        rcases hm with ⟨_, rfl⟩
        cases ho
    · have hu : Occurs (.struct stampFields) y := hu
      cases hu with
      | field hm _ ho =>
        simp only [stampFields, List.mem_cons, Prod.mk.injEq, List.not_mem_nil, or_false] at hm
        rcases hm with ⟨_, rfl⟩
        cases ho
        exact Or.inr (Or.inr (Or.inr rfl))
    · have hu : Occurs (.basic .string c!"string") y := hu
      cases hu
  · rintro x (rfl | rfl | rfl | rfl) <;>
    · refine ⟨by decide, by decide, by decide, by decide, ?_⟩
      rcases hfin with h | h <;> rw [h] <;> decide
  · rintro x (rfl | rfl | rfl | rfl) <;> decide
  · rintro x (rfl | rfl | rfl | rfl) y (rfl | rfl | rfl | rfl) _ h <;> first | rfl | exact absurd h (by decide)
  · rintro x (rfl | rfl | rfl | rfl) h <;> exact absurd h (by decide)
  · rintro x (rfl | rfl | rfl | rfl) <;> trivial
  · have h1 := one_struct (r := ([0], idField, c!"id", [])) (by simp [ownerRows]) rfl rfl (by decide) (.single (.basic (by decide) (by decide))) (by simp)
    have h2 := one_struct (r := ([0], stateField, c!"state", [])) (by simp [stampRows]) rfl rfl (by decide)
      (.single (.named (by decide) (by decide) (by decide) (by decide) (by decide))) (by simp)
    rintro x (rfl | rfl | rfl | rfl)
    · exact .tagged rfl (hreg _ (by simp)) rfl item_struct.1 item_embeds (fun y hy _ => item_struct.2.1 y hy)
        ⟨nameField, List.mem_cons_self, rfl, item_struct.2.2⟩
    · exact .tagged rfl (hreg _ (by simp)) (fs := ownerFields) rfl h1.1 (plain_embeds owner_rows (by decide)) (fun y hy _ => h1.2.1 y hy)
        ⟨_, List.mem_cons_self, rfl, h1.2.2⟩
    · exact .tagged rfl (hreg _ (by simp)) (fs := stampFields) rfl h2.1 (plain_embeds stamp_rows (by decide)) (fun y hy _ => h2.2.1 y hy)
        ⟨_, List.mem_cons_self, rfl, h2.2.2⟩
    · refine .declared rfl (hreg _ (by simp)) (k := .string) (n := c!"string") (type := c!"string") (format := []) rfl (by decide) ?_ ?_
      · intro d hd s hs
        simp only [itemEnv, List.flatten_cons, List.flatten_nil, List.append_nil, List.mem_cons, List.not_mem_nil, or_false] at hd
        rcases hd with rfl | rfl | rfl
        · simp only [constSpecs, List.mem_singleton] at hs
          subst hs
          exact Or.inl ⟨rfl, [(c!"\"open\"", .str c!"open"), (c!"\"done\"", .str c!"done")], rfl, rfl, by simp [PlainLiteral, KindHas]⟩
        · cases hs
        · cases hs
      · have hd : declaredConstants (itemEnv.files shopPkg) c!"Status" = [.str c!"open", .str c!"done"] := by decide
        rintro v (rfl | rfl)
        · exact ⟨Or.inr (Or.inl ⟨rfl, _, rfl⟩), .str c!"open", by rw [hd]; simp, rfl⟩
        · exact ⟨Or.inr (Or.inl ⟨rfl, _, rfl⟩), .str c!"done", by rw [hd]; simp, rfl⟩
  · decide +kernel
  · intro pkgs h g
    refine ⟨0, fun p hp q hq _ _ hne => absurd ?_ hne⟩
    obtain ⟨x, hx, rfl⟩ := h p hp
    obtain ⟨y, hy, rfl⟩ := h q hq
    rcases hx with rfl | rfl | rfl | rfl <;> rcases hy with rfl | rfl | rfl | rfl <;> rfl

theorem item_handler_is : HandlerIs itemRoutes c!"example.com/shop.Post" c!"shop.go" 10 0 c!"Post" 0 true :=
  ⟨⟨c!"example.com/shop", ⟨c!"shop", c!"Post", Or.inr ⟨c!"example.com", rfl⟩, by decide, by decide, rfl, by decide, by decide, Or.inl rfl⟩, by decide +kernel⟩,
    by decide +kernel⟩

theorem item_context : ContextParam itemProg 0 0 c!"c" := (context_parameter_found itemProg 0 0 c!"c" (by decide)).1 rfl

theorem item_view : ∃ comment id es, HandlerView itemRoutes c!"example.com/shop.Post" c!"shop.go" 10 comment id es := by
  have hn0 : ¬ PassesContext (itemProg.view 0 0) c!"c" := by
    rintro ⟨a, ha, hi⟩
    simp only [itemProg, if_true, List.mem_singleton] at ha
    subst ha; cases hi
  have hn1 : ¬ PassesContext (itemProg.view 0 1) c!"c" := by
    rintro ⟨a, ha, hi⟩
    simp only [itemProg, if_true, if_neg (show ¬ (1 : Nat) = 0 by decide), List.mem_cons, List.not_mem_nil, or_false] at ha
    rcases ha with rfl | rfl <;> cases hi
  have hl : ∀ call, AllLeave itemProg c!"c" call := by intro call f hf; cases hf
  have t0 : ∃ f, IsField itemEnv shopPkg (itemProg.view 0 0).args 0 f := by
    have h : ((typeResult itemEnv true 3 [] (some shopPkg) [] (.pointer (.named (some shopPkg) c!"Item" []))).map (fun x => x.2.isOk)) = some true := by
      decide +kernel
    cases hr : typeResult itemEnv true 3 [] (some shopPkg) [] (.pointer (.named (some shopPkg) c!"Item" [])) with
    | none => rw [hr] at h; cases h
    | some x =>
      obtain ⟨c', r⟩ := x
      cases r with
      | ok r => exact ⟨_, _, _, _, _, r, rfl, rfl, ⟨3, hr⟩, rfl⟩
      | err _ => rw [hr] at h; cases h
      | panic _ => rw [hr] at h; cases h
  have t1 : ∃ f, IsField itemEnv shopPkg (itemProg.view 0 1).args 1 f := by
    have h : ((typeResult itemEnv true 3 [] (some shopPkg) [] (.slice (.named (some shopPkg) c!"Item" []))).map (fun x => x.2.isOk)) = some true := by
      decide +kernel
    cases hr : typeResult itemEnv true 3 [] (some shopPkg) [] (.slice (.named (some shopPkg) c!"Item" [])) with
    | none => rw [hr] at h; cases h
    | some x =>
      obtain ⟨c', r⟩ := x
      cases r with
      | ok r => exact ⟨_, _, _, _, _, r, rfl, rfl, ⟨3, hr⟩, rfl⟩
      | err _ => rw [hr] at h; cases h
      | panic _ => rw [hr] at h; cases h
  obtain ⟨f0, t0⟩ := t0
  obtain ⟨f1, t1⟩ := t1
  exact ⟨_, _, _, 0, c!"Post", 0, true, c!"c", item_handler_is, item_context,
    ⟨true, .context (hl _) hn0 rfl (.bindJSON (by simp) t0) .nil
    (.other (.context (hl _) hn1 rfl (.json (code := 200) (by simp) ⟨_, c!"200", rfl, rfl, by decide⟩ t1) .nil .nil) .nil)⟩, rfl, rfl⟩

/-! ### The run -/

theorem item_names : ProperNames itemWorld.fs := by
  intro q hq x hx
  by_cases h0 : q = []
  · subst h0; cases hx
  · rw [FS.look, if_neg h0] at hq
    by_cases h1 : q = [c!"w"]
    · subst h1; revert x; decide
    · by_cases h2 : q = [c!"w", c!"main.go"]
      · subst h2; revert x; decide
      · by_cases h3 : q = [c!"w", c!"go.mod"]
        · subst h3; revert x; decide
        · exact absurd (by simp [FS.get, itemWorld, Ne.symm h1, Ne.symm h2, Ne.symm h3]) hq

theorem item_allowed : allowed itemWorld.st.svc.denyList [[itemInfo]].flatten = [itemInfo] := by
  show [[itemInfo]].flatten.filter _ = _
  rfl

/-- The calls of the handler. -/
theorem item_calls {pkg m : Str} {args : List ArgView} (h : Calls itemProg 0 c!"c" (itemProg.funcs 0).body pkg m args) :
    (m = c!"BindJSON" ∧ args = (itemProg.view 0 0).args) ∨ (m = c!"JSON" ∧ args = (itemProg.view 0 1).args) := by
  have h : Calls itemProg 0 c!"c" [.call 0 [], .other [.call 1 []]] pkg m args := h
  cases h with
  | here _ hf =>
    have h : (Res.ok (true, c!"BindJSON") : Res (Bool × Str)) = .ok (true, m) := hf
    injection hf with hf
    exact Or.inl ⟨(Prod.mk.inj hf).2.symm, rfl⟩
  | helper h => exact absurd h (by
      rintro ⟨a, ha, hi⟩
      simp only [itemProg, if_true, List.mem_singleton] at ha
      subst ha; cases hi)
  | inside _ h => cases h
  | later h =>
    cases h with
    | under h =>
      cases h with
      | here _ hf =>
        have h : (Res.ok (true, c!"JSON") : Res (Bool × Str)) = .ok (true, m) := hf
        injection hf with hf
        exact Or.inr ⟨(Prod.mk.inj hf).2.symm, rfl⟩
      | helper h => exact absurd h (by
          rintro ⟨a, ha, hi⟩
          simp only [itemProg, if_true, if_neg (show ¬ (1 : Nat) = 0 by decide), List.mem_cons, List.not_mem_nil, or_false] at ha
          rcases ha with rfl | rfl <;> cases hi)
      | inside _ h => cases h
      | later h => cases h
    | later h => cases h

theorem item_sends : HandlerSends itemRoutes c!"example.com/shop.Post" c!"shop.go" 10 200 (.slice (.named (some shopPkg) c!"Item" [])) := by
  refine ⟨0, c!"Post", 0, true, c!"c", item_handler_is, item_context, shopPkg, c!"JSON", _, _, .later (.under (.here ?_ rfl)), by simp,
    ⟨_, c!"200", rfl, rfl, by decide⟩, rfl, rfl⟩
  rintro ⟨a, ha, hi⟩
  simp only [itemRoutes, itemProg, if_true, if_neg (show ¬ (1 : Nat) = 0 by decide), List.mem_cons, List.not_mem_nil, or_false] at ha
  rcases ha with rfl | rfl <;> cases hi

theorem item_sends_only {code : Int} {t : GoType} (h : HandlerSends itemRoutes c!"example.com/shop.Post" c!"shop.go" 10 code t) :
    t = .slice (.named (some shopPkg) c!"Item" []) := by
  obtain ⟨_, _, _, _, _, hh, hctx, pkg, m, args, a, hC, hm, _, ha, hat⟩ := h
  obtain ⟨rfl, rfl, rfl⟩ := handler_unique item_handler_is hh
  have := contextParam_unique item_context hctx
  subst this
  rcases item_calls hC with ⟨rfl, rfl⟩ | ⟨rfl, rfl⟩
  · exact absurd hm (by decide)
  · cases ha; cases hat; rfl

theorem item_binds : HandlerBinds itemRoutes c!"example.com/shop.Post" c!"shop.go" 10 (.pointer (.named (some shopPkg) c!"Item" [])) := by
  refine ⟨0, c!"Post", 0, true, c!"c", item_handler_is, item_context, shopPkg, c!"BindJSON", _, _, .here ?_ rfl, by simp, rfl, rfl⟩
  rintro ⟨a, ha, hi⟩
  simp only [itemRoutes, itemProg, if_true, List.mem_singleton] at ha
  subst ha; cases hi

theorem item_binds_only {t : GoType} (h : HandlerBinds itemRoutes c!"example.com/shop.Post" c!"shop.go" 10 t) :
    t = .pointer (.named (some shopPkg) c!"Item" []) := by
  obtain ⟨_, _, _, _, _, hh, hctx, pkg, m, args, a, hC, hm, ha, hat⟩ := h
  obtain ⟨rfl, rfl, rfl⟩ := handler_unique item_handler_is hh
  have := contextParam_unique item_context hctx
  subst this
  rcases item_calls hC with ⟨rfl, rfl⟩ | ⟨rfl, rfl⟩
  · cases ha; cases hat; rfl
  · exact absurd hm (by decide)

/-- `{"name": "pen", "owner": {"id": 7}, "state": "open"}` is the encoding of an `Item`. -/
def somePen : Json := .obj [(c!"name", .str c!"pen"), (c!"owner", .obj [(c!"id", .num (itoa 7))]), (c!"state", .str c!"open")]

theorem somePen_encodes : Encodes itemEnv itemMarshal false (.named (some shopPkg) c!"Item" []) somePen := by
  refine .named rfl (rows_encodes item_rows _ (fun k => if k = c!"name" then ([0], nameField, c!"name", []) else
    if k = c!"owner" then ([2], ownerField, c!"owner", []) else ([4, 0], stateField, c!"state", [])) (by decide) ?_ ?_ ?_)
  · intro m hm
    simp only [List.mem_cons, List.not_mem_nil, or_false] at hm
    rcases hm with rfl | rfl | rfl <;> exact ⟨by simp [itemRows], rfl, by simp⟩
  · intro r hr
    simp only [itemRows, List.mem_cons, List.not_mem_nil, or_false] at hr
    rcases hr with rfl | rfl | rfl | rfl | rfl <;> simp
  · intro m hm
    simp only [List.mem_cons, List.not_mem_nil, or_false] at hm
    rcases hm with rfl | rfl | rfl
    · exact .string c!"pen"
    · refine .pointer (.named rfl (rows_encodes owner_rows _ (fun _ => ([0], idField, c!"id", [])) (by decide) ?_ ?_ ?_))
      · intro m hm
        rw [List.mem_singleton.mp hm]
        exact ⟨by simp [ownerRows], rfl, by simp⟩
      · intro r hr
        rw [show r = _ from List.mem_singleton.mp hr]
        simp
      · intro m hm
        rw [List.mem_singleton.mp hm]
        exact .integer 7 (by decide)
    · exact .custom (M := fun v => v = .str c!"open" ∨ v = .str c!"done") rfl (Or.inl rfl)

/-- The rest of the hypotheses: the run succeeds, and the output has a place of its own. -/
theorem item_ok : Astra.parseAll itemLib c!"/w" noFaults itemWorld = ((Astra.parseAll itemLib c!"/w" noFaults itemWorld).1, .ok ()) := by
  have hok : (Astra.parseAll itemLib c!"/w" noFaults itemWorld).2 = .ok () := by decide +kernel
  rw [← hok]

theorem item_place : OwnPlace itemWorld.cwd [c!"w"] itemWorld.st.svc [] [c!"w", c!"api.yaml"] := by
  refine ⟨by decide, ?_, by simp⟩
  rintro ⟨h, _⟩
  cases h

/-- The run succeeds and meets all hypotheses; so the file has a document that admits the value as element of the response. -/
theorem item_run : ∃ doc text, (Astra.parseAll itemLib c!"/w" noFaults itemWorld).1.fs.look [c!"w", c!"api.yaml"] = some (.file text) ∧
    itemLib.render true doc = .ok text ∧
    ∃ op resp s, Document.operation doc c!"/items" c!"POST" = some op ∧ mget op.responses c!"200" = some resp ∧
      mget resp.content c!"application/json" = some s ∧ Admits doc.schemas s (.arr [somePen, somePen]) := by
  obtain ⟨m, _, _, doc, text, _, h1, h2, h3⟩ := run_admits_sent_json_partial itemLib (fun _ => itemRoutes) itemLib_byModel (fun _ => False)
    (fun _ _ _ => ⟨fun _ _ => rfl, id, rfl, rfl, rfl, rfl, rfl, rfl, rfl, rfl⟩) c!"/w" noFaults itemWorld _ [c!"w"]
    (Or.inr (by decide)) (by decide) item_names (by decide) [[itemInfo]] (ginInput_one rfl) rfl (by rw [item_allowed]; unfold DistinctRoutes; decide)
    [] [] _ rfl (options_shape _).2 (by simp) 0 rfl [c!"w", c!"api.yaml"] (show [c!"w", c!"api.yaml"] = _ by decide) item_place id
    rfl rfl (fun _ => List.Perm.refl _) itemEnv itemMarshal itemTypes item_typed item_ok
  obtain ⟨relative, mains, hrel, hlen, h4⟩ := h3 (item_documentable m) itemInfo (by rw [item_allowed]; simp) (by decide) (by
    rw [item_allowed]; intro j hj; simp at hj; intros; exact hj)
  have hrel' : relative = c!"shop.go" := by cases hrel; rfl
  subst hrel'
  obtain ⟨comment, id, es, hv⟩ := item_view
  obtain ⟨main, hmain⟩ := List.exists_mem_of_length_pos (show 0 < mains.length by rw [hlen]; decide)
  obtain ⟨op, resp, e1, e2, e3⟩ := h4 comment id es (fun _ _ => hv) 200 _ (.arr [somePen, somePen]) ⟨main, hmain, item_sends⟩ (fun _ _ _ => item_sends_only)
    (.slice (.named (by decide) (by decide) (by decide) (by decide) (by decide)) (by rintro ⟨k, h | h⟩ <;> cases h)) (by simp [IsArray])
    (.slice (by rintro ⟨k, h | h⟩ <;> cases h) (by intro x hx; simp at hx; subst hx; exact somePen_encodes))
  rcases e3 with ⟨s, e3, e4⟩ | e3
  · exact ⟨doc, text, h1, h2, op, resp, s, e1, by rw [show c!"200" = itoa 200 by decide]; exact e2, e3, e4⟩
  · exact absurd e3 (by simp [IsInterface])

/-- And it admits the value as request body. -/
theorem item_run_bound : ∃ doc text, (Astra.parseAll itemLib c!"/w" noFaults itemWorld).1.fs.look [c!"w", c!"api.yaml"] = some (.file text) ∧
    itemLib.render true doc = .ok text ∧
    ∃ op content s, Document.operation doc c!"/items" c!"POST" = some op ∧ op.requestBody = some content ∧
      mget content c!"application/json" = some s ∧ Admits doc.schemas s somePen := by
  obtain ⟨m, _, _, doc, text, _, h1, h2, h3⟩ := run_admits_bound_json_partial itemLib (fun _ => itemRoutes) itemLib_byModel (fun _ => False)
    (fun _ _ _ => ⟨fun _ _ => rfl, id, rfl, rfl, rfl, rfl, rfl, rfl, rfl, rfl⟩) c!"/w" noFaults itemWorld _ [c!"w"]
    (Or.inr (by decide)) (by decide) item_names (by decide) [[itemInfo]] (ginInput_one rfl) rfl (by rw [item_allowed]; unfold DistinctRoutes; decide)
    [] [] _ rfl (options_shape _).2 (by simp) 0 rfl [c!"w", c!"api.yaml"] (show [c!"w", c!"api.yaml"] = _ by decide) item_place id
    rfl rfl (fun _ => List.Perm.refl _) itemEnv itemMarshal itemTypes item_typed item_ok
  obtain ⟨relative, mains, hrel, hlen, h4⟩ := h3 (item_documentable m) itemInfo (by rw [item_allowed]; simp) (by decide) (by
    rw [item_allowed]; intro j hj; simp at hj; intros; exact hj)
  have hrel' : relative = c!"shop.go" := by cases hrel; rfl
  subst hrel'
  obtain ⟨comment, id, es, hv⟩ := item_view
  obtain ⟨main, hmain⟩ := List.exists_mem_of_length_pos (show 0 < mains.length by rw [hlen]; decide)
  obtain ⟨op, content, s, e1, e2, e3, e4⟩ := h4 comment id es (fun _ _ => hv) _ somePen ⟨main, hmain, item_binds⟩ (fun _ _ _ => item_binds_only)
    (.single (.pointer (.named (by decide) (by decide) (by decide) (by decide) (by decide)))) (by simp [IsArray]) (.pointer somePen_encodes)
  exact ⟨doc, text, h1, h2, op, content, s, e1, e2, e3, e4⟩

/-- And it has a schema for each of the two types, of its own fields. -/
theorem item_run_types : ∃ doc text, (Astra.parseAll itemLib c!"/w" noFaults itemWorld).1.fs.look [c!"w", c!"api.yaml"] = some (.file text) ∧
    itemLib.render true doc = .ok text ∧
    ∃ (target : Str → Str → Option Str) (n n' : Str) (s s' : Schema), n ≠ n' ∧ (n, s) ∈ doc.schemas ∧ (n', s') ∈ doc.schemas ∧ StructSchema target itemFields s ∧
      StructSchema target ownerFields s' ∧ target shopPkg c!"Owner" = some n' := by
  obtain ⟨m, _, _, doc, text, _, h1, h2, h3⟩ := run_describes_types_partial itemLib (fun _ => itemRoutes) itemLib_byModel (fun _ => False)
    (fun _ _ _ => ⟨fun _ _ => rfl, id, rfl, rfl, rfl, rfl, rfl, rfl, rfl, rfl⟩) c!"/w" noFaults itemWorld _ [c!"w"]
    (Or.inr (by decide)) (by decide) item_names (by decide) [[itemInfo]] (ginInput_one rfl) rfl (by rw [item_allowed]; unfold DistinctRoutes; decide)
    [] [] _ rfl (options_shape _).2 (by simp) 0 rfl [c!"w", c!"api.yaml"] (show [c!"w", c!"api.yaml"] = _ by decide) item_place id
    rfl rfl (fun _ => List.Perm.refl _) itemEnv itemMarshal itemTypes item_typed item_ok
  obtain ⟨R, target, hR, r2, r3, r4, r5⟩ := h3 (item_documentable m)
  obtain ⟨relative, mains, hrel, hlen, h4⟩ := r5 itemInfo (by rw [item_allowed]; simp) (by decide) (by
    rw [item_allowed]; intro j hj; simp at hj; intros; exact hj)
  have hrel' : relative = c!"shop.go" := by cases hrel; rfl
  subst hrel'
  obtain ⟨comment, id, es, hv⟩ := item_view
  obtain ⟨main, hmain⟩ := List.exists_mem_of_length_pos (show 0 < mains.length by rw [hlen]; decide)
  have k1 : R (shopPkg, c!"Item", []) := h4 comment id es (fun _ _ => hv) main hmain _ (Or.inr item_binds) _ (.pointer (.named _ _ _))
  have hno : ∀ {x : TName} {fs : List (StructField × GoType)} {M : Json → Prop}, itemEnv.underlying x.1 x.2.1 x.2.2 = .struct fs →
      itemMarshal x.1 x.2.1 ≠ some M := by
    intro x fs M hu
    unfold itemMarshal
    split
    · rename_i hn
      rw [hn] at hu
      cases hu
    · simp
  have hdef : ∀ {x : TName} {e : Schema} {fs : List (StructField × GoType)}, itemEnv.underlying x.1 x.2.1 x.2.2 = .struct fs →
      Describes itemEnv itemMarshal target R x e →
      StructSchema target fs e ∧ ∀ y ∈ fs, y.1.exported = true → y.1.embedded = false → ∀ z, Occurs y.2 z → R z := by
    intro x e fs hu hd
    cases hd with
    | custom h _ => exact absurd h (hno hu)
    | declared h _ => exact absurd h (hno hu)
    | struct _ h2 h3 _ _ h5 =>
      rw [hu] at h2
      cases h2
      refine ⟨h3, fun y hy he hne => ?_⟩
      obtain ⟨i, hi⟩ := List.mem_iff_getElem?.mp hy
      exact (h5 [i] y (.own hi he (not_inlined hne))).2.1
    | other _ h2 =>
      rw [hu] at h2
      cases h2 with
      | single h => cases h
  obtain ⟨n, s, t1, t2, t3⟩ := r2 _ k1
  obtain ⟨u1, u2⟩ := hdef (fs := itemFields) rfl t3
  have k2 : R (shopPkg, c!"Owner", []) := u2 _ (List.mem_cons_of_mem _ (List.mem_cons_of_mem _ List.mem_cons_self)) rfl rfl _ (.pointer (.named _ _ _))
  obtain ⟨n', s', v1, v2, v3⟩ := r2 _ k2
  obtain ⟨w1, _⟩ := hdef (fs := ownerFields) rfl v3
  refine ⟨doc, text, h1, h2, target, n, n', s, s', ?_, t2, v2, u1, w1, v1⟩
  rintro rfl
  exact absurd (r4 _ _ k1 k2 (t1.trans v1.symm)) (by decide)

end Astra.Props
