/-
C89, C90, C91, where they fail: types whose JSON the document does not admit.
-/
import Verif.Props.SentDemo

namespace Astra.Props
open Astra.Spec

/-! ### Refuting that a schema admits a value -/

/-- The value does not have the type. -/
def wrongType (type : Str) (v : Json) : Bool :=
  match v with
  | .str _ => type ∈ [c!"boolean", c!"integer", c!"number", c!"array", c!"object"]
  | .bool _ => type ∈ [c!"string", c!"integer", c!"number", c!"array", c!"object"]
  | .num _ => type ∈ [c!"string", c!"boolean", c!"array", c!"object"]
  | .arr _ => type ∈ [c!"string", c!"boolean", c!"integer", c!"number", c!"object"]
  | .obj _ => type ∈ [c!"string", c!"boolean", c!"integer", c!"number", c!"array"]
  | .null => type ∈ [c!"string", c!"boolean", c!"integer", c!"number", c!"array", c!"object"]

theorem wrongType_sound {type : Str} {v : Json} (h : wrongType type v = true) : ¬ HasJsonType type v := by
  rintro (rfl | ⟨rfl, _, rfl⟩ | ⟨rfl, _, rfl⟩ | ⟨rfl, _, rfl⟩ | ⟨rfl, _, rfl⟩ | ⟨rfl, _, rfl⟩ | ⟨rfl, _, rfl⟩)
  · cases v <;> simp [wrongType] at h
  all_goals simp [wrongType] at h

/-- The value is a string that is not among the values. -/
def notListed (enum : List EnumVal) (v : Json) : Bool :=
  match v with
  | .str s => enum ≠ [] && enum.all (fun e => match e with | .str t => t ≠ s | _ => true)
  | _ => false

theorem notListed_sound {enum : List EnumVal} {v : Json} (h : notListed enum v = true) : ¬ (enum = [] ∨ ∃ e ∈ enum, v = enumJson e) := by
  cases v with
  | str s =>
    simp only [notListed, Bool.and_eq_true, decide_eq_true_eq, List.all_eq_true] at h
    rintro (he | ⟨e, he, hv⟩)
    · exact h.1 he
    · have := h.2 e he
      cases e <;> simp [enumJson] at hv this
      exact this hv.symm
  | _ => simp [notListed] at h

/-- Refutes that a schema admits a value, following references and properties up to a depth. -/
def refutes (schemas : List (Str × Schema)) : Nat → Schema → Json → Bool
  | 0, _, _ => false
  | k + 1, s, v =>
    if s.ref ≠ [] then schemas.all (fun e => decide (c!"#/components/schemas/" ++ e.1 ≠ s.ref) || refutes schemas k e.2 v)
    else wrongType s.type v || notListed s.enum v || s.allOf.any (fun t => refutes schemas k t v) ||
      match v with
      | .obj ms => ms.any (fun x => s.properties.any (fun p => decide (p.1 = x.1) && refutes schemas k p.2 x.2))
      | .arr xs => match s.items with
        | some i => xs.any (fun x => refutes schemas k i x)
        | none => false
      | _ => false

theorem refutes_sound {schemas : List (Str × Schema)} : ∀ (k : Nat) {s : Schema} {v : Json}, refutes schemas k s v = true → ¬ Admits schemas s v
  | 0, _, _, h, _ => by cases h
  | k + 1, s, v, h, ha => by
    unfold refutes at h
    cases ha with
    | @ref _ t n _ h1 h2 h3 =>
      rw [if_pos (by rw [h1]; simp)] at h
      have := List.all_eq_true.mp h (n, t) h2
      rw [h1] at this
      simp only [ne_eq, not_true, decide_false, Bool.false_or] at this
      exact refutes_sound k this h3
    | here h1 h2 h3 h4 h5 _ h7 =>
      rw [if_neg (by simp [h1])] at h
      simp only [Bool.or_eq_true] at h
      rcases h with ((h | h) | h) | h
      · exact wrongType_sound h h2
      · exact notListed_sound h h3
      · obtain ⟨t, ht, hr⟩ := List.any_eq_true.mp h
        exact refutes_sound k hr (h7 t ht)
      · cases v with
        | obj ms =>
          simp only [List.any_eq_true, Bool.and_eq_true, decide_eq_true_eq] at h
          obtain ⟨x, hx, p, hp, he, hr⟩ := h
          exact refutes_sound k hr (h5 ms x.1 x.2 p.2 rfl hx (by rw [← he]; exact hp))
        | arr xs =>
          cases hi : s.items with
          | none => rw [hi] at h; cases h
          | some i =>
            rw [hi] at h
            simp only [List.any_eq_true] at h
            obtain ⟨x, hx, hr⟩ := h
            exact refutes_sound k hr (h4 i xs hi rfl x hx)
        | _ => cases h

/-! ### The document of a handler that sends a value of a type -/

/-- What the analysis records for `c.JSON(200, v)` with `v` of type `t`, and the document made of it. -/
def respond (Γ : TypeEnv) (t : GoType) : Option Document :=
  match typeResult Γ true 4 [] (some shopPkg) [] t with
  | some (cs, .ok r) =>
    match generateDoc someChoices [] { config := some { title := c!"t", host := c!"localhost", port := 8000, basePath := c!"/" }
                                       routes := [{ method := c!"GET", path := c!"/a", returnTypes := [{ statusCode := 200, contentType := c!"application/json", field := parseResultToField r }] }]
                                       components := cs } with
    | .ok d => some d
    | _ => none
  | _ => none

def responseSchema (d : Document) : Option Schema :=
  ((Document.operation d c!"/a" c!"GET").bind (fun op => mget op.responses c!"200")).bind (fun r => mget r.content c!"application/json")

/-- The document for the type refutes the value. -/
def Rejects (Γ : TypeEnv) (t : GoType) (v : Json) : Prop :=
  ∃ d s, respond Γ t = some d ∧ responseSchema d = some s ∧ ¬ Admits d.schemas s v

theorem rejects_of_check {Γ : TypeEnv} {t : GoType} {v : Json}
    (h : (match respond Γ t with
      | some d => (match responseSchema d with | some s => refutes d.schemas 5 s v | none => false)
      | none => false) = true) : Rejects Γ t v := by
  cases hr : respond Γ t with
  | none => rw [hr] at h; cases h
  | some d =>
    rw [hr] at h
    cases hs : responseSchema d with
    | none => simp only [hs] at h; cases h
    | some s =>
      simp only [hs] at h
      exact ⟨d, s, hr, hs, refutes_sound 5 h⟩

/-- `struct { N int }` with a tag. -/
def countFields (tag : Str) : List (StructField × GoType) := [({ name := c!"N", tag := tag }, .basic .int c!"int")]

def oneType (t : GoType) (files : List (List Decl)) : TypeEnv where
  loadable := fun _ => true
  underlying := fun _ _ _ => t
  files := fun _ => files
  nodeAt := fun _ _ => .other
  parseFloat := fun _ => none

def theType : GoType := .named (some shopPkg) c!"T" []

/-- C90, violated: a byte is encoded as a number and documented as a string. -/
theorem byte_rejected : Encodes itemEnv (fun _ _ => none) false (.basic .uint c!"byte") (.num (itoa 65)) ∧
    Rejects itemEnv (.basic .uint c!"byte") (.num (itoa 65)) :=
  ⟨.integer 65 (by decide), rejects_of_check (by decide +kernel)⟩

/-- C90, violated: bytes are encoded as text and documented as an array. -/
theorem bytes_rejected : Encodes itemEnv (fun _ _ => none) false (.slice (.basic .uint c!"byte")) (.str c!"QQ==") ∧
    Rejects itemEnv (.slice (.basic .uint c!"byte")) (.str c!"QQ==") :=
  ⟨.bytes _ (Or.inl rfl), rejects_of_check (by decide +kernel)⟩

/-- C90, violated: a nil slice is encoded as null, which no schema of a slice admits. -/
theorem nil_rejected : Encodes itemEnv (fun _ _ => none) true (.slice (.basic .string c!"string")) .null ∧
    Rejects itemEnv (.slice (.basic .string c!"string")) .null :=
  ⟨.nilSlice rfl, rejects_of_check (by decide +kernel)⟩

/-- C90, violated: a type with constants has values that are not among them. -/
theorem undeclared_value_rejected :
    let Γ := oneType (.basic .string c!"string") [[.const [{ typeIdent := some c!"T", values := [.lit c!"\"red\""] }]]]
    Encodes Γ (fun _ _ => none) false theType (.str c!"blue") ∧ Rejects Γ theType (.str c!"blue") :=
  ⟨.named rfl (.string _), rejects_of_check (by decide +kernel)⟩

/-- C90, violated: a field with the option string is encoded as text and documented as an integer. -/
theorem quoted_field_rejected :
    let Γ := oneType (.struct (countFields (jsonOnly c!"n,string"))) []
    Encodes Γ (fun _ _ => none) false theType (.obj [(c!"n", .str c!"5")]) ∧ Rejects Γ theType (.obj [(c!"n", .str c!"5")]) := by
  refine ⟨.named rfl ?_, rejects_of_check (by decide +kernel)⟩
  have hm : JsonMember { name := c!"N", tag := jsonOnly c!"n,string" } c!"n" [c!"string"] :=
    jsonOnly_member c!"n,string" _ _ rfl (by decide) (by decide) (by decide) (by decide) (by unfold TagChar; decide)
  have ho : ∀ path e, Offers (oneType (.struct (countFields (jsonOnly c!"n,string"))) []) (countFields (jsonOnly c!"n,string")) path e →
      path = [0] ∧ e = ({ name := c!"N", tag := jsonOnly c!"n,string" }, .basic .int c!"int") := by
    intro path e h
    obtain ⟨i, rfl, hi⟩ := offers_plain (by decide) h
    match i, hi with
    | 0, hi => cases hi; exact ⟨rfl, rfl⟩
  have hu : ∀ {k o}, JsonMember { name := c!"N", tag := jsonOnly c!"n,string" } k o → k = c!"n" ∧ o = [c!"string"] :=
    fun h => member_of_value (jsonOnly_text c!"n,string" (by decide)) rfl (by decide) (by decide) h
  refine .struct (fun _ => [0]) (fun _ => [c!"string"]) (fun _ => ({ name := c!"N", tag := jsonOnly c!"n,string" }, .basic .int c!"int"))
    (by decide) ?_ ?_ ?_ ?_
  · intro m hm'
    rw [List.mem_singleton.mp hm']
    refine ⟨.own rfl rfl (fun gs h => by cases h.1), hm, ?_⟩
    intro path' e' o' hne h _
    exact absurd (ho _ _ h).1 hne
  · intro path k o e hw
    obtain ⟨_, rfl⟩ := ho _ _ hw.offered
    obtain ⟨rfl, _⟩ := hu hw.member
    simp
  · intro m hm' _
    rw [List.mem_singleton.mp hm']
    exact ⟨c!"5", rfl⟩
  · intro m _ h
    exact absurd (by simp) h

/-- `type T struct { *Base; N string }` and `type Base struct { N int }`, with tags. -/
def baseEnv (top : StructField) (own : List (StructField × GoType)) (base : Str) : TypeEnv where
  loadable := fun _ => true
  underlying := fun _ n _ => if n = c!"T" then .struct ((top, .pointer (.named (some shopPkg) base [])) :: own) else .struct (countFields (jsonOnly c!"n"))
  files := fun _ => []
  nodeAt := fun _ _ => .other
  parseFloat := fun _ => none

def baseField : StructField := { name := c!"Base", embedded := true }

def ownText : StructField × GoType := ({ name := c!"N", tag := jsonOnly c!"n" }, .basic .string c!"string")

def innerCount : StructField × GoType := ({ name := c!"N", tag := jsonOnly c!"n" }, .basic .int c!"int")

theorem base_inlines (top : StructField) (own : List (StructField × GoType)) (base : Str) (hb : base ≠ c!"T") (h1 : top.embedded = true)
    (h2 : top.tag = []) : Inlines (baseEnv top own base) (top, .pointer (.named (some shopPkg) base [])) (countFields (jsonOnly c!"n")) := by
  refine ⟨h1, ⟨[], by rw [h2]; exact .done (by simp), fun v hv => by cases hv⟩, _, .pointer _ _ _, ?_⟩
  simp [baseEnv, hb]

/-- C90, violated: a field hides a field of an embedded struct with the same name and another type; the document asks for both types. -/
theorem hidden_field_rejected :
    let Γ := baseEnv baseField [ownText] c!"Base"
    Encodes Γ (fun _ _ => none) false theType (.obj [(c!"n", .str c!"x")]) ∧ Rejects Γ theType (.obj [(c!"n", .str c!"x")]) := by
  intro Γ
  refine ⟨.named rfl ?_, rejects_of_check (by decide +kernel)⟩
  have hu : ∀ {f : StructField}, f.tag = jsonOnly c!"n" → JsonMember f c!"n" [] ∧ ∀ {k o}, JsonMember f k o → k = c!"n" ∧ o = [] := by
    intro f hf
    have h := jsonOnly_text c!"n" (by decide)
    rw [← hf] at h
    exact ⟨jsonOnly_member c!"n" _ _ hf (by decide) (by decide) (by decide) (by decide) (by unfold TagChar; decide),
      fun hm => member_of_value h rfl (by decide) (by decide) hm⟩
  have hin := base_inlines baseField [ownText] c!"Base" (by decide) rfl rfl
  have ho : ∀ path e, Offers Γ [(baseField, .pointer (.named (some shopPkg) c!"Base" [])), ownText] path e →
      (path = [1] ∧ e = ownText) ∨ (path = [0, 0] ∧ e = innerCount) := by
    intro path e h
    cases h with
    | @own _ i _ hi _ hn =>
      match i, hi with
      | 0, hi => cases hi; exact absurd hin (hn _)
      | 1, hi => cases hi; exact Or.inl ⟨rfl, rfl⟩
    | @inner _ gs i b _ path hi hin' hof =>
      match i, hi with
      | 0, hi =>
        cases hi
        obtain ⟨_, _, x, hx, hg⟩ := hin'
        cases hx
        have hg : GoType.struct (countFields (jsonOnly c!"n")) = .struct gs := hg
        cases hg
        obtain ⟨i, rfl, hi⟩ := offers_plain (by decide) hof
        match i, hi with
        | 0, hi => cases hi; exact Or.inr ⟨rfl, rfl⟩
      | 1, hi => cases hi; exact absurd hin'.1 (by decide)
  have hw : Wins Γ [(baseField, .pointer (.named (some shopPkg) c!"Base" [])), ownText] [1] c!"n" [] ownText := by
    refine ⟨.own rfl rfl (fun gs h => absurd h.1 (by decide)), (hu rfl).1, ?_⟩
    intro path' e' o' hne h _
    rcases ho _ _ h with ⟨rfl, _⟩ | ⟨rfl, _⟩
    · exact absurd rfl hne
    · exact Or.inl (by decide)
  refine .struct (fun _ => [1]) (fun _ => []) (fun _ => ownText) (by decide) ?_ ?_ ?_ ?_
  · intro m hm'
    rw [List.mem_singleton.mp hm']
    exact hw
  · intro path k o e hw'
    have : k = c!"n" := by
      rcases ho _ _ hw'.offered with ⟨_, rfl⟩ | ⟨_, rfl⟩
      · exact ((hu rfl).2 hw'.member).1
      · exact ((hu rfl).2 hw'.member).1
    rw [this]
    simp
  · intro m _ h; cases h
  · intro m hm' _
    rw [List.mem_singleton.mp hm']
    exact .string _

/-- C89, violated: the fields of an embedded struct whose name is not exported are members, but the schema does not have them. -/
theorem unexported_base_missing :
    let top : StructField := { name := c!"base", exported := false, embedded := true }
    let Γ := baseEnv top [] c!"base"
    Offers Γ [(top, .pointer (.named (some shopPkg) c!"base" []))] [0, 0] innerCount ∧ JsonMember innerCount.1 c!"n" [] ∧
    (respond Γ theType).map (·.schemas) = some [(c!"shop.T", { type := c!"object" })] := by
  refine ⟨.inner rfl (base_inlines _ _ _ (by decide) rfl rfl) (.own rfl rfl (fun gs h => by cases h.1)), ?_, by decide +kernel⟩
  exact jsonOnly_member c!"n" _ _ rfl (by decide) (by decide) (by decide) (by decide) (by unfold TagChar; decide)

/-- C89, violated: an embedded field with a json tag is a member of the name the tag gives; the schema does not have that member, and has
those of the embedded struct instead. -/
theorem tagged_base_flattened :
    let top : StructField := { name := c!"Base", embedded := true, tag := jsonOnly c!"base" }
    let Γ := baseEnv top [] c!"Base"
    Offers Γ [(top, .pointer (.named (some shopPkg) c!"Base" []))] [0] (top, .pointer (.named (some shopPkg) c!"Base" [])) ∧
    JsonMember top c!"base" [] ∧
    (respond Γ theType).map (fun d => mget d.schemas c!"shop.T") =
      some (some { type := c!"object", allOf := [{ ref := c!"#/components/schemas/shop.Base" }] }) := by
  have hm : JsonMember { name := c!"Base", embedded := true, tag := jsonOnly c!"base" } c!"base" [] :=
    jsonOnly_member c!"base" _ _ rfl (by decide) (by decide) (by decide) (by decide) (by unfold TagChar; decide)
  refine ⟨.own rfl rfl ?_, hm, by decide +kernel⟩
  rintro gs ⟨_, ⟨pairs, h1, h2⟩, _⟩
  have e : tagValue pairs c!"json" = some c!"base" := by
    rw [← lookup_tagValue h1, lookup_tagValue (f := { name := c!"Base", embedded := true, tag := jsonOnly c!"base" }) (jsonOnly_text c!"base" (by decide))]
    rfl
  obtain ⟨opts, h⟩ := h2 _ e
  exact absurd h (by simp [split])

/-- C90, violated: what `MarshalJSON` returns is not looked at. -/
theorem marshaled_rejected :
    let Γ := oneType (.struct (countFields (jsonOnly c!"n"))) []
    Encodes Γ (fun _ _ => some (fun v => v = .str c!"five")) false theType (.str c!"five") ∧ Rejects Γ theType (.str c!"five") :=
  ⟨.custom rfl rfl, rejects_of_check (by decide +kernel)⟩

/-- C90, violated: nothing is documented for a value that is a Go array. -/
theorem array_not_documented :
    Encodes itemEnv (fun _ _ => none) false (.array 2 (.basic .int c!"int")) (.arr [.num (itoa 1), .num (itoa 2)]) ∧
    ∃ d, respond itemEnv (.array 2 (.basic .int c!"int")) = some d ∧ responseSchema d = none := by
  refine ⟨.array (by decide) ?_, ?_⟩
  · intro x hx
    simp only [List.mem_cons, List.not_mem_nil, or_false] at hx
    rcases hx with rfl | rfl
    · exact .integer 1 (by decide)
    · exact .integer 2 (by decide)
  · have h : (respond itemEnv (.array 2 (.basic .int c!"int"))).map responseSchema = some none := by decide +kernel
    cases hr : respond itemEnv (.array 2 (.basic .int c!"int")) with
    | none => rw [hr] at h; cases h
    | some d => rw [hr] at h; exact ⟨d, rfl, Option.some.inj h⟩

/-- C89, violated: the tag `-,` gives a field the name `-`, but the schema leaves the field out. -/
theorem dash_field_missing :
    let Γ := oneType (.struct (countFields (jsonOnly c!"-,"))) []
    JsonMember { name := c!"N", tag := jsonOnly c!"-," } c!"-" [[]] ∧
    (respond Γ theType).map (fun d => d.schemas.map (fun e => (e.1, e.2.properties))) = some [(c!"shop.T", [])] :=
  ⟨.tagged (jsonOnly_text c!"-," (by decide)) rfl (by decide) (by decide) (by decide) (by unfold TagChar; decide), by decide +kernel⟩

/-- `type Items []Owner`. -/
def itemsEnv : TypeEnv :=
  { itemEnv with underlying := fun p n a => if n = c!"Items" then .slice (.named (some shopPkg) c!"Owner" []) else itemEnv.underlying p n a }

/-- C89, violated: the schema of a slice of structs that are tagged for JSON does not say what its elements are. -/
theorem named_slice_loses_reference :
    (respond itemsEnv (.named (some shopPkg) c!"Items" [])).map (fun d => (mget d.schemas c!"shop.Items", (mget d.schemas c!"shop.Owner").isSome)) =
      some (some { type := c!"array", items := some {} }, true) := by decide +kernel

/-- C89, violated: of the inner slices of a slice of slices, and of a struct without a name inside of a map, the schema only says that they
are arrays and objects. -/
theorem nested_types_lost :
    (respond itemEnv (.slice (.slice (.named (some shopPkg) c!"Owner" [])))).bind responseSchema =
      some { type := c!"array", items := some { type := c!"array" } } ∧
    (respond itemEnv (.map (.basic .string c!"string") (.struct ownerFields))).bind responseSchema =
      some { type := c!"object", additionalProperties := some { type := c!"object" } } := by decide +kernel

end Astra.Props
