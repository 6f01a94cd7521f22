/-
C24: struct tags.
-/
import Verif.Lemmas.Basic
import Verif.Model.Tags
import Verif.Spec.Tags
import Verif.Props.JsonText

namespace Astra.Props
open Astra.Spec

/-! Specification: what one binding key means. -/

/-- First comma item of a tag value. -/
def tagName (value : Str) : Str := value.takeWhile (· ≠ ',')

theorem split_head (s : Str) : (split ',' s).headD [] = tagName s := by
  unfold tagName
  induction s with
  | nil => rfl
  | cons c cs ih =>
    simp only [split]
    by_cases h : c = ','
    · simp [h]
    · rw [if_neg h, List.takeWhile_cons_of_pos (by simpa using h), ← ih]
      cases hs : split ',' cs with
      | nil => exact absurd hs (split_ne_nil _ _)
      | cons x t => simp

theorem bindingTagsOf_get (field : Str) (lookup : Str → Option Str) (l : List BTag) (hn : l.Nodup) (b : BTag) (hb : b ∈ l) :
    aget (bindingTagsOf field lookup l) b = (lookup b.toStr).map (bindingTagOf field) := by
  have hmem : ∀ (l : List BTag) (b : BTag), b ∉ l → aget (bindingTagsOf field lookup l) b = none := by
    intro l
    induction l with
    | nil => intro b _; rfl
    | cons a l ih =>
      intro b hb
      simp only [List.mem_cons, not_or] at hb
      simp only [bindingTagsOf]
      split
      · exact ih b hb.2
      · simp only [aget]; rw [if_neg (fun e => hb.1 e.symm)]; exact ih b hb.2
  induction l with
  | nil => simp at hb
  | cons a l ih =>
    simp only [List.nodup_cons] at hn
    simp only [List.mem_cons] at hb
    simp only [bindingTagsOf]
    rcases hb with rfl | hb
    · cases h : lookup b.toStr with
      | none => simp only [Option.map_none]; exact hmem l b hn.1
      | some v => simp [aget]
    · have hne : a ≠ b := fun e => hn.1 (by rw [e]; exact hb)
      split
      · exact ih hn.2 hb
      · simp only [aget]; rw [if_neg hne]; exact ih hn.2 hb

theorem bindingTagsOf_nil_iff (field : Str) (lookup : Str → Option Str) (l : List BTag) :
    bindingTagsOf field lookup l = [] ↔ ∀ b ∈ l, lookup b.toStr = none := by
  induction l with
  | nil => simp [bindingTagsOf]
  | cons a l ih =>
    simp only [bindingTagsOf]
    split
    · rename_i h; rw [ih]; simp [h]
    · rename_i v h; simp [h]

/-- C24: binding of a kind present in the tag: named by the first comma item (the field name if it is empty), hidden iff
that item is "-", optional iff the second item is "omitempty". -/
theorem parseStructTag_binding (field tag value : Str) (b : BTag) (hb : b ≠ .none)
    (h : lookupTag tag b.toStr = some value) :
    ∃ t, aget (parseStructTag field tag).1 b = some t ∧
      (tagName value = [] → t.name = field ∧ t.notShown = false) ∧
      (tagName value = c!"-" → t.name = [] ∧ t.notShown = true) ∧
      (tagName value ≠ [] → tagName value ≠ c!"-" → t.name = tagName value ∧ t.notShown = false) ∧
      (t.returnOptional = true ↔ (split ',' value)[1]? = some c!"omitempty") := by
  have hmem : b ∈ bindingTags := by cases b <;> simp [bindingTags] at hb ⊢
  have hne : bindingTagsOf field (lookupTag tag) bindingTags ≠ [] := by
    intro e
    have := (bindingTagsOf_nil_iff _ _ _).mp e b hmem
    rw [h] at this; cases this
  refine ⟨bindingTagOf field value, ?_, ?_, ?_, ?_, ?_⟩
  · unfold parseStructTag
    simp only [if_neg hne]
    rw [bindingTagsOf_get _ _ _ (by decide) b hmem, h]; rfl
  · intro ht; simp only [bindingTagOf, split_head, ht, if_true]; exact ⟨trivial, trivial⟩
  · intro ht; simp only [bindingTagOf, split_head, ht]; simp
  · intro h1 h2; simp only [bindingTagOf, split_head, if_neg h1, if_pos h2]; exact ⟨trivial, trivial⟩
  · simp [bindingTagOf]

/-- C24: kinds not present in the tag get no binding, and a field without any binding key is bound under its Go name for
every kind (the `none` entry). -/
theorem parseStructTag_unbound (field tag : Str) :
    (∀ b : BTag, b ≠ .none → lookupTag tag b.toStr = none → aget (parseStructTag field tag).1 b = none) ∧
    ((∀ b : BTag, b ≠ .none → lookupTag tag b.toStr = none) ↔
      (parseStructTag field tag).1 = [(.none, { name := field, notShown := false, returnOptional := false })]) ∧
    ((∃ b : BTag, b ≠ .none ∧ lookupTag tag b.toStr ≠ none) → aget (parseStructTag field tag).1 .none = none) := by
  have hmemall : ∀ b : BTag, b ≠ .none → b ∈ bindingTags := by intro b hb; cases b <;> simp [bindingTags] at hb ⊢
  have hnotnone : BTag.none ∉ bindingTags := by decide
  have hnil : bindingTagsOf field (lookupTag tag) bindingTags = [] ↔ ∀ b : BTag, b ≠ .none → lookupTag tag b.toStr = none := by
    rw [bindingTagsOf_nil_iff]
    constructor
    · intro h b hb; exact h b (hmemall b hb)
    · intro h b hb; exact h b (by intro e; subst e; exact hnotnone hb)
  have hkeys : ∀ l : List BTag, BTag.none ∉ l → ∀ e ∈ bindingTagsOf field (lookupTag tag) l, e.1 ≠ .none := by
    intro l
    induction l with
    | nil => intro _ e he; simp [bindingTagsOf] at he
    | cons a l ih =>
      intro hl e he
      simp only [List.mem_cons, not_or] at hl
      simp only [bindingTagsOf] at he
      split at he
      · exact ih hl.2 e he
      · simp only [List.mem_cons] at he
        rcases he with rfl | he
        · exact fun e => hl.1 e.symm
        · exact ih hl.2 e he
  refine ⟨?_, ?_, ?_⟩
  · intro b hb h
    unfold parseStructTag
    by_cases he : bindingTagsOf field (lookupTag tag) bindingTags = []
    · simp only [if_pos he, aget]
      rw [if_neg (fun e => hb e.symm)]
    · simp only [if_neg he]
      rw [bindingTagsOf_get _ _ _ (by decide) b (hmemall b hb), h]; rfl
  · rw [← hnil]
    unfold parseStructTag
    constructor
    · intro h; simp only [if_pos h]
    · intro h
      by_cases he : bindingTagsOf field (lookupTag tag) bindingTags = []
      · exact he
      · simp only [if_neg he] at h
        exact absurd rfl (hkeys bindingTags hnotnone (.none, { name := field }) (by rw [h]; simp))
  · rintro ⟨b, hb, hl⟩
    unfold parseStructTag
    have he : bindingTagsOf field (lookupTag tag) bindingTags ≠ [] := fun e => hl (hnil.mp e b hb)
    simp only [if_neg he]
    rw [aget_none_iff]
    intro hk
    obtain ⟨e, he1, he2⟩ := List.mem_map.mp hk
    exact hkeys bindingTags hnotnone e he1 he2

/-- C24: a validation key is recorded iff its value is not empty, and says required iff the value contains "required". -/
theorem parseStructTag_validation (field tag : Str) (v : VTag) (hv : v ≠ .none) :
    aget (parseStructTag field tag).2 v =
      (match lookupTag tag v.toStr with
       | none => none
       | some [] => none
       | some value => some (contains value c!"required")) := by
  have go : ∀ (l : List VTag), l.Nodup →
      (v ∉ l → aget (validationTagsOf (lookupTag tag) l) v = none) ∧
      (v ∈ l → aget (validationTagsOf (lookupTag tag) l) v = (match lookupTag tag v.toStr with
       | none => none
       | some [] => none
       | some value => some (contains value c!"required"))) := by
    intro l
    induction l with
    | nil => intro _; exact ⟨fun _ => rfl, fun h => by simp at h⟩
    | cons a l ih =>
      intro hn
      simp only [List.nodup_cons] at hn
      obtain ⟨ih1, ih2⟩ := ih hn.2
      simp only [validationTagsOf]
      constructor
      · intro h
        simp only [List.mem_cons, not_or] at h
        split
        · exact ih1 h.2
        · simp only [aget]; rw [if_neg (fun e => h.1 e.symm)]; exact ih1 h.2
      · intro h
        simp only [List.mem_cons] at h
        rcases h with rfl | h
        · cases hl : lookupTag tag v.toStr with
          | none => simp [ih1 hn.1]
          | some val =>
            cases val with
            | nil => simp [ih1 hn.1]
            | cons c cs => simp [aget]
        · have hne : a ≠ v := fun e => hn.1 (by rw [e]; exact h)
          split
          · exact ih2 h
          · simp only [aget]; rw [if_neg hne]; exact ih2 h
  have hm : v ∈ validationTags := by cases v <;> simp [validationTags] at hv ⊢
  exact (go validationTags (by decide)).2 hm

/-- C24/C25: `ParseStructTag` never returns the zero binding tag for a field that has a name, so the hypothesis of
`extractBindingTags_order_independent` holds for every field the traversal produces. -/
theorem parseStructTag_no_zero (field tag : Str) (hf : field ≠ []) :
    ∀ e ∈ (parseStructTag field tag).1, e.2 ≠ {} := by
  have h1 : ∀ v, bindingTagOf field v ≠ {} := by
    intro v e
    unfold bindingTagOf at e
    have hn := congrArg BindingTag.name e
    have hs := congrArg BindingTag.notShown e
    simp only at hn hs
    by_cases ha : (split ',' v).headD [] = []
    · rw [if_pos ha] at hn; exact hf hn
    · rw [if_neg ha] at hn hs
      by_cases hb : (split ',' v).headD [] ≠ c!"-"
      · rw [if_pos hb] at hn; exact ha hn
      · rw [if_neg hb] at hs; cases hs
  have h2 : ∀ l, ∀ e ∈ bindingTagsOf field (lookupTag tag) l, e.2 ≠ {} := by
    intro l
    induction l with
    | nil => intro e he; simp [bindingTagsOf] at he
    | cons a l ih =>
      intro e he
      simp only [bindingTagsOf] at he
      split at he
      · exact ih e he
      · simp only [List.mem_cons] at he
        rcases he with rfl | he
        · exact h1 _
        · exact ih e he
  unfold parseStructTag
  intro e he
  simp only at he
  split at he
  · simp only [List.mem_singleton] at he
    subst he
    intro h
    exact hf (congrArg BindingTag.name h)
  · exact h2 _ e he

/-! ### The tag text: `reflect.StructTag.Lookup` on well-formed tags -/

theorem keyChar_iff (c : Char) : isTagKeyChar c = true ↔ KeyChar c := by
  unfold isTagKeyChar KeyChar
  simp only [Bool.and_eq_true, decide_eq_true_eq, ne_eq]
  constructor
  · rintro ⟨⟨⟨h1, h2⟩, h3⟩, h4⟩
    exact ⟨h1, h2, h3, fun e => h4 (by rw [e]; rfl)⟩
  · rintro ⟨h1, h2, h3, h4⟩
    refine ⟨⟨⟨h1, h2⟩, h3⟩, fun e => h4 ?_⟩
    exact Char.ext e

theorem readDigits_add (base : Nat) {ds : Str} {n : Nat} (h : Number base ds n) :
    ∀ (k acc : Nat) (s : Str), readDigits base (ds.length + k) acc (ds ++ s) = readDigits base k (acc * base ^ ds.length + n) s := by
  induction h with
  | none => intro k acc s; simp
  | @digit ds n c d _ hc hd ih =>
    intro k acc s
    have e : (ds ++ [c]).length + k = ds.length + (k + 1) := by simp; omega
    rw [e, List.append_assoc, ih, List.cons_append, List.nil_append, readDigits, (hexVal_iff c d).2 hc]
    simp only [hd, if_true]
    congr 1
    rw [List.length_append, List.length_singleton, Nat.pow_succ, ← Nat.mul_assoc, Nat.add_mul]
    omega

theorem readDigits_number {base : Nat} {ds : Str} {n : Nat} (h : Number base ds n) (k : Nat) (hk : ds.length = k) (s : Str) :
    readDigits base k 0 (ds ++ s) = some (n, s) := by
  have := readDigits_add base h 0 0 s
  simp only [Nat.add_zero, Nat.zero_mul, Nat.zero_add] at this
  rw [← hk, this, readDigits]

theorem number_hex {base : Nat} {ds : Str} {n : Nat} (h : Number base ds n) : ∀ c ∈ ds, ∃ d, Hex c d ∧ d < base := by
  induction h with
  | none => simp
  | digit _ hc hd ih =>
    intro c h
    rcases List.mem_append.1 h with h | h
    · exact ih c h
    · obtain rfl := List.mem_singleton.1 h; exact ⟨_, hc, hd⟩

theorem hex_plain {c : Char} {d : Nat} (h : Hex c d) : c ≠ '"' ∧ c ≠ '\\' := by
  have := (hexVal_iff c d).2 h
  constructor <;> (rintro rfl; revert this; exact fun h => nomatch h)

theorem octal_digit {c : Char} {d : Nat} (h : Hex c d) (hd : d < 8) : '0' ≤ c ∧ c ≤ '7' := by
  have hv := (hexVal_iff c d).2 h
  unfold hexVal at hv
  have key : 48 ≤ c.toNat ∧ c.toNat ≤ 55 := by
    split at hv
    · cases hv; omega
    · split at hv
      · cases hv; omega
      · split at hv
        · cases hv; omega
        · cases hv
  exact ⟨key.1, key.2⟩

theorem unescape_escape {e : Str} {n : Nat} (h : Escape e n) (s : Str) : unescape (e ++ s) = some (Char.ofNat n, s) := by
  cases h with
  | @short c n h =>
    simp only [goEscapes, List.mem_cons, Prod.mk.injEq, List.not_mem_nil, or_false] at h
    rcases h with h | h | h | h | h | h | h | h | h <;> (obtain ⟨rfl, rfl⟩ := h; rfl)
  | octal h hl hn =>
    have hr := readDigits_number h 3 hl s
    have hx := number_hex h
    cases e with
    | nil => simp at hl
    | cons c ds =>
      obtain ⟨d, hd, h8⟩ := hx c (by simp)
      have ho := octal_digit hd h8
      have h1 : c ≠ 'x' ∧ c ≠ 'u' ∧ c ≠ 'U' := by
        refine ⟨?_, ?_, ?_⟩ <;> (rintro rfl; exact absurd ho (by decide))
      rw [List.cons_append] at hr ⊢
      simp only [unescape, h1, if_false, ho, and_self, if_true, hr, byteChar, hn]
  | hex h hl hn => simp [unescape, readDigits_number h 2 hl s, byteChar, hn]
  | point h hl hn =>
    have hn : n < 0xD800 ∨ (0xDFFF < n ∧ n < 0x110000) := hn
    simp [unescape, readDigits_number h 4 hl s, pointChar, hn]
  | longPoint h hl hn =>
    have hn : n < 0xD800 ∨ (0xDFFF < n ∧ n < 0x110000) := hn
    simp [unescape, readDigits_number h 8 hl s, pointChar, hn]

theorem scanQuoted_plain (c : Char) (s : Str) (h1 : c ≠ '"') (h2 : c ≠ '\\') :
    scanQuoted (c :: s) = (scanQuoted s).map (fun x => (c :: x.1, x.2)) := by
  rw [scanQuoted.eq_5]
  · exact h1
  · intro x xs e; exact absurd e h2
  · intro e; exact absurd e h2

theorem scanQuoted_digits {ds s t r : Str} (hd : ∀ c ∈ ds, ∃ d, Hex c d) (hs : scanQuoted s = some (t, r)) :
    scanQuoted (ds ++ s) = some (ds ++ t, r) := by
  induction ds with
  | nil => exact hs
  | cons c ds ih =>
    obtain ⟨d, h⟩ := hd c (by simp)
    rw [List.cons_append, scanQuoted_plain c _ (hex_plain h).1 (hex_plain h).2, ih (fun c hc => hd c (by simp [hc]))]
    rfl

theorem scanQuoted_escape {e : Str} {n : Nat} (h : Escape e n) {s t r : Str} (hs : scanQuoted s = some (t, r)) :
    scanQuoted ('\\' :: (e ++ s)) = some ('\\' :: (e ++ t), r) := by
  have two : ∀ (c : Char) (ds : Str), (∀ c ∈ ds, ∃ d, Hex c d) →
      scanQuoted ('\\' :: (c :: ds ++ s)) = some ('\\' :: (c :: ds ++ t), r) := by
    intro c ds hd
    rw [List.cons_append, scanQuoted, scanQuoted_digits hd hs]
    rfl
  cases h with
  | short h => exact two _ [] (by simp)
  | octal h hl _ =>
    have hx := number_hex h
    cases e with
    | nil => simp at hl
    | cons c ds => exact two c ds (fun c hc => (hx c (by simp [hc])).imp (fun _ h => h.1))
  | hex h _ _ => exact two _ _ (fun c hc => (number_hex h c hc).imp (fun _ h => h.1))
  | point h _ _ => exact two _ _ (fun c hc => (number_hex h c hc).imp (fun _ h => h.1))
  | longPoint h _ _ => exact two _ _ (fun c hc => (number_hex h c hc).imp (fun _ h => h.1))

theorem scanQuoted_literal {text v : Str} (h : Literal text v) (rest : Str) : scanQuoted (text ++ '"' :: rest) = some (text, rest) := by
  induction h with
  | empty => simp [scanQuoted]
  | raw h1 h2 h3 _ ih => rw [List.cons_append, scanQuoted_plain _ _ h1 h2, ih]; rfl
  | escape he _ ih => rw [List.cons_append, List.append_assoc]; exact scanQuoted_escape he ih

theorem unquoteAux_literal {text v : Str} (h : Literal text v) : ∀ n, text.length ≤ n → unquoteAux n text = some v := by
  induction h with
  | empty => intro n _; cases n <;> rfl
  | raw h1 h2 h3 _ ih =>
    intro n hn
    cases n with
    | zero => simp at hn
    | succ n =>
      simp only [List.length_cons] at hn
      simp only [unquoteAux, h1, h2, h3, or_self, if_false, ih n (by omega), Option.map_some]
  | escape he _ ih =>
    intro n hn
    cases n with
    | zero => simp at hn
    | succ n =>
      simp only [List.length_cons, List.length_append] at hn
      simp only [unquoteAux, if_true, unescape_escape he, ih n (by omega), Option.map_some]

theorem unquote_literal {text v : Str} (h : Literal text v) : unquote text = some v := unquoteAux_literal h _ (Nat.le_refl _)

theorem takeWhile_key (k rest : Str) (h : ∀ c ∈ k, isTagKeyChar c = true) :
    (k ++ ':' :: rest).takeWhile isTagKeyChar = k ∧ (k ++ ':' :: rest).dropWhile isTagKeyChar = ':' :: rest := by
  induction k with
  | nil =>
    have : isTagKeyChar ':' = false := by decide
    simp [this]
  | cons c k ih =>
    have hc := h c (by simp)
    have ih := ih (fun x hx => h x (by simp [hx]))
    rw [List.cons_append, List.takeWhile_cons_of_pos hc, List.dropWhile_cons_of_pos hc, ih.1, ih.2]
    exact ⟨rfl, rfl⟩

theorem tagPair_literal {key text v : Str} (rest : Str) (hk : key ≠ []) (hc : ∀ c ∈ key, KeyChar c) (hv : Literal text v) :
    tagPair (key ++ ':' :: '"' :: (text ++ '"' :: rest)) = some (key, text, rest) := by
  unfold tagPair
  obtain ⟨e1, e2⟩ := takeWhile_key key ('"' :: (text ++ '"' :: rest)) (fun c h => (keyChar_iff c).mpr (hc c h))
  simp only [e1, e2]
  cases key with
  | nil => exact absurd rfl hk
  | cons c k => simp [scanQuoted_literal hv rest]

theorem drop_spaces (spaces rest : Str) (h : ∀ c ∈ spaces, c = ' ') : (spaces ++ rest).dropWhile (· = ' ') = rest.dropWhile (· = ' ') := by
  induction spaces with
  | nil => rfl
  | cons c spaces ih =>
    rw [List.cons_append, List.dropWhile_cons_of_pos (by simpa using h c (by simp))]
    exact ih (fun x hx => h x (by simp [hx]))

/-- C24: on a conventional tag, looking up a key gives the value of the first pair with that key, with its escape sequences resolved. -/
theorem lookupTag_conventional {tag : Str} {pairs : List (Str × Str)} (h : TagText tag pairs) (key : Str) :
    lookupTag tag key = (pairs.find? (fun p => p.1 = key)).map (·.2) := by
  have go : ∀ {tag : Str} {pairs : List (Str × Str)}, TagText tag pairs → ∀ fuel, pairs.length < fuel →
      lookupTagAux key fuel tag = (pairs.find? (fun p => p.1 = key)).map (·.2) := by
    intro tag pairs h
    induction h with
    | done hs =>
      intro fuel hf
      cases fuel with
      | zero => omega
      | succ fuel =>
        have := drop_spaces _ [] hs
        rw [List.append_nil] at this
        rw [lookupTagAux, this]
        simp [tagPair]
    | @pair spaces k text v rest pairs hs hk hc hv _ ih =>
      intro fuel hf
      cases fuel with
      | zero => omega
      | succ fuel =>
        have hdrop : (k ++ ':' :: '"' :: (text ++ '"' :: rest)).dropWhile (· = ' ') = k ++ ':' :: '"' :: (text ++ '"' :: rest) := by
          cases k with
          | nil => exact absurd rfl hk
          | cons c k =>
            have hne : c ≠ ' ' := by
              intro e
              have := (hc c (by simp)).1
              rw [e] at this
              exact absurd this (by decide)
            rw [List.cons_append, List.dropWhile_cons_of_neg (by simpa using hne)]
        rw [lookupTagAux, drop_spaces _ _ hs, hdrop, tagPair_literal rest hk hc hv]
        simp only [List.find?_cons]
        by_cases e : k = key
        · simp [e, unquote_literal hv]
        · simp only [e, if_false, decide_false]
          exact ih fuel (by simp at hf; omega)
  have hlen : pairs.length ≤ tag.length := by
    clear go
    induction h with
    | done => simp
    | pair _ _ _ _ _ ih => simp; omega
  exact go h _ (by omega)

instance (c : Char) : Decidable (KeyChar c) := inferInstanceAs (Decidable (_ ∧ _))

/-- A tag with two spaces between its pairs and an escaped quote. -/
example : TagText c!"json:\"na\\\"me,omitempty\"  binding:\"required\"" [(c!"json", c!"na\"me,omitempty"), (c!"binding", c!"required")] :=
  .pair (spaces := []) (key := c!"json") (by decide) (by decide) (by decide)
    (.raw (by decide) (by decide) (by decide) (.raw (by decide) (by decide) (by decide) (.escape (e := ['"']) (.short (by decide))
      (show Literal c!"me,omitempty" c!"me,omitempty" by repeat (first | exact .empty | refine .raw (by decide) (by decide) (by decide) ?_)))))
    (.pair (spaces := c!"  ") (key := c!"binding") (by decide) (by decide) (by decide)
      (show Literal c!"required" c!"required" by repeat (first | exact .empty | refine .raw (by decide) (by decide) (by decide) ?_))
      (.done (spaces := []) (by decide)))
example : parseStructTag c!"Name" c!"json:\"name,omitempty\" binding:\"required\"" =
    ([(.json, { name := c!"name", returnOptional := true })], [(.binding, true)]) := by decide

/-- Escapes of code points are resolved. -/
example : parseStructTag c!"Name" c!"json:\"\\u00e9\\x41\\101\\U0001f600\"" = ([(.json, { name := [Char.ofNat 0xe9, 'A', 'A', Char.ofNat 0x1f600] })], []) := by
  decide +kernel

/-- C24, deviation: the tag `json:"-,"`, which encoding/json takes as the field name "-", is treated as hidden. -/
theorem json_dash_comma_hidden :
    aget (parseStructTag c!"F" c!"json:\"-,\"").1 .json = some { notShown := true } := by decide

/-- C24, deviation: a conditional rule such as `required_without=Other` counts as required. -/
theorem required_by_substring :
    aget (parseStructTag c!"F" c!"binding:\"required_without=Other\"").2 .binding = some true := by decide

end Astra.Props
