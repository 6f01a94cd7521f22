/-
C20, C89: what becomes of each field of a struct.
-/
import Verif.Props.Components

namespace Astra.Props
open Astra.Spec

/-- The entry made for a struct field whose type was translated to `r` and whose comment is `doc`. -/
def fieldEntry (f : StructField) (r : Result) (doc : Str) : Result :=
  { r with doc := doc, isEmbedded := f.embedded, bindingTags := (parseStructTag f.name f.tag).1,
           validationTags := (parseStructTag f.name f.tag).2 }

/-- The entry of one field: the translation of its type, with the comment, the embedding and the tags of the field. -/
def EntryOf (Γ : TypeEnv) (rec : TRec) (pkg : Option Str) (f : StructField) (t : GoType) (g : Result) : Prop :=
  ∃ st st' r doc, typeStep Γ true rec st pkg [] t = some (st', .ok r) ∧ fieldDoc Γ r f.pos = .ok doc ∧ g = fieldEntry f r doc

/-- The entries of several fields, one each and in order, under the names of the fields. -/
inductive AllEntries (Γ : TypeEnv) (rec : TRec) (pkg : Option Str) : List (StructField × GoType) → List (Str × Result) → Prop
  | nil : AllEntries Γ rec pkg [] []
  | cons {f : StructField} {t : GoType} {g : Result} {l : List (StructField × GoType)} {new : List (Str × Result)} :
      EntryOf Γ rec pkg f t g → AllEntries Γ rec pkg l new → AllEntries Γ rec pkg ((f, t) :: l) ((f.name, g) :: new)

theorem aset_fresh {α β : Type} [DecidableEq α] (l : List (α × β)) (k : α) (v : β) (h : k ∉ l.map (·.1)) : aset l k v = l ++ [(k, v)] := by
  induction l with
  | nil => rfl
  | cons x l ih =>
    obtain ⟨a, b⟩ := x
    simp only [List.map_cons, List.mem_cons, not_or] at h
    simp only [aset]
    rw [if_neg (fun e => h.1 e.symm), ih h.2]
    rfl

theorem structStep_entries (Γ : TypeEnv) (rec : TRec) (pkg : Option Str) (l : List (StructField × GoType)) :
    ∀ st acc st' out, structStep Γ true rec st pkg acc l = some (st', .ok out) →
      (acc.map (·.1) ++ (l.filter (fun e => e.1.exported)).map (fun e => e.1.name)).Nodup →
      ∃ new, out = acc ++ new ∧ AllEntries Γ rec pkg (l.filter (fun e => e.1.exported)) new := by
  induction l with
  | nil =>
    intro st acc st' out h _
    simp only [structStep] at h
    obtain ⟨_, h2⟩ := Prod.mk.inj (Option.some.inj h)
    cases h2
    exact ⟨[], by simp, .nil⟩
  | cons e l ih =>
    obtain ⟨f, t⟩ := e
    intro st acc st' out h hn
    simp only [structStep] at h
    cases hx : f.exported with
    | false =>
      rw [if_pos hx] at h
      simp only [List.filter_cons, hx, Bool.false_eq_true, if_false] at hn ⊢
      exact ih _ _ _ _ h hn
    | true =>
      simp only [List.filter_cons, hx, if_true, List.map_cons] at hn ⊢
      rw [if_neg (by simp [hx])] at h
      cases hr : typeStep Γ true rec st pkg [] t with
      | none => rw [hr] at h; cases h
      | some y =>
        obtain ⟨s2, res⟩ := y
        rw [hr] at h
        cases res with
        | err e => cases h
        | panic m => cases h
        | ok r =>
          simp only at h
          cases hd : fieldDoc Γ r f.pos with
          | err e => rw [hd] at h; cases h
          | panic m => rw [hd] at h; cases h
          | ok doc =>
            rw [hd] at h
            simp only at h
            have hfresh : f.name ∉ acc.map (·.1) := by
              intro hm
              exact (List.nodup_append.mp hn).2.2 _ hm _ (by simp) rfl
            rw [aset_fresh acc f.name _ hfresh] at h
            obtain ⟨new, h1, h2⟩ := ih _ _ _ _ h (by simpa [List.append_assoc] using hn)
            exact ⟨(f.name, fieldEntry f r doc) :: new, by rw [h1]; simp [fieldEntry], .cons ⟨_, _, r, doc, hr, hd, rfl⟩ h2⟩

theorem struct_result (Γ : TypeEnv) (rec : TRec) (st : List Field) (pkg : Option Str) (name : Str) (fs : List (StructField × GoType))
    (st' : List Field) (r : Result) (h : typeStep Γ true rec st pkg name (.struct fs) = some (st', .ok r))
    (hn : ((fs.filter (fun e => e.1.exported)).map (fun e => e.1.name)).Nodup) :
    r = { type := c!"struct", package := pkg, name := name, structFields := r.structFields } ∧
    AllEntries Γ rec pkg (fs.filter (fun e => e.1.exported)) r.structFields := by
  simp only [typeStep] at h
  cases hr : structStep Γ true rec st pkg [] fs with
  | none => rw [hr] at h; cases h
  | some y =>
    obtain ⟨s2, res⟩ := y
    rw [hr] at h
    cases res with
    | err e => cases h
    | panic m => cases h
    | ok out =>
      obtain ⟨_, h2⟩ := Prod.mk.inj (Option.some.inj h)
      obtain ⟨_, h3⟩ := finishResult_ok h2
      obtain ⟨new, e1, e2⟩ := structStep_entries Γ rec pkg fs _ _ _ _ hr (by simpa using hn)
      have e3 : out = new := by simpa using e1
      subst e3
      by_cases h0 : name = []
      · rw [if_neg (by simp [h0])] at h3
        subst h3 h0
        exact ⟨rfl, e2⟩
      · rw [if_pos h0] at h3
        subst h3
        exact ⟨rfl, e2⟩

theorem entries_names {Γ : TypeEnv} {rec : TRec} {pkg : Option Str} {l : List (StructField × GoType)} {new : List (Str × Result)}
    (h : AllEntries Γ rec pkg l new) : new.map (·.1) = l.map (fun e => e.1.name) := by
  induction h with
  | nil => rfl
  | cons _ _ ih => simp [ih]

theorem entries_from {Γ : TypeEnv} {rec : TRec} {pkg : Option Str} {l : List (StructField × GoType)} {new : List (Str × Result)}
    (h : AllEntries Γ rec pkg l new) : ∀ e ∈ l, ∃ g, (e.1.name, g) ∈ new ∧ EntryOf Γ rec pkg e.1 e.2 g := by
  induction h with
  | nil => intro e he; cases he
  | @cons f t g l new he _ ih =>
    intro e hm
    simp only [List.mem_cons] at hm
    rcases hm with rfl | hm
    · exact ⟨g, by simp, he⟩
    · obtain ⟨g', h1, h2⟩ := ih e hm
      exact ⟨g', by simp [h1], h2⟩

theorem entries_to {Γ : TypeEnv} {rec : TRec} {pkg : Option Str} {l : List (StructField × GoType)} {new : List (Str × Result)}
    (h : AllEntries Γ rec pkg l new) : ∀ x ∈ new, ∃ e ∈ l, x.1 = e.1.name ∧ EntryOf Γ rec pkg e.1 e.2 x.2 := by
  induction h with
  | nil => intro e he; cases he
  | @cons f t g l new he _ ih =>
    intro x hm
    simp only [List.mem_cons] at hm
    rcases hm with rfl | hm
    · exact ⟨(f, t), by simp, rfl, he⟩
    · obtain ⟨e, h1, h2⟩ := ih x hm
      exact ⟨e, by simp [h1], h2⟩

/-- C20: a struct whose exported fields have distinct names (as in every Go program) is translated to one entry per exported field, in
order and under the name of the field. The entry is the translation of the type of the field, marked as embedded if the field is,
with the tags of the field; its comment is that of the field when the file of the field's type has a field at the position of the
field, and otherwise the one the type came with. -/
theorem struct_entries_exact (Γ : TypeEnv) (fuel : Nat) (st : List Field) (pkg : Option Str) (name : Str)
    (fs : List (StructField × GoType)) (st' : List Field) (r : Result)
    (h : typeResult Γ true fuel st pkg name (.struct fs) = some (st', .ok r))
    (hn : ((fs.filter (fun e => e.1.exported)).map (fun e => e.1.name)).Nodup) :
    r.type = c!"struct" ∧ r.package = pkg ∧ r.name = name ∧
    r.structFields.map (·.1) = (fs.filter (fun e => e.1.exported)).map (fun e => e.1.name) ∧
    ∀ f t, (f, t) ∈ fs → f.exported = true → ∃ g, (f.name, g) ∈ r.structFields ∧
      g.isEmbedded = f.embedded ∧ g.bindingTags = (parseStructTag f.name f.tag).1 ∧ g.validationTags = (parseStructTag f.name f.tag).2 ∧
      ∃ st1 st2 own, typeResult Γ true fuel st1 pkg [] t = some (st2, .ok own) ∧
        g = { own with isEmbedded := g.isEmbedded, bindingTags := g.bindingTags, validationTags := g.validationTags, doc := g.doc } ∧
        (∀ p names doc, own.package = some p → Γ.nodeAt p f.pos = .field names doc → g.doc = formatDoc doc) ∧
        (own.package = none → g.doc = own.doc) ∧ (∀ p, own.package = some p → Γ.nodeAt p f.pos = .other → g.doc = own.doc) := by
  obtain ⟨rec, hrec⟩ : ∃ rec : TRec, ∀ st pkg n t, typeStep Γ true rec st pkg n t = typeResult Γ true fuel st pkg n t := by
    cases fuel with
    | zero => exact ⟨_, fun _ _ _ _ => rfl⟩
    | succ k => exact ⟨_, fun _ _ _ _ => rfl⟩
  rw [← hrec] at h
  obtain ⟨h1, h2⟩ := struct_result Γ rec st pkg name fs st' r h hn
  refine ⟨by rw [h1], by rw [h1], by rw [h1], entries_names h2, ?_⟩
  intro f t hft hx
  obtain ⟨g, hg, s1, s2, own, doc, k1, k2, rfl⟩ := entries_from h2 (f, t) (List.mem_filter.mpr ⟨hft, by simpa using hx⟩)
  refine ⟨_, hg, rfl, rfl, rfl, s1, s2, own, by rw [← hrec]; exact k1, rfl, ?_, ?_, ?_⟩
  · intro p names d hp hd
    simp only [fieldDoc, hp] at k2
    split at k2
    · cases k2
    · rw [hd] at k2
      cases names with
      | nil => cases k2
      | cons a l => cases k2; rfl
  · intro hp
    simp only [fieldDoc, hp] at k2
    cases k2; rfl
  · intro p hp hd
    simp only [fieldDoc, hp] at k2
    split at k2
    · cases k2
    · rw [hd] at k2
      cases k2; rfl

/-- A program with a commented and tagged field, an embedded field of a type from another package, and an unexported field. -/
def noteEnv : TypeEnv where
  loadable := fun _ => true
  underlying := fun _ n _ =>
    if n = c!"Note" then .struct [({ name := c!"Text", tag := c!"json:\"text\"", pos := 3 }, .basic .string c!"string"),
      ({ name := c!"Base", embedded := true, pos := 4 }, .named (some c!"base") c!"Base" []),
      ({ name := c!"secret", exported := false, pos := 5 }, .basic .int c!"int")]
    else .basic .int c!"int"
  files := fun _ => []
  nodeAt := fun p n => if p = c!"notes" ∧ n = 3 then .field [c!"Text"] c!"// what it says" else .other
  parseFloat := fun _ => none

/-- Non-vacuity: the translation succeeds, the exported names are distinct, and comment, embedding and tags are as stated. -/
example : (match typeResult noteEnv true 3 [] (some c!"notes") [] (noteEnv.underlying c!"notes" c!"Note" []) with
    | some (_, .ok r) => (r.structFields.map (fun x => (x.1, x.2.type, x.2.doc)), r.structFields.map (fun x => x.2.isEmbedded),
        r.structFields.map (fun x => x.2.bindingTags))
    | _ => ([], [], [])) =
    ([(c!"Text", c!"string", c!"what it says"), (c!"Base", c!"Base", [])], [false, true],
      [[(.json, { name := c!"text" })], [(.none, { name := c!"Base" })]]) := by
  decide +kernel

end Astra.Props
