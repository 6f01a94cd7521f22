/-
C67-C69: imports of a file, comments of types and files of a node.
-/
import Verif.Props.PackageLoad

namespace Astra.Props
open Spec

/-! ### C67: imports -/

/-- The file node of a file of a package that was loaded: its imports are nodes of the tree. -/
def FileNodeFor (h : Heap) (f : SrcFile) (g : FileNode) : Prop := ∃ L, Labelled h L ∧ FileOf h L f g

/-- The imports point to the nodes of their paths. -/
theorem import_nodes (h : Heap) (f : SrcFile) (g : FileNode) (hg : FileNodeFor h f g) :
    g.imports.length = f.imports.length ∧
    ∀ (i : Nat) (spec : ImportSpec) (im : FileImport) (path : Str), f.imports[i]? = some spec → g.imports[i]? = some im →
      spec.path = '"' :: (path ++ ['"']) → '"' ∉ path → findPackage h path = some im.pkg := by
  obtain ⟨L, w, _, _, h3, h4⟩ := hg
  refine ⟨h3, fun i spec im path hs hi hp hq => ?_⟩
  obtain ⟨_, b, c⟩ := h4 i spec im hs hi
  rw [hp, trimBy_quoted path hq] at c
  exact w.findPackage_iff.mpr ⟨b, c⟩

/-- The name of a node is the last segment of its path. -/
theorem node_name (h : Heap) (L : List (List Str)) (w : Labelled h L) (n : Nat) (hn : n < h.length) (path : Str) (hl : lab L n = split '/' path) :
    LastSegment path (nodeAt h n).name := by
  have hpos : 0 < n := by
    rcases Nat.eq_zero_or_pos n with e | e
    · subst e
      rw [w.root] at hl
      exact absurd hl.symm (split_ne_nil _ _)
    · exact e
  obtain ⟨j, _, _, hj⟩ := w.up n hpos hn
  rw [hl] at hj
  have hns : ∀ x ∈ split '/' path, '/' ∉ x := fun x hx => split_no_sep x hx
  refine ⟨hns _ (by rw [hj]; simp), ?_⟩
  have e := join_split '/' path
  rw [hj] at e
  cases hL : lab L j with
  | nil => rw [hL] at e; left; simpa [join] using e.symm
  | cons a as =>
    right
    rw [hL] at e
    rw [← e]
    have key : ∀ (l : List Str) (a x : Str), c!"/" ++ x <:+ join ['/'] (a :: l ++ [x]) := by
      intro l
      induction l with
      | nil => intro a x; exact ⟨a, by simp [join]⟩
      | cons b l ih =>
        intro a x
        obtain ⟨t, ht⟩ := ih b x
        refine ⟨a ++ ['/'] ++ t, ?_⟩
        rw [List.append_assoc, ht]
        rw [show a :: b :: l ++ [x] = a :: (b :: l ++ [x]) from rfl, join_cons (by simp)]
    exact key as a _

theorem lastSegment_unique {path a b : Str} (ha : LastSegment path a) (hb : LastSegment path b) : a = b := by
  have key : ∀ {a b : Str}, LastSegment path a → LastSegment path b → a.length ≤ b.length → a = b := by
    intro a b ha hb hle
    obtain ⟨ha1, ha2⟩ := ha
    obtain ⟨hb1, hb2⟩ := hb
    have hsa : a <:+ path := by
      rcases ha2 with h | h
      · rw [h]; exact List.suffix_refl _
      · exact (List.suffix_append _ _).trans h
    have hsb : b <:+ path := by
      rcases hb2 with h | h
      · rw [h]; exact List.suffix_refl _
      · exact (List.suffix_append _ _).trans h
    rcases ha2 with h | h
    · rw [h] at hsb
      exact (hsb.eq_of_length (Nat.le_antisymm hsb.length_le hle)).symm
    · by_cases hlt : a.length < b.length
      · have : c!"/" ++ a <:+ b := List.suffix_of_suffix_length_le h hsb (by simp; omega)
        exact absurd (this.subset (by simp)) hb1
      · exact List.IsSuffix.eq_of_length (List.suffix_of_suffix_length_le hsa hsb hle) (by omega)
  rcases Nat.le_total a.length b.length with h | h
  · exact key ha hb h
  · exact (key hb ha h).symm

/-- C67, in part: an identifier is resolved to an import that it stands for, and is not taken for a package if it stands for none. Assumed: the
paths are in double quotes, imports without a name come from packages named like the last segment of their path, and no import with a
name has a path whose last segment is the identifier. -/
theorem find_import_partial (declared : Str → Str) (h : Heap) (f : SrcFile) (g : FileNode) (hg : FileNodeFor h f g) (ident : Str)
    (hid : ident ≠ [])
    (hq : ∀ spec ∈ f.imports, ∃ path, '"' ∉ path ∧ '`' ∉ path ∧ spec.path = '"' :: (path ++ ['"']) ∧
      (spec.name = none → LastSegment path (declared path)) ∧ (spec.name ≠ none → ¬ LastSegment path ident)) :
    (∀ im, findImport h g ident = some im → ∃ (i : Nat) (spec : ImportSpec) (path : Str), f.imports[i]? = some spec ∧ g.imports[i]? = some im ∧
      Binds declared spec ident ∧ ImportOf spec path ∧ findPackage h path = some im.pkg) ∧
    (findImport h g ident = none → ∀ spec ∈ f.imports, ¬ Binds declared spec ident) := by
  have hnodes := import_nodes h f g hg
  obtain ⟨L, w, _, _, h3, h4⟩ := hg
  have key : ∀ (i : Nat) (spec : ImportSpec) (im : FileImport), f.imports[i]? = some spec → g.imports[i]? = some im →
      ((im.name = ident ∨ (nodeAt h im.pkg).name = ident) ↔ Binds declared spec ident) := by
    intro i spec im hs hi
    obtain ⟨a, b, c⟩ := h4 i spec im hs hi
    obtain ⟨path, q1, q2, q3, q4, q5⟩ := hq spec (List.mem_of_getElem? hs)
    rw [q3, trimBy_quoted path q1] at c
    have hseg := node_name h L w im.pkg b path c
    unfold Binds
    cases hn : spec.name with
    | some al =>
      simp only [hn, Option.getD_some] at a
      simp only
      rw [a]
      constructor
      · rintro (h | h)
        · exact h
        · rw [h] at hseg
          exact absurd hseg (q5 (by simp [hn]))
      · exact Or.inl
    | none =>
      simp only [hn, Option.getD_none] at a
      simp only
      rw [a]
      constructor
      · rintro (h | h)
        · exact absurd h.symm hid
        · exact ⟨path, ⟨q1, q2, Or.inl (by rw [q3]; rfl)⟩, by rw [← h]; exact lastSegment_unique (q4 hn) hseg⟩
      · rintro ⟨path', ⟨p1, p2, p3⟩, hd⟩
        right
        have : path' = path := by
          rcases p3 with p3 | p3
          · rw [q3] at p3
            simpa using p3.symm
          · rw [q3] at p3; simp at p3
        subst this
        rw [← hd]; exact lastSegment_unique hseg (q4 hn)
  constructor
  · intro im him
    unfold findImport at him
    have hmem := List.mem_of_find?_eq_some him
    have hp := List.find?_some him
    obtain ⟨i, hi⟩ := List.getElem?_of_mem hmem
    have hlt : i < f.imports.length := by rw [← h3]; exact (List.getElem?_eq_some_iff.mp hi).1
    have hs : f.imports[i]? = some f.imports[i] := List.getElem?_eq_getElem hlt
    obtain ⟨path, q1, q2, q3, _⟩ := hq _ (List.mem_of_getElem? hs)
    exact ⟨i, _, path, hs, hi, (key i _ im hs hi).mp (by simpa using hp), ⟨q1, q2, Or.inl (by rw [q3]; rfl)⟩, hnodes.2 i _ im path hs hi q3 q1⟩
  · intro hnone spec hspec hb
    obtain ⟨i, hi⟩ := List.getElem?_of_mem hspec
    have hlt : i < g.imports.length := by rw [h3]; exact (List.getElem?_eq_some_iff.mp hi).1
    have hs : g.imports[i]? = some g.imports[i] := List.getElem?_eq_getElem hlt
    have := (key i spec _ hi hs).mpr hb
    unfold findImport at hnone
    rw [List.find?_eq_none] at hnone
    exact hnone _ (List.mem_of_getElem? hs) (by simpa using this)

/-- The file node that loading makes of a file. -/
def fileNodeOf (f : SrcFile) : Heap × FileNode :=
  ((mapImportSpecs newHeap f.imports).1, { fileName := f.fileName, imports := (mapImportSpecs newHeap f.imports).2, ast := f })

theorem fileNodeOf_spec (f : SrcFile) : FileNodeFor (fileNodeOf f).1 f (fileNodeOf f).2 := by
  obtain ⟨M, h1, _, h3, h4⟩ := Labelled.mapImportSpecs f.imports labelled_new
  exact ⟨_, h1, rfl, rfl, h3, h4⟩

/-- Non-vacuity: two imports, one of them renamed. -/
example : let f : SrcFile := { fileName := c!"a.go", imports := [{ path := c!"\"net/http\"" }, { path := c!"\"a/b\"", name := some c!"x" }] }
    findImport (fileNodeOf f).1 (fileNodeOf f).2 c!"x" = some { pkg := 4, name := c!"x" } ∧
    findImport (fileNodeOf f).1 (fileNodeOf f).2 c!"http" = some { pkg := 2, name := c!"" } ∧
    findImport (fileNodeOf f).1 (fileNodeOf f).2 c!"other" = none ∧
    LastSegment c!"net/http" c!"http" ∧ ¬ LastSegment c!"a/b" c!"x" := by
  refine ⟨by decide, by decide, by decide, ⟨by decide, Or.inr ⟨c!"net", rfl⟩⟩, ?_⟩
  intro h
  have := lastSegment_unique h (⟨by decide, Or.inr ⟨c!"a", rfl⟩⟩ : LastSegment c!"a/b" c!"b")
  exact absurd this (by decide)

/-- C67, negation: a renamed import is found under the last segment of its path too, before an import that really has this name. -/
theorem not_find_renamed :
    let f : SrcFile := { fileName := c!"a.go", imports := [{ path := c!"\"a/json\"", name := some c!"x" }, { path := c!"\"encoding/json\"" }] }
    (findImport (fileNodeOf f).1 (fileNodeOf f).2 c!"json").map (fun im => pathOfNode (fileNodeOf f).1 im.pkg) = some (some c!"a/json") := by
  decide

/-- C67, negation: an import whose path ends in a version is not found under the name of the package. -/
theorem not_find_version :
    let f : SrcFile := { fileName := c!"a.go", imports := [{ path := c!"\"github.com/labstack/echo/v4\"" }] }
    findImport (fileNodeOf f).1 (fileNodeOf f).2 c!"echo" = none ∧ (findImport (fileNodeOf f).1 (fileNodeOf f).2 c!"v4").isSome = true := by
  decide

/-- C67, negation: an import in back quotes is not found. -/
theorem not_find_raw :
    let f : SrcFile := { fileName := c!"a.go", imports := [{ path := c!"`fmt`" }] }
    findImport (fileNodeOf f).1 (fileNodeOf f).2 c!"fmt" = none ∧ findPackage (fileNodeOf f).1 c!"fmt" = none := by decide

/-! ### C68: comments of types -/

theorem specDocs_mem (doc : Option Str) (specs : List TopSpec) : ∀ (m : List (Str × Str)) (name text : Str), mget (specDocs doc specs m) name = some text →
    mget m name = some text ∨ ∃ own, TopSpec.type name own ∈ specs ∧ (own = some text ∨ (own = none ∧ doc = some text)) := by
  induction specs with
  | nil => intro m name text h; exact Or.inl h
  | cons s ss ih =>
    intro m name text h
    have up : (∃ own, TopSpec.type name own ∈ ss ∧ (own = some text ∨ (own = none ∧ doc = some text))) →
        ∃ own, TopSpec.type name own ∈ s :: ss ∧ (own = some text ∨ (own = none ∧ doc = some text)) :=
      fun ⟨o, a, b⟩ => ⟨o, List.mem_cons_of_mem _ a, b⟩
    cases s with
    | other => exact (ih m name text h).imp_right up
    | type n d =>
      cases d with
      | some t =>
        rcases ih (mset m n t) name text (by cases doc <;> exact h) with h1 | h1
        · rw [mget_mset] at h1
          split at h1
          · rename_i e; subst e
            exact Or.inr ⟨_, List.mem_cons_self, Or.inl h1⟩
          · exact Or.inl h1
        · exact Or.inr (up h1)
      | none =>
        cases doc with
        | none => exact (ih m name text h).imp_right up
        | some t =>
          rcases ih (mset m n t) name text h with h1 | h1
          · rw [mget_mset] at h1
            split at h1
            · rename_i e; subst e
              exact Or.inr ⟨_, List.mem_cons_self, Or.inr ⟨rfl, h1⟩⟩
            · exact Or.inl h1
          · exact Or.inr (up h1)

theorem specDocs_some (doc : Option Str) (specs : List TopSpec) : ∀ (m : List (Str × Str)) (name : Str),
    ((mget m name).isSome ∨ ∃ own, TopSpec.type name own ∈ specs ∧ (own.or doc).isSome) → (mget (specDocs doc specs m) name).isSome := by
  induction specs with
  | nil => rintro m name (h | ⟨_, h, _⟩); · exact h
           · cases h
  | cons s ss ih =>
    intro m name h
    have setKeeps : ∀ n t, (mget m name).isSome → (mget (mset m n t) name).isSome := by
      intro n t h; rw [mget_mset]; split <;> simp [h]
    cases s with
    | other =>
      refine ih m name (h.imp_right ?_)
      rintro ⟨o, a, b⟩
      exact ⟨o, by simpa using a, b⟩
    | type n d =>
      have tail : ∀ m', (∀ o, TopSpec.type name o = .type n d → (o.or doc).isSome → (mget m' name).isSome) →
          ((mget m name).isSome → (mget m' name).isSome) → (mget (specDocs doc ss m') name).isSome := by
        intro m' h1 h2
        apply ih
        rcases h with h | ⟨o, a, b⟩
        · exact Or.inl (h2 h)
        · rcases List.mem_cons.mp a with a | a
          · exact Or.inl (h1 o a b)
          · exact Or.inr ⟨o, a, b⟩
      cases d with
      | some t =>
        have e : specDocs doc (.type n (some t) :: ss) m = specDocs doc ss (mset m n t) := by cases doc <;> rfl
        rw [e]
        refine tail _ ?_ (setKeeps n t)
        intro o ho _
        cases ho
        rw [mget_mset, if_pos rfl]; rfl
      | none =>
        cases doc with
        | none =>
          refine tail m ?_ id
          intro o ho hb
          cases ho
          simp at hb
        | some t =>
          refine tail (mset m n t) ?_ (setKeeps n t)
          intro o ho _
          cases ho
          rw [mget_mset, if_pos rfl]; rfl

theorem documents_gen {doc : Option Str} {specs : List TopSpec} {name text : Str} :
    Documents (.gen doc specs) name text ↔ ∃ own, TopSpec.type name own ∈ specs ∧ (own = some text ∨ (own = none ∧ doc = some text)) := by
  constructor
  · rintro ⟨d, s, o, h, a, b⟩; cases h; exact ⟨o, a, b⟩
  · rintro ⟨o, a, b⟩; exact ⟨doc, specs, o, rfl, a, b⟩

theorem not_documents_func {name text : Str} : ¬ Documents .func name text := by rintro ⟨_, _, _, h, _⟩; cases h

theorem declDocs_mem (ds : List TopDecl) : ∀ (m : List (Str × Str)) (name text : Str), mget (declDocs ds m) name = some text →
    mget m name = some text ∨ ∃ d ∈ ds, Documents d name text := by
  induction ds with
  | nil => intro m name text h; exact Or.inl h
  | cons d ds ih =>
    intro m name text h
    cases d with
    | func =>
      rcases ih m name text h with h | ⟨d, a, b⟩
      · exact Or.inl h
      · exact Or.inr ⟨d, List.mem_cons_of_mem _ a, b⟩
    | gen doc specs =>
      rcases ih _ name text h with h | ⟨d, a, b⟩
      · rcases specDocs_mem doc specs m name text h with h | h
        · exact Or.inl h
        · exact Or.inr ⟨_, List.mem_cons_self, documents_gen.mpr h⟩
      · exact Or.inr ⟨d, List.mem_cons_of_mem _ a, b⟩

theorem declDocs_some (ds : List TopDecl) : ∀ (m : List (Str × Str)) (name : Str),
    ((mget m name).isSome ∨ ∃ d ∈ ds, ∃ text, Documents d name text) → (mget (declDocs ds m) name).isSome := by
  induction ds with
  | nil => rintro m name (h | ⟨_, h, _⟩); · exact h
           · cases h
  | cons d ds ih =>
    intro m name h
    cases d with
    | func =>
      refine ih m name (h.imp_right ?_)
      rintro ⟨d, a, t, b⟩
      rcases List.mem_cons.mp a with a | a
      · subst a; exact absurd b not_documents_func
      · exact ⟨d, a, t, b⟩
    | gen doc specs =>
      refine ih _ name ?_
      rcases h with h | ⟨d, a, t, b⟩
      · exact Or.inl (specDocs_some doc specs m name (Or.inl h))
      · rcases List.mem_cons.mp a with a | a
        · subst a
          obtain ⟨o, b1, b2⟩ := documents_gen.mp b
          refine Or.inl (specDocs_some doc specs m name (Or.inr ⟨o, b1, ?_⟩))
          rcases b2 with e | ⟨e, e'⟩ <;> simp [*]
        · exact Or.inr ⟨d, a, t, b⟩

theorem docs_fold_mem (fs : List FileNode) : ∀ (m : List (Str × Str)) (name text : Str),
    mget (fs.foldl (fun m f => declDocs f.ast.decls m) m) name = some text →
    mget m name = some text ∨ ∃ f ∈ fs, ∃ d ∈ f.ast.decls, Documents d name text := by
  induction fs with
  | nil => intro m name text h; exact Or.inl h
  | cons f fs ih =>
    intro m name text h
    rcases ih _ name text h with h | ⟨g, a, b⟩
    · rcases declDocs_mem _ m name text h with h | h
      · exact Or.inl h
      · exact Or.inr ⟨f, List.mem_cons_self, h⟩
    · exact Or.inr ⟨g, List.mem_cons_of_mem _ a, b⟩

theorem docs_fold_some (fs : List FileNode) : ∀ (m : List (Str × Str)) (name : Str),
    ((mget m name).isSome ∨ ∃ f ∈ fs, ∃ d ∈ f.ast.decls, ∃ text, Documents d name text) →
    (mget (fs.foldl (fun m f => declDocs f.ast.decls m) m) name).isSome := by
  induction fs with
  | nil => rintro m name (h | ⟨_, h, _⟩); · exact h
           · cases h
  | cons f fs ih =>
    intro m name h
    refine ih _ name ?_
    rcases h with h | ⟨g, a, d, b, t, e⟩
    · exact Or.inl (declDocs_some _ m name (Or.inl h))
    · rcases List.mem_cons.mp a with a | a
      · subst a
        exact Or.inl (declDocs_some _ m name (Or.inr ⟨d, b, t, e⟩))
      · exact Or.inr ⟨g, a, d, b, t, e⟩

/-- C68: the first time a comment is asked for, one is found exactly if some declaration in the files documents the type, and it is the text of
such a declaration. -/
theorem doc_found (n : PkgNode) (hn : n.docs = none) (name : Str) :
    ((findDocForType n name).2 = none ↔ ∀ f ∈ n.files, ∀ d ∈ f.ast.decls, ∀ text, ¬ Documents d name text) ∧
    ∀ text, (findDocForType n name).2 = some text → ∃ f ∈ n.files, ∃ d ∈ f.ast.decls, Documents d name text := by
  have e : (findDocForType n name).2 = mget (n.files.foldl (fun m f => declDocs f.ast.decls m) []) name := by
    simp [findDocForType, populateDocs, hn]
  rw [e]
  have hm : ∀ text, mget (n.files.foldl (fun m f => declDocs f.ast.decls m) []) name = some text →
      ∃ f ∈ n.files, ∃ d ∈ f.ast.decls, Documents d name text := by
    intro text h
    rcases docs_fold_mem _ _ _ _ h with h | h
    · cases h
    · exact h
  refine ⟨⟨fun h f hf d hd t ht => ?_, fun h => ?_⟩, hm⟩
  · have := docs_fold_some n.files [] name (Or.inr ⟨f, hf, d, hd, t, ht⟩)
    rw [h] at this; cases this
  · cases hx : mget (n.files.foldl (fun m f => declDocs f.ast.decls m) []) name with
    | none => rfl
    | some t =>
      obtain ⟨f, hf, d, hd, ht⟩ := hm t hx
      exact absurd ht (h f hf d hd t)

/-- C68: so in a package in which a type is documented only once, the comment is this one. -/
theorem doc_exact (n : PkgNode) (hn : n.docs = none) (name text : Str)
    (huniq : ∀ f ∈ n.files, ∀ d ∈ f.ast.decls, ∀ t, Documents d name t → t = text) :
    (findDocForType n name).2 = some text ↔ ∃ f ∈ n.files, ∃ d ∈ f.ast.decls, Documents d name text := by
  obtain ⟨h1, h2⟩ := doc_found n hn name
  refine ⟨h2 text, fun ⟨f, hf, d, hd, ht⟩ => ?_⟩
  cases hx : (findDocForType n name).2 with
  | none => exact absurd ht (h1.mp hx f hf d hd text)
  | some t =>
    obtain ⟨f', hf', d', hd', ht'⟩ := h2 t hx
    rw [huniq f' hf' d' hd' t ht']

/-- C68: asking again, for any types in between, gives the same answer. -/
theorem doc_stable (n : PkgNode) (name other : Str) :
    (findDocForType (findDocForType n other).1 name).2 = (findDocForType n name).2 := by
  cases h : n.docs <;> simp [findDocForType, populateDocs, h]

/-- A file with a group of types and a type of its own. -/
def docFile : SrcFile :=
  { fileName := c!"a.go", decls := [.func, .gen (some c!"group") [.type c!"A" none, .other, .type c!"B" (some c!"own")], .gen none [.type c!"C" none]] }

/-- Non-vacuity. -/
example : let n : PkgNode := { parent := none, name := c!"p", files := [{ fileName := c!"a.go", imports := [], ast := docFile }] }
    (findDocForType n c!"A").2 = some c!"group" ∧ (findDocForType n c!"B").2 = some c!"own" ∧ (findDocForType n c!"C").2 = none ∧
    Documents (.gen (some c!"group") [.type c!"A" none, .other, .type c!"B" (some c!"own")]) c!"B" c!"own" := by
  refine ⟨by decide, by decide, by decide, documents_gen.mpr ⟨_, ?_, Or.inl rfl⟩⟩
  simp

/-- C68, negation for nodes that are loaded later: if a comment is asked for before the files are there, it is never found. -/
theorem docs_frozen : let n : PkgNode := { parent := none, name := c!"p" }
    let g : FileNode := { fileName := c!"a.go", imports := [], ast := docFile }
    (findDocForType { (findDocForType n c!"A").1 with files := [g] } c!"A").2 = none ∧ (findDocForType { n with files := [g] } c!"A").2 = some c!"group" := by
  decide

/-! ### C69: files of a node -/

/-- C69: adding a file keeps the names of the files different; the file is there afterwards under its name, the others stay as they were. -/
theorem add_file (fs : List FileNode) (f : FileNode) :
    ((fs.map (·.fileName)).Nodup → ((addFile fs f).map (·.fileName)).Nodup) ∧
    (∃ g ∈ addFile fs f, g.fileName = f.fileName ∧ g.ast = f.ast) ∧
    ∀ g, g.fileName ≠ f.fileName → (g ∈ addFile fs f ↔ g ∈ fs) := by
  induction fs with
  | nil =>
    refine ⟨fun _ => by simp [addFile], ⟨f, by simp [addFile]⟩, fun g hg => ?_⟩
    simp only [addFile, List.mem_singleton, List.not_mem_nil, iff_false]
    rintro rfl; exact hg rfl
  | cons g fs ih =>
    obtain ⟨h1, h2, h3⟩ := ih
    unfold addFile
    by_cases he : g.fileName = f.fileName
    · rw [if_pos he]
      refine ⟨by simp, ⟨_, List.mem_cons_self, he, rfl⟩, fun x hx => ?_⟩
      simp only [List.mem_cons]
      constructor
      · rintro (rfl | h)
        · exact absurd he hx
        · exact Or.inr h
      · rintro (rfl | h)
        · exact absurd he hx
        · exact Or.inr h
    · rw [if_neg he]
      refine ⟨?_, ?_, fun x hx => ?_⟩
      · intro hn
        simp only [List.map_cons, List.nodup_cons] at hn ⊢
        refine ⟨?_, h1 hn.2⟩
        intro hmem
        obtain ⟨x, hx, hxe⟩ := List.mem_map.mp hmem
        apply hn.1
        have : x.fileName ≠ f.fileName := by rw [hxe]; exact he
        exact List.mem_map.mpr ⟨x, (h3 x this).mp hx, hxe⟩
      · obtain ⟨x, hx, hxe⟩ := h2
        exact ⟨x, List.mem_cons_of_mem _ hx, hxe⟩
      · simp only [List.mem_cons, h3 x hx]

/-- Non-vacuity: a file replaced and a file added. -/
example : (addFile [{ fileName := c!"a", imports := [], ast := { fileName := c!"a" } }] { fileName := c!"a", imports := [], ast := docFile }).map (·.ast) = [docFile] ∧
    (addFile [{ fileName := c!"a", imports := [], ast := docFile }] { fileName := c!"b", imports := [], ast := docFile }).map (·.fileName) = [c!"a", c!"b"] := by
  decide

end Astra.Props
