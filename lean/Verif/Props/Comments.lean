/-
C96: the comments of types and of struct fields in the document.
-/
import Verif.Lemmas.Harmless
import Verif.Spec.Comments
import Verif.Props.Text
import Verif.Props.SentRun

namespace Astra.Props
open Astra.Spec

/-! ### The comment of a type -/

/-- The comment that is recorded for a type is the comment of the type, in a package that declares every type once. -/
theorem type_comment (Γ : TypeEnv) (pkg name text : Str) (hn : ((allTypeSpecs (Γ.files pkg)).map (·.2.name)).Nodup) :
    typeDoc Γ pkg name = text ↔ TypeComment (Γ.files pkg) name text := by
  have fmt : ∀ d t, formatDoc d = t ↔ Says d t := comment_text_exact
  constructor
  · rintro rfl
    by_cases h : ∃ e ∈ allTypeSpecs (Γ.files pkg), e.2.name = name
    · obtain ⟨⟨doc, s⟩, he, rfl⟩ := h
      rw [type_doc Γ pkg hn doc s he]
      cases hs : s.doc with
      | some d => exact .own he rfl hs ((fmt _ _).mp rfl)
      | none =>
        cases doc with
        | some d => exact .group he rfl hs ((fmt _ _).mp rfl)
        | none => exact .bare he rfl hs
    · have h : ∀ e ∈ allTypeSpecs (Γ.files pkg), e.2.name ≠ name := fun e he hh => h ⟨e, he, hh⟩
      rw [type_doc_missing Γ pkg name h]
      exact .undeclared h
  · intro h
    cases h with
    | own h1 h2 h3 h4 => subst h2; rw [type_doc Γ pkg hn _ _ h1, h3]; exact (fmt _ _).mpr h4
    | group h1 h2 h3 h4 => subst h2; rw [type_doc Γ pkg hn _ _ h1, h3]; exact (fmt _ _).mpr h4
    | bare h1 h2 h3 => subst h2; rw [type_doc Γ pkg hn _ _ h1, h3]
    | undeclared h => exact type_doc_missing Γ pkg name h

/-! ### Which schemas have descriptions -/

/-- In a document of the generator only the entries of `components.schemas` themselves have a description: no schema inside them, and no
schema of an operation. -/
theorem descriptions_of_components (ch : Choices) (hch : ∀ n, ValidChoice (ch.route n)) (table : List (Str × Str)) (s : OpenApiInput) (d : Document)
    (hgen : generateDoc ch table s = .ok d) :
    (∀ n sch, (n, sch) ∈ d.schemas → ∀ t, PartOf t sch → Undescribed t) ∧
    (∀ path i op sch, (path, i) ∈ d.paths → OfItem i op → InOperation op sch → Undescribed sch) := by
  obtain ⟨names, _, h1, _⟩ := schemas_exact ch table s d hgen
  refine ⟨fun n sch hs t ht => ?_, fun path i op sch hp hi ho => ?_⟩
  · obtain ⟨c, _, b, s0, _, _, h2, rfl⟩ := h1 n sch hs
    have hu := undescribed_component _ _ _ _ h2
    refine undescribed_part hu ?_
    unfold withDoc at ht
    split at ht
    · exact ht
    · exact ht
  · unfold generateDoc at hgen
    cases hc : s.config with
    | none => rw [hc] at hgen; simp at hgen
    | some cfg =>
      rw [hc] at hgen
      simp only at hgen
      cases hm : makeNames ch.groups s.components table with
      | err e => rw [hm] at hgen; simp at hgen
      | panic e => rw [hm] at hgen; simp at hgen
      | ok names =>
        rw [hm] at hgen
        simp only [Res.ok.injEq] at hgen
        subst hgen
        exact routes_refs { types := s.types, names := names } _ _ _ _ [] (fun op => ∀ sch, InOperation op sch → Undescribed sch)
          (fun k r sch h => undescribed_operation _ _ _ (fun l => ((hch k).1 l).1) (hch k).2 r sch h) (by simp) _ hp _ hi _ ho

/-! ### The comments of struct fields -/

theorem withoutFieldComments_same (f : Field) : (withoutFieldComments f).name = f.name ∧ (withoutFieldComments f).package = f.package ∧
    (withoutFieldComments f).type = f.type ∧ (withoutFieldComments f).doc = f.doc ∧ (withoutFieldComments f).bindingTags = f.bindingTags ∧
    (withoutFieldComments f).isEmbedded = f.isEmbedded ∧ (withoutFieldComments f).structFields = fieldsWithoutComments f.structFields := by
  cases f
  exact ⟨rfl, rfl, rfl, rfl, rfl, rfl, rfl⟩

theorem leafSchema_doc (E : SchemaEnv) (b : BTag) (f : Field) (d : Str) (l : List (Str × Field)) :
    leafSchema E b { f with doc := d, structFields := l } = leafSchema E b f := rfl

theorem componentToSchema_doc (E : SchemaEnv) (b : BTag) (f : Field) (d : Str) :
    componentToSchema E b { f with doc := d } = componentToSchema E b f := by
  cases f
  rfl

mutual
theorem componentToSchema_comments (E : SchemaEnv) (b : BTag) : ∀ f : Field, componentToSchema E b (withoutFieldComments f) = componentToSchema E b f
  | ⟨package, type, name, enumValues, isRequired, isEmbedded, sliceType, arrayType, arrayLength, mapKeyPackage, mapKeyType,
      mapValueType, structFields, bindingTags, validationTags, doc⟩ => by
    simp only [withoutFieldComments, componentToSchema]
    rw [structLoop_comments E b structFields [] []]
    rfl
theorem structLoop_comments (E : SchemaEnv) (b : BTag) : ∀ (l : List (Str × Field)) (em : List Schema) (ps : List (Str × Schema)),
    structLoop E b (fieldsWithoutComments l) em ps = structLoop E b l em ps
  | [], _, _ => rfl
  | (k, f) :: rest, em, ps => by
    have hr := structLoop_comments E b rest
    obtain ⟨_, h1, h2, _, h3, h4, _⟩ := withoutFieldComments_same f
    have e : componentToSchema E b { withoutFieldComments f with doc := [] } = componentToSchema E b f :=
      (componentToSchema_doc E b _ _).trans (componentToSchema_comments E b f)
    simp only [fieldsWithoutComments, structLoop]
    rw [e]
    simp only [fieldBinding, h1, h2, h3, h4]
    split
    · split <;> exact hr _ _
    · split
      · rfl
      · split
        · exact hr _ _
        · split <;> exact hr _ _
end

theorem extractTags_comments (l : List (Str × Field)) : extractBindingTags (fieldsWithoutComments l) = extractBindingTags l := by
  have h : ∀ (l : List (Str × Field)) st, extractTagsOuter (fieldsWithoutComments l) st = extractTagsOuter l st := by
    intro l
    induction l with
    | nil => intro st; rfl
    | cons x l ih =>
      obtain ⟨k, f⟩ := x
      intro st
      simp only [fieldsWithoutComments, extractTagsOuter]
      rw [ih, (withoutFieldComments_same f).2.2.2.2.1]
  unfold extractBindingTags
  rw [h]

theorem comments_harmless : Harmless withoutFieldComments where
  name f := (withoutFieldComments_same f).1
  package f := (withoutFieldComments_same f).2.1
  type f := (withoutFieldComments_same f).2.2.1
  sliceType f := by cases f; rfl
  mapValueType f := by cases f; rfl
  doc f := (withoutFieldComments_same f).2.2.2.1
  tags f := by rw [(withoutFieldComments_same f).2.2.2.2.2.2, extractTags_comments]
  schema E b f := componentToSchema_comments E b f

/-- C96 is false for struct fields: the comments of the fields of the types have no effect on the document. (The order in which the runtime
ranges over the packages does not depend on the comments.) -/
theorem field_comments_without_effect (ch : Choices) (table : List (Str × Str)) (s : OpenApiInput)
    (hord : ∀ gs, ch.groups (gs.map (groupVia withoutFieldComments)) = (ch.groups gs).map (groupVia withoutFieldComments)) :
    generateDoc ch table { s with routes := s.routes.map (routeVia withoutFieldComments), components := s.components.map withoutFieldComments } =
      generateDoc ch table s :=
  generateDoc_via comments_harmless ch table s hord

/-! ### A whole run -/

theorem cleanField_identity (m : Str) (f : Field) : (cleanField m f).name = f.name ∧ (cleanField m f).package = finalPackage m f.package := by
  have h : ∀ f, (handleSubstituteTypes f).name = f.name ∧ (handleSubstituteTypes f).package = f.package := by
    intro f
    unfold handleSubstituteTypes
    split <;> exact ⟨rfl, rfl⟩
  cases f
  simp only [cleanField]
  split <;> simp only [renameMain, (h _).1, (h _).2, finalPackage, and_self]

/-- C96 for types: the OpenAPI document that a successful run writes. Every entry of `components.schemas` is under the name of a type of the
program and its description is the comment of that type; no other schema of the document has a description. -/
theorem run_type_comments (L : Lib) (E : ParseCtx → RouteEnv) (hE : ByModel L E) (U : FPath → Prop) (hL : Tame L U) (getwd : Str) (φ : Faults)
    (w w' : World Proc) (d : FPath)
    (hd : DirAt w.cwd w.st.svc.workDir d) (hg : resolve w.cwd getwd = some w.cwd) (hnames : ProperNames w.fs) (hc : ∀ x ∈ w.cwd, '/' ∉ x)
    (routers : List (List RouteInfo)) (hin : Each GinInput w.st.svc.inputs routers) (hroutes : w.st.svc.routes = [])
    (hnd : DistinctRoutes (allowed w.st.svc.denyList routers.flatten))
    (before after : List Output) (o : Output) (hout : w.st.svc.outputs = before ++ o :: after) (hown : OwnCells w.st.svc.outputs)
    (hbefore : ∀ b ∈ before, Plain b) (loc : Nat) (ho : o.generate = .openapi loc) (q : FPath) (hq : OutputPlace d w.st.svc o.generate q)
    (hplace : OwnPlace w.cwd d w.st.svc after q) (hU : ¬ U q)
    (hcomp : w.st.svc.components = []) (hch : ∀ n, ValidChoice (L.choices.route n))
    (Γ : TypeEnv) (D : TName → Prop) (hT : TypedProgram E Γ D) (hD : OwnTypes Γ D)
    (honce : ∀ x, D x → ((allTypeSpecs (Γ.files x.1)).map (·.2.name)).Nodup)
    (h : Astra.parseAll L getwd φ w = (w', .ok ())) :
    ∃ m rs cs doc text names, RunResult L w.st.svc (workDirAfter getwd w.st.svc) routers m rs cs ∧ w'.fs.look q = some (.file text) ∧
      L.render (isYaml (withExtension [c!".json", c!".yaml", c!".yml"] (w.st.svc.cells.getD loc []))) doc = .ok text ∧
      makeNames L.choices.groups cs w.st.names = .ok names ∧
      (∀ n s, (n, s) ∈ doc.schemas → ∃ x b, D x ∧ b ≠ .none ∧ refName names b x.2.1 (finalPackage m x.1) = some n ∧
        TypeComment (Γ.files x.1) x.2.1 s.description) ∧
      (∀ n s, (n, s) ∈ doc.schemas → ∀ t, PartOf t s → Undescribed t) ∧
      (∀ path i op s, (path, i) ∈ doc.paths → OfItem i op → InOperation op s → Undescribed s) := by
  obtain ⟨m, rs, cs, doc, text, hres, h1, h2, h3⟩ := openapi_file_of_run L hE.keeps U hL getwd φ w w' d hd hg hnames hc routers hin hroutes hnd
    before after o hout hown hbefore loc ho q hq hplace hU h
  obtain ⟨names, k1, k2, _⟩ := schemas_exact _ _ _ _ h1
  obtain ⟨k3, k4⟩ := descriptions_of_components _ hch _ _ _ h1
  refine ⟨m, rs, cs, doc, text, names, hres, h3, h2, k1, ?_, k3, k4⟩
  obtain ⟨found, m1, cs1, rs1, b1, b2, _, b4, b5⟩ := id hres
  rw [hcomp] at b2
  have hroot : Rooted Γ D cs1 := passes_keep hE (fun ctx => typed_rooted hT hD ctx) b2 (rooted_nil Γ D)
  subst b5
  intro n s hs
  obtain ⟨c, c1, b, s0, c2, c3, c4, rfl⟩ := k2 n s hs
  obtain ⟨c0, c5, rfl⟩ := List.mem_map.mp c1
  obtain ⟨x, hx, hraw, _⟩ := hroot c0 c5
  have i := raw_identity hD hx hraw
  refine ⟨x, b, hx, c2, ?_, ?_⟩
  · rw [← c3, (cleanField_identity m c0).1, (cleanField_identity m c0).2, i.1, i.2]
  · rw [← type_comment Γ x.1 x.2.1 _ (honce x hx)]
    have hdoc : (cleanField m c0).doc = typeDoc Γ x.1 x.2.1 := by
      obtain ⟨k, st, st', r, _, rfl⟩ := hraw
      rw [cleanField_doc, raw_doc]
    rw [← hdoc]
    unfold withDoc
    split
    · rename_i h0
      rw [h0]
      exact (undescribed_component _ _ _ _ c4 _ (.self _)).symm
    · rfl

/-- C96 for the types that are sent and read: in the OpenAPI document of a successful run every type that occurs in what a handler sends or
reads as JSON has an entry of its own, whose description is the comment of the type. -/
theorem run_sent_types_commented_partial (L : Lib) (E : ParseCtx → RouteEnv) (hE : ByModel L E) (U : FPath → Prop) (hL : Tame L U) (getwd : Str) (φ : Faults)
    (w w' : World Proc) (d : FPath)
    (hd : DirAt w.cwd w.st.svc.workDir d) (hg : resolve w.cwd getwd = some w.cwd) (hnames : ProperNames w.fs) (hc : ∀ x ∈ w.cwd, '/' ∉ x)
    (routers : List (List RouteInfo)) (hin : Each GinInput w.st.svc.inputs routers) (hroutes : w.st.svc.routes = [])
    (hnd : DistinctRoutes (allowed w.st.svc.denyList routers.flatten))
    (before after : List Output) (o : Output) (hout : w.st.svc.outputs = before ++ o :: after) (hown : OwnCells w.st.svc.outputs)
    (hbefore : ∀ b ∈ before, Plain b) (loc : Nat) (ho : o.generate = .openapi loc) (q : FPath) (hq : OutputPlace d w.st.svc o.generate q)
    (hplace : OwnPlace w.cwd d w.st.svc after q) (hU : ¬ U q)
    (hcomp : w.st.svc.components = []) (hnm : w.st.names = []) (hord : AnyOrder L.choices.groups)
    (Γ : TypeEnv) (marshal : Str → Str → Option (Json → Prop)) (D : TName → Prop) (hT : TypedProgram E Γ D)
    (honce : ∀ x, D x → ((allTypeSpecs (Γ.files x.1)).map (·.2.name)).Nodup)
    (h : Astra.parseAll L getwd φ w = (w', .ok ())) :
    ∃ m rs cs doc text, RunResult L w.st.svc (workDirAfter getwd w.st.svc) routers m rs cs ∧ w'.fs.look q = some (.file text) ∧
      L.render (isYaml (withExtension [c!".json", c!".yaml", c!".yml"] (w.st.svc.cells.getD loc []))) doc = .ok text ∧
      (Documentable Γ marshal w.st.svc.maps.merged m D → ∃ (R : TName → Prop) (target : Str → Str → Option Str),
        (∀ x, R x → ∃ n s, target x.1 x.2.1 = some n ∧ (n, s) ∈ doc.schemas ∧ Describes Γ marshal target R x s ∧
          TypeComment (Γ.files x.1) x.2.1 s.description) ∧
        (∀ x y, R x → R y → target x.1 x.2.1 = target y.1 y.2.1 → x = y) ∧
        ∀ i ∈ allowed w.st.svc.denyList routers.flatten, i.method ∈ documentedMethods →
          (∀ j ∈ allowed w.st.svc.denyList routers.flatten, openapiPath j.path = openapiPath i.path → j.method = i.method → j = i) →
          ∃ (relative : Str) (mains : List Str), L.rel i.file = .ok relative ∧ mains.length = routers.length ∧ ∀ (comment id : Str) (es : List Entry),
            (∀ main ∈ mains, HandlerView (E { workDir := workDirAfter getwd w.st.svc, mainPkg := main, customFuncs := w.st.svc.customFuncs })
              i.handler relative i.line comment id es) →
            ∀ main ∈ mains, ∀ t, ((∃ code, HandlerSends (E { workDir := workDirAfter getwd w.st.svc, mainPkg := main, customFuncs := w.st.svc.customFuncs }) i.handler relative i.line code t) ∨
                HandlerBinds (E { workDir := workDirAfter getwd w.st.svc, mainPkg := main, customFuncs := w.st.svc.customFuncs }) i.handler relative i.line t) →
              ∀ x, Occurs t x → R x) := by
  obtain ⟨m, rs, cs, doc, text, h1, h2, h3, h4⟩ := run_types L E hE U hL getwd φ w w' d hd hg hnames hc routers hin
    hroutes hnd before after o hout hown hbefore loc ho q hq hplace hU hcomp hnm hord Γ marshal D hT h
  refine ⟨m, rs, cs, doc, text, h1, h2, h3, fun hdoc => ?_⟩
  obtain ⟨names, R, k1, k2, k3, k4, k5⟩ := h4 hdoc
  refine ⟨R, targetOf names m .json, fun x hx => ?_, k4, fun i hi hm hu => ?_⟩
  · obtain ⟨n, s, e1, e2, e3⟩ := k2 x hx
    obtain ⟨x', e4, e5, e6⟩ := k3 n s e2
    have := k4 x x' hx e4 (e1.trans e5.symm)
    subst this
    exact ⟨n, s, e1, e2, e3, (type_comment Γ x.1 x.2.1 _ (honce x (k1 x hx))).mp e6.symm⟩
  · obtain ⟨relative, mains, e1, e2, _, e3⟩ := k5 i hi hm hu
    refine ⟨relative, mains, e1, e2, fun comment id es hv main hmain t ht => ?_⟩
    have A := e3 comment id es hv
    rcases ht with ⟨code, ht⟩ | ht
    · exact A.sends main hmain code t ht
    · exact A.binds main hmain t ht

end Astra.Props
