import Verif.Lemmas.Basic
import Verif.Model.Paths
import Verif.Spec.Paths

namespace Astra

open Spec

theorem segWild_sound {seg b : Str} {m : Char} {n : Str} (h : segWild seg = some (b, m, n)) : WildcardOf seg b m n := by
  induction seg generalizing b with
  | nil => simp [segWild] at h
  | cons c r ih =>
    cases r with
    | nil => simp [segWild] at h
    | cons d r =>
      simp only [segWild] at h
      split at h
      · rename_i hc
        simp at h
        obtain ⟨rfl, rfl, rfl⟩ := h
        exact ⟨by simp, by simp, hc, by simp, by simp⟩
      · rename_i hc
        cases hs : segWild (d :: r) with
        | none => rw [hs] at h; simp at h
        | some x =>
          obtain ⟨b', m', n'⟩ := x
          rw [hs] at h
          simp at h
          obtain ⟨rfl, rfl, rfl⟩ := h
          obtain ⟨h1, h2, h3, h4, h5⟩ := ih hs
          simp only [not_or] at hc
          refine ⟨by rw [h1]; rfl, h2, h3, ?_, ?_⟩
          · simp only [List.mem_cons, not_or]; exact ⟨fun e => hc.1 e.symm, h4⟩
          · simp only [List.mem_cons, not_or]; exact ⟨fun e => hc.2 e.symm, h5⟩

theorem segWild_complete {seg b : Str} {m : Char} {n : Str} (h : WildcardOf seg b m n) : segWild seg = some (b, m, n) := by
  obtain ⟨rfl, h2, h3, h4, h5⟩ := h
  induction b with
  | nil =>
    cases n with
    | nil => exact absurd rfl h2
    | cons d n => simp [segWild, h3]
  | cons c b ih =>
    simp only [List.mem_cons, not_or] at h4 h5
    have ih := ih h4.2 h5.2
    have hc : ¬ (c = ':' ∨ c = '*') := by
      rintro (e | e)
      · exact h4.1 e.symm
      · exact h5.1 e.symm
    cases b with
    | nil => simp only [List.cons_append, List.nil_append, segWild, hc, if_false] at ih ⊢; rw [ih]; rfl
    | cons d b =>
      simp only [List.cons_append] at ih ⊢
      simp only [segWild, hc, if_false] at ih ⊢; rw [ih]; rfl

theorem segWild_iff {seg b : Str} {m : Char} {n : Str} : segWild seg = some (b, m, n) ↔ WildcardOf seg b m n :=
  ⟨segWild_sound, segWild_complete⟩

theorem scan_some (acc s : Str) (h : '/' ∉ s) : scanPath (some acc) s = [.wild (acc.reverse ++ s)] := by
  induction s generalizing acc with
  | nil => simp [scanPath]
  | cons c cs ih =>
    simp only [List.mem_cons, not_or] at h
    simp only [scanPath]
    rw [if_neg (fun e => h.1 e.symm), ih _ h.2]; simp

theorem scan_some_slash (acc s rest : Str) (h : '/' ∉ s) :
    scanPath (some acc) (s ++ '/' :: rest) = .wild (acc.reverse ++ s) :: .lit '/' :: scanPath none rest := by
  induction s generalizing acc with
  | nil => simp [scanPath]
  | cons c cs ih =>
    simp only [List.mem_cons, not_or] at h
    simp only [List.cons_append, scanPath]
    rw [if_neg (fun e => h.1 e.symm), ih _ h.2]; simp

/-- Tokens of one segment. -/
def segToks (seg : Str) : List PathTok :=
  match segWild seg with
  | some (b, m, n) => b.map .lit ++ [.wild (m :: n)]
  | none => seg.map .lit

theorem segToks_cons {c d : Char} {r : Str} (hc : ¬ (c = ':' ∨ c = '*')) :
    segToks (c :: d :: r) = .lit c :: segToks (d :: r) := by
  unfold segToks
  simp only [segWild, hc, if_false]
  cases segWild (d :: r) with
  | none => rfl
  | some x => rfl

theorem scan_seg (s : Str) (h : '/' ∉ s) : scanPath none s = segToks s := by
  induction s with
  | nil => rfl
  | cons c cs ih =>
    simp only [List.mem_cons, not_or] at h
    cases cs with
    | nil => simp [scanPath, startsWild, segToks, segWild]
    | cons d r =>
      by_cases hc : c = ':' ∨ c = '*'
      · have hd : d ≠ '/' := by intro e; exact h.2 (by simp [e])
        have hs : startsWild c (d :: r) = true := by
          rcases hc with e | e <;> simp [startsWild, e, hd]
        rw [scanPath, if_pos hs, scan_some _ _ h.2]
        simp [segToks, segWild, hc]
      · have hs : startsWild c (d :: r) = false := by
          simp only [not_or] at hc; simp [startsWild, hc.1, hc.2]
        rw [scanPath, hs, segToks_cons hc, ih h.2]; rfl

theorem scan_seg_slash (s rest : Str) (h : '/' ∉ s) :
    scanPath none (s ++ '/' :: rest) = segToks s ++ .lit '/' :: scanPath none rest := by
  induction s with
  | nil => simp [scanPath, startsWild, segToks, segWild]
  | cons c cs ih =>
    simp only [List.mem_cons, not_or] at h
    cases cs with
    | nil => simp [scanPath, startsWild, segToks, segWild]
    | cons d r =>
      by_cases hc : c = ':' ∨ c = '*'
      · have hd : d ≠ '/' := by intro e; exact h.2 (by simp [e])
        have hs : startsWild c (d :: r ++ '/' :: rest) = true := by
          rcases hc with e | e <;> simp [startsWild, e, hd]
        rw [List.cons_append, scanPath, if_pos hs, scan_some_slash _ _ _ h.2]
        simp [segToks, segWild, hc]
      · have hs : startsWild c (d :: r ++ '/' :: rest) = false := by
          simp only [not_or] at hc; simp [startsWild, hc.1, hc.2]
        rw [List.cons_append, scanPath, hs, segToks_cons hc, ih h.2]; rfl

/-- Tokens of a list of segments. -/
def segsToks : List Str → List PathTok
  | [] => []
  | [s] => segToks s
  | s :: t :: r => segToks s ++ .lit '/' :: segsToks (t :: r)

theorem scan_join (l : List Str) (h : ∀ s ∈ l, '/' ∉ s) : scanPath none (join ['/'] l) = segsToks l := by
  induction l with
  | nil => rfl
  | cons s l ih =>
    cases l with
    | nil => exact scan_seg s (h s (by simp))
    | cons t r =>
      rw [join_cons (by simp)]
      simp only [List.append_assoc, List.singleton_append]
      rw [scan_seg_slash _ _ (h s (by simp)), ih (fun x hx => h x (by simp [hx]))]; rfl

theorem scan_eq (path : Str) : scanPath none path = segsToks (split '/' path) := by
  conv => lhs; rw [← join_split '/' path]
  exact scan_join _ (fun s hs => split_no_sep s hs)

theorem flatMap_lits (f : Str → Str) (s : Str) : (s.map PathTok.lit).flatMap (PathTok.render f) = s := by
  induction s with
  | nil => rfl
  | cons c cs ih => simp [PathTok.render] at ih ⊢; exact ih

theorem segToks_render (f : Str → Str) (s : Str) :
    (segToks s).flatMap (PathTok.render f) = mapSeg (fun m n => f (m :: n)) s := by
  unfold segToks mapSeg
  cases segWild s with
  | none => exact flatMap_lits f s
  | some x =>
    obtain ⟨b, m, n⟩ := x
    simp only [List.flatMap_append, flatMap_lits]
    simp [PathTok.render]

theorem segsToks_render (f : Str → Str) (l : List Str) :
    (segsToks l).flatMap (PathTok.render f) = join ['/'] (l.map (mapSeg (fun m n => f (m :: n)))) := by
  induction l with
  | nil => rfl
  | cons s l ih =>
    cases l with
    | nil => exact segToks_render f s
    | cons t r =>
      simp only [segsToks, List.flatMap_append, List.flatMap_cons, segToks_render, ih]
      simp [PathTok.render, join]

theorem mapPathParams_eq (path : Str) (f : Str → Str) :
    mapPathParams path f = mapPath (fun m n => f (m :: n)) path := by
  unfold mapPathParams mapPath
  rw [scan_eq, ← segsToks_render]

theorem findAll_segs (l : List Str) :
    (segsToks l).filterMap PathTok.wildText
      = (l.filterMap (fun seg => (segWild seg).map (fun x => x.2))).map (fun x => x.1 :: x.2) := by
  have hl : ∀ s : Str, (s.map PathTok.lit).filterMap PathTok.wildText = [] := by
    intro s; induction s with
    | nil => rfl
    | cons c cs ih => simp [PathTok.wildText]
  have hseg : ∀ s : Str, (segToks s).filterMap PathTok.wildText
      = ([s].filterMap (fun seg => (segWild seg).map (fun x => x.2))).map (fun x => x.1 :: x.2) := by
    intro s
    unfold segToks
    cases h : segWild s with
    | none => simp only [hl]; simp [h]
    | some x =>
      simp only [List.filterMap_append, hl]; simp [h, PathTok.wildText]
  induction l with
  | nil => rfl
  | cons s l ih =>
    cases l with
    | nil => exact hseg s
    | cons t r =>
      simp only [segsToks, List.filterMap_append, List.filterMap_cons, hseg] at ih ⊢
      rw [ih]
      cases segWild s <;> simp [PathTok.wildText]

theorem findAllWild_eq (path : Str) : findAllWild path = (wildcards path).map (fun x => x.1 :: x.2) := by
  unfold findAllWild wildcards
  rw [scan_eq, findAll_segs]

end Astra
