/-
Helper lemmas about the document built by the OpenAPI output.
-/
import Verif.Lemmas.OpenApiNames
import Verif.Model.OpenApi

namespace Astra
open Spec

theorem foldl_match_eq {α V : Type} (f : α → Option (Str × V)) (step : List (Str × V) → α → List (Str × V))
    (hstep : ∀ m a, step m a = match f a with | some kv => mset m kv.1 kv.2 | none => m) (l : List α) (m : List (Str × V)) :
    l.foldl step m = (l.filterMap f).foldl (fun acc e => mset acc e.1 e.2) m := by
  induction l generalizing m with
  | nil => rfl
  | cons a l ih =>
    rw [List.foldl_cons, ih, hstep, List.filterMap_cons]
    cases f a with
    | none => rfl
    | some kv => rfl

theorem mget_foldl_last {V : Type} (entries : List (Str × V)) (m : List (Str × V)) (key : Str) :
    mget (entries.foldl (fun acc e => mset acc e.1 e.2) m) key = (lastFor entries key).or (mget m key) := by
  induction entries generalizing m with
  | nil => simp [lastFor]
  | cons e r ih =>
    rw [List.foldl_cons, ih, mget_mset]
    unfold lastFor
    rw [List.reverse_cons, List.find?_append]
    cases h : r.reverse.find? (fun e => decide (e.1 = key)) with
    | some x => simp
    | none =>
      by_cases hk : e.1 = key
      · simp [hk]
      · simp [hk]

theorem lastFor_cons {V : Type} (e : Str × V) (r : List (Str × V)) (key : Str) :
    lastFor (e :: r) key = (lastFor r key).or (if e.1 = key then some e.2 else none) := by
  unfold lastFor
  rw [List.reverse_cons, List.find?_append]
  cases h : r.reverse.find? (fun e => decide (e.1 = key)) with
  | some x => simp
  | none =>
    by_cases hk : e.1 = key
    · simp [hk]
    · simp [hk]

theorem lastFor_some_iff {V : Type} {l : List (Str × V)} {key : Str} :
    (lastFor l key).isSome = true ↔ ∃ v, (key, v) ∈ l := by
  induction l with
  | nil => simp [lastFor]
  | cons e r ih =>
    rw [lastFor_cons]
    obtain ⟨k, v⟩ := e
    simp only [Option.isSome_or, Bool.or_eq_true, ih, List.mem_cons, Prod.mk.injEq]
    constructor
    · rintro (⟨w, hw⟩ | h)
      · exact ⟨w, Or.inr hw⟩
      · split at h
        · rename_i e; exact ⟨v, Or.inl ⟨e.symm, rfl⟩⟩
        · simp at h
    · rintro ⟨w, ⟨rfl, rfl⟩ | hw⟩
      · right; simp
      · exact Or.inl ⟨w, hw⟩

theorem lastFor_mem {V : Type} {l : List (Str × V)} {key : Str} {v : V} (h : lastFor l key = some v) : (key, v) ∈ l := by
  induction l with
  | nil => simp [lastFor] at h
  | cons e r ih =>
    rw [lastFor_cons] at h
    cases hr : lastFor r key with
    | some w =>
      rw [hr] at h
      simp only [Option.some_or] at h
      exact List.mem_cons_of_mem _ (ih (hr.trans h))
    | none =>
      rw [hr] at h
      simp only [Option.none_or] at h
      split at h
      · rename_i e1
        injection h with h
        subst h e1
        simp
      · simp at h

theorem lastFor_of_nodup {V : Type} {l : List (Str × V)} {key : Str} {v : V} (hn : (l.map (·.1)).Nodup) (h : (key, v) ∈ l) :
    lastFor l key = some v := by
  induction l with
  | nil => simp at h
  | cons e r ih =>
    obtain ⟨k', v'⟩ := e
    simp only [List.map_cons, List.nodup_cons] at hn
    rw [lastFor_cons]
    simp only [List.mem_cons, Prod.mk.injEq] at h
    rcases h with ⟨rfl, rfl⟩ | h
    · have : lastFor r key = none := by
        cases hr : lastFor r key with
        | none => rfl
        | some w => exact absurd (List.mem_map.mpr ⟨_, lastFor_mem hr, rfl⟩) hn.1
      simp [this]
    · rw [ih hn.2 h]; rfl

/-! ### Paths -/

/-- The operation of a path item for a method. -/
def PathItem.op (p : PathItem) (method : Str) : Option Operation :=
  if method = c!"GET" then p.get
  else if method = c!"POST" then p.post
  else if method = c!"PUT" then p.put
  else if method = c!"PATCH" then p.patch
  else if method = c!"DELETE" then p.delete
  else if method = c!"HEAD" then p.head
  else if method = c!"OPTIONS" then p.options
  else none

theorem op_set (p : PathItem) (op : Operation) {m m' : Str} (hm : m ∈ documentedMethods) (hm' : m' ∈ documentedMethods) :
    (p.set m' op).op m = if m' = m then some op else p.op m := by
  simp only [documentedMethods, List.mem_cons, List.not_mem_nil, or_false] at hm hm'
  rcases hm with rfl | rfl | rfl | rfl | rfl | rfl | rfl <;>
    rcases hm' with rfl | rfl | rfl | rfl | rfl | rfl | rfl <;> rfl

theorem op_set_unsupported (p : PathItem) (op : Operation) {m' : Str} (hm' : m' ∉ documentedMethods) :
    p.set m' op = p := by
  simp only [documentedMethods, List.mem_cons, List.not_mem_nil, or_false, not_or] at hm'
  obtain ⟨h1, h2, h3, h4, h5, h6, h7⟩ := hm'
  unfold PathItem.set
  rw [if_neg h1, if_neg h2, if_neg h3, if_neg h4, if_neg h5, if_neg h6, if_neg h7]

/-- The operation under a path and method in a map of path items. -/
def opAt (paths : List (Str × PathItem)) (path method : Str) : Option Operation :=
  (mget paths path).bind (fun i => i.op method)

theorem opAt_addRoutes (E : SchemaEnv) (cs : List Field) (ch : Nat → RouteChoice) (n : Nat) (rs : List Route)
    (paths : List (Str × PathItem)) (path method : Str) (hm : method ∈ documentedMethods) :
    opAt (addRoutes E cs ch n rs paths) path method =
      (((rs.zipIdx n).reverse.find? (fun x => openapiPath x.1.path = path ∧ x.1.method = method)).map
        (fun x => operationOf E cs (ch x.2) x.1)).or (opAt paths path method) := by
  induction rs generalizing n paths with
  | nil => simp [addRoutes]
  | cons r rs ih =>
    rw [addRoutes, ih]
    simp only [List.zipIdx_cons, List.reverse_cons, List.find?_append]
    cases h : (rs.zipIdx (n + 1)).reverse.find? (fun x => decide (openapiPath x.1.path = path ∧ x.1.method = method)) with
    | some x => simp
    | none =>
      simp only [Option.map_none, Option.none_or]
      unfold opAt
      rw [mget_mset]
      by_cases hp : openapiPath r.path = path
      · rw [if_pos hp]
        simp only [Option.bind_some]
        by_cases hs : r.method ∈ documentedMethods
        · rw [op_set _ _ hm hs]
          by_cases hmm : r.method = method
          · simp [hp, hmm]
          · simp only [hmm, if_false, hp, and_false, decide_false, List.find?_cons, List.find?_nil, Option.map_none,
              Option.none_or]
            cases hg : mget paths path with
            | some i => simp
            | none =>
              simp only [Option.getD_none, Option.bind_none]
              revert hm
              simp only [documentedMethods, List.mem_cons, List.not_mem_nil, or_false]
              rintro (rfl | rfl | rfl | rfl | rfl | rfl | rfl) <;> rfl
        · rw [op_set_unsupported _ _ hs]
          have hmm : r.method ≠ method := fun e => hs (e ▸ hm)
          simp only [hp, hmm, and_false, decide_false, List.find?_cons, List.find?_nil, Option.map_none,
              Option.none_or]
          cases hg : mget paths path with
          | some i => simp
          | none =>
            simp only [Option.getD_none, Option.bind_none]
            revert hm
            simp only [documentedMethods, List.mem_cons, List.not_mem_nil, or_false]
            rintro (rfl | rfl | rfl | rfl | rfl | rfl | rfl) <;> rfl
      · rw [if_neg hp]
        simp [hp]

theorem keys_addRoutes (E : SchemaEnv) (cs : List Field) (ch : Nat → RouteChoice) (n : Nat) (rs : List Route)
    (paths : List (Str × PathItem)) (path : Str) :
    (mget (addRoutes E cs ch n rs paths) path).isSome = true ↔
      (∃ r ∈ rs, openapiPath r.path = path) ∨ (mget paths path).isSome = true := by
  induction rs generalizing n paths with
  | nil => simp [addRoutes]
  | cons r rs ih =>
    rw [addRoutes, ih, mget_mset]
    by_cases hp : openapiPath r.path = path
    · simp [hp]
    · simp [hp]

/-! ### Responses -/

theorem responses_step (E : SchemaEnv) (hs : List (Str × OHeader)) (m : List (Str × OResponse)) (rt : ReturnType) (code : Str) :
    mget (responseStep E hs m rt) code =
      if itoa rt.statusCode = code then
        let r := (mget m code).getD { headers := hs }
        let s := (mapFieldToSchema E (contentTypeToBindingTag rt.contentType) rt.field).getD {}
        some (if s ≠ {} then { r with content := mset r.content rt.contentType s } else r)
      else mget m code := by
  unfold responseStep
  simp only
  by_cases hc : itoa rt.statusCode = code
  · subst hc
    rw [if_pos rfl]
    cases hm : mget m (itoa rt.statusCode) with
    | none =>
      simp only [Option.isSome_none, Bool.false_eq_true, if_false, Option.getD_none, mget_mset_self, Option.getD_some]
      split <;> simp [mget_mset_self]
    | some r =>
      simp only [Option.isSome_some, if_true, hm, Option.getD_some]
      split
      · simp [mget_mset_self]
      · simp [hm]
  · rw [if_neg hc]
    have h1 : mget (if (mget m (itoa rt.statusCode)).isSome = true then m else mset m (itoa rt.statusCode) { headers := hs }) code
        = mget m code := by
      split
      · rfl
      · rw [mget_mset_ne _ _ hc]
    split
    · rw [mget_mset_ne _ _ hc, h1]
    · exact h1

/-- The (content type, schema) entries recorded for a status code, those with a non-empty schema. -/
def contentEntries (E : SchemaEnv) (rts : List ReturnType) (code : Str) : List (Str × Schema) :=
  rts.filterMap (fun rt =>
    if itoa rt.statusCode = code then
      match mapFieldToSchema E (contentTypeToBindingTag rt.contentType) rt.field with
      | some s => if s ≠ {} then some (rt.contentType, s) else none
      | none => none
    else none)

theorem responses_fold (E : SchemaEnv) (hs : List (Str × OHeader)) (rts : List ReturnType) (m : List (Str × OResponse))
    (code : Str) :
    mget (rts.foldl (responseStep E hs) m) code =
      if (∃ rt ∈ rts, itoa rt.statusCode = code) then
        let r := (mget m code).getD { headers := hs }
        some { r with content := (contentEntries E rts code).foldl (fun acc e => mset acc e.1 e.2) r.content }
      else mget m code := by
  induction rts generalizing m with
  | nil => simp
  | cons rt rts ih =>
    rw [List.foldl_cons, ih, responses_step]
    by_cases hc : itoa rt.statusCode = code
    · simp only [hc, if_true, List.mem_cons, exists_eq_or_imp, true_or, Option.getD_some]
      have hce : contentEntries E (rt :: rts) code =
          (if (mapFieldToSchema E (contentTypeToBindingTag rt.contentType) rt.field).getD {} ≠ {} then
            [(rt.contentType, (mapFieldToSchema E (contentTypeToBindingTag rt.contentType) rt.field).getD {})] else [])
          ++ contentEntries E rts code := by
        unfold contentEntries
        rw [List.filterMap_cons]
        simp only [hc, if_true]
        cases mapFieldToSchema E (contentTypeToBindingTag rt.contentType) rt.field with
        | none => simp
        | some s =>
          simp only [Option.getD_some]
          by_cases hs0 : s = {}
          · simp [hs0]
          · simp [hs0]
      rw [hce]
      by_cases hz : (mapFieldToSchema E (contentTypeToBindingTag rt.contentType) rt.field).getD {} = {}
      · simp only [hz, ne_eq, not_true, if_false, List.nil_append]
        split
        · rfl
        · rename_i hno
          have : contentEntries E rts code = [] := by
            unfold contentEntries
            rw [List.filterMap_eq_nil_iff]
            intro rt' hrt'
            rw [if_neg (fun e => hno ⟨rt', hrt', e⟩)]
          simp [this]
      · simp only [hz, ne_eq, not_false_eq_true, if_true, List.cons_append, List.nil_append, List.foldl_cons]
        split
        · rfl
        · rename_i hno
          have : contentEntries E rts code = [] := by
            unfold contentEntries
            rw [List.filterMap_eq_nil_iff]
            intro rt' hrt'
            rw [if_neg (fun e => hno ⟨rt', hrt', e⟩)]
          simp [this]
    · have hce : contentEntries E (rt :: rts) code = contentEntries E rts code := by
        unfold contentEntries
        rw [List.filterMap_cons]
        simp [hc]
      rw [hce]
      simp only [hc, if_false, List.mem_cons, exists_eq_or_imp, false_or]

end Astra
