/-
Every reference of a generated document is made from the name table.
-/
import Verif.Lemmas.Schema
import Verif.Lemmas.OpenApi

namespace Astra
open Spec

theorem refsFrom_property {names : List (Str × Str)} {b : BTag} {s : Schema} (h : RefsFrom names b s) {x : Str × Schema}
    (hx : x ∈ s.properties) : RefsFrom names b x.2 :=
  fun r hr => h r (HasRef.properties (k := x.1) hx hr)

theorem refsFrom_body {names : List (Str × Str)} {b : BTag} {s : Schema} (h : RefsFrom names b s) (bp : BodyParam) :
    RefsFrom names b (bodySchema bp s) := by
  unfold bodySchema
  split
  · intro r hr
    rw [HasRef_iff] at hr
    simp at hr
    exact h r hr
  · exact h

theorem refsFrom_description {names : List (Str × Str)} {b : BTag} {s : Schema} (h : RefsFrom names b s) (d : Str) :
    RefsFrom names b { s with description := d } := by
  intro r hr
  rw [HasRef_iff] at hr
  exact h r (HasRef_iff.mpr hr)

theorem queryParameters_refs (E : SchemaEnv) (cs : List Field) (iter : Nat → List (Str × Schema) → List (Str × Schema))
    (hit : ∀ n l, (iter n l).Perm l) (n : Nat) (ps : List Param) :
    ∀ p ∈ queryParameters E cs iter n ps, RefsFrom E.names .form p.schema := by
  induction ps generalizing n with
  | nil => simp [queryParameters]
  | cons q ps ih =>
    intro p hp
    rw [queryParameters, List.mem_append] at hp
    rcases hp with hp | hp
    · unfold queryParametersOf at hp
      split at hp
      · simp at hp
      · rename_i s hs
        split at hp
        · split at hp
          · simp at hp
          · split at hp
            · simp at hp
            · rename_i comp hcomp
              obtain ⟨x, hx, rfl⟩ := List.mem_map.mp hp
              exact refsFrom_property (refsFrom_component E _ _ _ hcomp) ((hit n _).mem_iff.mp hx)
        · simp only [List.mem_singleton] at hp
          subst hp
          exact refsFrom_param E _ _ _ hs
    · exact ih _ p hp

theorem body_refs (E : SchemaEnv) (bps : List BodyParam) (rb : Option (List (Str × Schema)))
    (h : ∀ content, rb = some content → ∀ x ∈ content, ∃ b, RefsFrom E.names b x.2) :
    ∀ content, bps.foldl (bodyStep E) rb = some content → ∀ x ∈ content, ∃ b, RefsFrom E.names b x.2 := by
  induction bps generalizing rb with
  | nil => exact h
  | cons bp bps ih =>
    rw [List.foldl_cons]
    apply ih
    intro content hc x hx
    unfold bodyStep at hc
    split at hc
    · exact h content hc x hx
    · rename_i s hs
      injection hc with hc
      subst hc
      rcases mem_mset hx with rfl | hx
      · exact ⟨_, refsFrom_body (refsFrom_field E _ _ _ hs) bp⟩
      · cases hrb : rb with
        | none => rw [hrb] at hx; simp at hx
        | some c => rw [hrb] at hx; exact h c hrb x hx

theorem responseHeaders_refs (E : SchemaEnv) (ps : List Param) :
    ∀ x ∈ responseHeaders E ps, RefsFrom E.names .header x.2.schema := by
  have : ∀ (m : List (Str × OHeader)), (∀ x ∈ m, RefsFrom E.names .header x.2.schema) →
      ∀ x ∈ ps.foldl (fun m p => match mapParamToSchema E .header p with
        | some s => mset m p.name { required := p.isRequired, schema := s }
        | none => m) m, RefsFrom E.names .header x.2.schema := by
    induction ps with
    | nil => exact fun m h => h
    | cons p ps ih =>
      intro m h
      rw [List.foldl_cons]
      apply ih
      cases hs : mapParamToSchema E .header p with
      | none => exact h
      | some s =>
        intro x hx
        rcases mem_mset hx with rfl | hx
        · exact refsFrom_param E _ _ _ hs
        · exact h x hx
  exact this [] (by simp)

/-- The references of a response. -/
def RespRefs (names : List (Str × Str)) (resp : OResponse) : Prop :=
  (∀ x ∈ resp.content, ∃ b, RefsFrom names b x.2) ∧ ∀ x ∈ resp.headers, ∃ b, RefsFrom names b x.2.schema

theorem responses_refs (E : SchemaEnv) (headers : List (Str × OHeader))
    (hh : ∀ x ∈ headers, ∃ b, RefsFrom E.names b x.2.schema) (rts : List ReturnType) (m : List (Str × OResponse))
    (h : ∀ x ∈ m, RespRefs E.names x.2) :
    ∀ x ∈ rts.foldl (responseStep E headers) m, RespRefs E.names x.2 := by
  induction rts generalizing m with
  | nil => exact h
  | cons rt rts ih =>
    rw [List.foldl_cons]
    apply ih
    unfold responseStep
    have h' : ∀ x ∈ (if (mget m (itoa rt.statusCode)).isSome then m else mset m (itoa rt.statusCode) { headers := headers }),
        RespRefs E.names x.2 := by
      intro x hx
      split at hx
      · exact h x hx
      · rcases mem_mset hx with rfl | hx
        · exact ⟨by simp, hh⟩
        · exact h x hx
    generalize (if (mget m (itoa rt.statusCode)).isSome then m else mset m (itoa rt.statusCode) { headers := headers }) = m' at *
    simp only
    intro x hx
    split at hx
    · rename_i hz
      rcases mem_mset hx with rfl | hx
      · simp only
        have hr : RespRefs E.names ((mget m' (itoa rt.statusCode)).getD {}) := by
          cases hg : mget m' (itoa rt.statusCode) with
          | none => exact ⟨by simp, by simp⟩
          | some r => exact h' _ (mget_some_mem hg)
        refine ⟨?_, hr.2⟩
        intro y hy
        rcases mem_mset hy with rfl | hy
        · refine ⟨contentTypeToBindingTag rt.contentType, ?_⟩
          simp only
          cases hs : mapFieldToSchema E (contentTypeToBindingTag rt.contentType) rt.field with
          | none => exact refsFrom_plain rfl rfl rfl rfl rfl
          | some s => exact refsFrom_field E _ _ _ hs
        · exact hr.1 y hy
      · exact h' x hx
    · exact h' x hx

/-- Every schema of an operation takes its references from the name table. -/
theorem operation_refs (E : SchemaEnv) (cs : List Field) (ch : RouteChoice) (hs : ∀ l, (ch.sort l).Perm l)
    (hit : ∀ n l, (ch.iter n l).Perm l) (r : Route) (s : Schema) (h : InOperation (operationOf E cs ch r) s) :
    ∃ b, RefsFrom E.names b s := by
  have hresp := responses_refs E (responseHeaders E r.responseHeaders)
    (fun x hx => ⟨_, responseHeaders_refs E _ x hx⟩) r.returnTypes [] (by simp)
  cases h with
  | parameter hp =>
    have hp := (hs _).mem_iff.mp hp
    simp only [List.mem_append] at hp
    rcases hp with (hp | hp) | hp
    · simp only [pathParameters, List.mem_filterMap] at hp
      obtain ⟨q, _, hq⟩ := hp
      cases hm : mapParamToSchema E .uri q with
      | none => rw [hm] at hq; simp at hq
      | some s =>
        rw [hm] at hq
        simp only [Option.map_some, Option.some.injEq] at hq
        subst hq
        exact ⟨_, refsFrom_param E _ _ _ hm⟩
    · simp only [headerParameters, List.mem_filterMap] at hp
      obtain ⟨q, _, hq⟩ := hp
      cases hm : mapParamToSchema E .header q with
      | none => rw [hm] at hq; simp at hq
      | some s =>
        rw [hm] at hq
        simp only [Option.map_some, Option.some.injEq] at hq
        subst hq
        exact ⟨_, refsFrom_param E _ _ _ hm⟩
    · exact ⟨_, queryParameters_refs E cs _ hit _ _ _ hp⟩
  | body hb hx => exact body_refs E r.body none (by simp) _ hb _ hx
  | response hr hx => exact (hresp _ hr).1 _ hx
  | header hr hx => exact (hresp _ hr).2 _ hx

theorem item_set {i : PathItem} {m : Str} {op op' : Operation} (h : OfItem (i.set m op) op') : op' = op ∨ OfItem i op' := by
  unfold PathItem.set at h
  unfold OfItem at h ⊢
  repeat' (split at h)
  all_goals
    first
      | exact Or.inr h
      | (simp only [Option.some.injEq] at h
         rcases h with h | h | h | h | h | h | h <;> first | exact Or.inl h.symm | (right; simp only [h, true_or, or_true]))

theorem routes_refs (E : SchemaEnv) (cs : List Field) (ch : Nat → RouteChoice) (n : Nat) (rs : List Route)
    (paths : List (Str × PathItem)) (P : Operation → Prop) (hP : ∀ k r, P (operationOf E cs (ch k) r))
    (h : ∀ x ∈ paths, ∀ op, OfItem x.2 op → P op) : ∀ x ∈ addRoutes E cs ch n rs paths, ∀ op, OfItem x.2 op → P op := by
  induction rs generalizing n paths with
  | nil => exact h
  | cons r rs ih =>
    rw [addRoutes]
    apply ih
    intro x hx op hop
    rcases mem_mset hx with rfl | hx
    · rcases item_set hop with rfl | hop
      · exact hP _ _
      · cases hg : mget paths (openapiPath r.path) with
        | none => rw [hg] at hop; simp [OfItem] at hop
        | some i => rw [hg] at hop; exact h _ (mget_some_mem hg) op hop
    · exact h x hx op hop

theorem component_refs (E : SchemaEnv) (cs : List Field) : ∀ x ∈ componentSchemas E cs, ∃ b, RefsFrom E.names b x.2 := by
  have inner : ∀ (c : Field) (bs : List BTag) (m : List (Str × Schema)), (∀ x ∈ m, ∃ b, RefsFrom E.names b x.2) →
      ∀ x ∈ addComponentSchemas E c bs m, ∃ b, RefsFrom E.names b x.2 := by
    intro c bs
    induction bs with
    | nil => exact fun m h => h
    | cons b bs ih =>
      intro m h
      rw [addComponentSchemas]
      split
      · exact ih m h
      · rename_i s hs
        have hr := refsFrom_component E _ _ _ hs
        simp only
        split
        · apply ih
          intro x hx
          rcases mem_mset hx with rfl | hx
          · refine ⟨b, ?_⟩
            simp only
            split
            · exact refsFrom_description hr _
            · exact hr
          · exact h x hx
        · exact ih m h
  have outer : ∀ (m : List (Str × Schema)), (∀ x ∈ m, ∃ b, RefsFrom E.names b x.2) →
      ∀ x ∈ cs.foldl (fun m c => addComponentSchemas E c bindingTags m) m, ∃ b, RefsFrom E.names b x.2 := by
    induction cs with
    | nil => exact fun m h => h
    | cons c cs ih =>
      intro m h
      rw [List.foldl_cons]
      exact ih _ (inner c _ m h)
  exact outer [] (by simp)

/-- The names under which schemas are emitted. -/
theorem emitted (E : SchemaEnv) (cs : List Field) {c : Field} (hc : c ∈ cs) {b : BTag} (hb : b ∈ bindingTags)
    (hs : (componentToSchema E b c).isSome = true) {n : Str} (hn : refName E.names b c.name c.package = some n) :
    n ∈ mkeys (componentSchemas E cs) := by
  have keepI : ∀ (c : Field) (bs : List BTag) (m : List (Str × Schema)) (n : Str), (mget m n).isSome = true →
      (mget (addComponentSchemas E c bs m) n).isSome = true := by
    intro c bs
    induction bs with
    | nil => exact fun m n h => h
    | cons b bs ih =>
      intro m n h
      rw [addComponentSchemas]
      split
      · exact ih m n h
      · simp only
        split
        · apply ih
          rw [mget_mset]
          split
          · rfl
          · exact h
        · exact ih m n h
  have doI : ∀ (bs : List BTag) (m : List (Str × Schema)), b ∈ bs → (mget (addComponentSchemas E c bs m) n).isSome = true := by
    intro bs
    induction bs with
    | nil => simp
    | cons b' bs ih =>
      intro m hb
      rw [addComponentSchemas]
      by_cases he : b' = b
      · subst he
        obtain ⟨s, hs⟩ := Option.isSome_iff_exists.mp hs
        rw [hs, hn]
        apply keepI
        rw [mget_mset_self]
        rfl
      · have hb : b ∈ bs := by
          rcases List.mem_cons.mp hb with h | h
          · exact absurd h.symm he
          · exact h
        split
        · exact ih m hb
        · simp only
          split
          · exact ih _ hb
          · exact ih m hb
  have keepO : ∀ (cs : List Field) (m : List (Str × Schema)), (mget m n).isSome = true →
      (mget (cs.foldl (fun m c => addComponentSchemas E c bindingTags m) m) n).isSome = true := by
    intro cs
    induction cs with
    | nil => exact fun m h => h
    | cons c cs ih =>
      intro m h
      rw [List.foldl_cons]
      exact ih _ (keepI c _ m n h)
  have doO : ∀ (cs : List Field) (m : List (Str × Schema)), c ∈ cs →
      (mget (cs.foldl (fun m c => addComponentSchemas E c bindingTags m) m) n).isSome = true := by
    intro cs
    induction cs with
    | nil => simp
    | cons c' cs ih =>
      intro m hc
      rw [List.foldl_cons]
      rcases List.mem_cons.mp hc with rfl | hc
      · exact keepO cs _ (doI _ m hb)
      · exact ih _ hc
  exact mget_isSome_iff.mp (doO cs [] hc)

end Astra
