/-
C42: the Azure Functions output directory.
-/
import Verif.Spec.AzureOutput
import Verif.Props.Dirs
import Verif.Props.JsonText

namespace Astra.Props
open Spec Run

/-! ### Names -/

theorem getLast_split_spec (sep : Char) (s : Str) : ∃ pre x, split sep s = pre ++ [x] ∧ sep ∉ x ∧ (s = x ∨ [sep] ++ x <:+ s) := by
  have hne := split_ne_nil sep s
  obtain ⟨pre, x, hx⟩ : ∃ pre x, split sep s = pre ++ [x] := ⟨_, _, (List.dropLast_concat_getLast hne).symm⟩
  refine ⟨pre, x, hx, split_no_sep x (by rw [hx]; simp), ?_⟩
  have e := join_split sep s
  rw [hx] at e
  cases pre with
  | nil => left; simpa [join] using e.symm
  | cons a as =>
    right
    rw [← e]
    have key : ∀ (l : List Str) (a x : Str), [sep] ++ x <:+ join [sep] (a :: l ++ [x]) := by
      intro l
      induction l with
      | nil => intro a x; exact ⟨a, by simp [join]⟩
      | cons b l ih =>
        intro a x
        obtain ⟨t, ht⟩ := ih b x
        refine ⟨a ++ [sep] ++ t, ?_⟩
        rw [List.append_assoc, ht]
        rw [show a :: b :: l ++ [x] = a :: (b :: l ++ [x]) from rfl, join_cons (by simp)]
    exact key as a x

theorem lastPart_unique {sep : Char} {s a b : Str} (ha : sep ∉ a ∧ (s = a ∨ [sep] ++ a <:+ s)) (hb : sep ∉ b ∧ (s = b ∨ [sep] ++ b <:+ s)) : a = b := by
  have key : ∀ {a b : Str}, (sep ∉ a ∧ (s = a ∨ [sep] ++ a <:+ s)) → (sep ∉ b ∧ (s = b ∨ [sep] ++ b <:+ s)) → a.length ≤ b.length → a = b := by
    rintro a b ⟨ha1, ha2⟩ ⟨hb1, hb2⟩ hle
    have hsuf : ∀ {x : Str}, (s = x ∨ [sep] ++ x <:+ s) → x <:+ s := by
      rintro x (h | h)
      · rw [h]; exact List.suffix_refl _
      · exact (List.suffix_append _ _).trans h
    have hsb := hsuf hb2
    rcases ha2 with h | h
    · rw [h] at hsb
      exact (hsb.eq_of_length (Nat.le_antisymm hsb.length_le hle)).symm
    · by_cases hlt : a.length < b.length
      · have : [sep] ++ a <:+ b := List.suffix_of_suffix_length_le h hsb (by simp; omega)
        exact absurd (this.subset (by simp)) hb1
      · exact (List.suffix_of_suffix_length_le (hsuf (Or.inr h)) hsb hle).eq_of_length (by omega)
  rcases Nat.le_total a.length b.length with h | h
  · exact key ha hb h
  · exact (key hb ha h).symm

theorem functionName_iff (r : Route) (n : Str) : FunctionName r.handler n ↔ azureName r = n := by
  obtain ⟨pre, x, hx, h1, h2⟩ := getLast_split_spec '.' r.handler
  have e : azureName r = x := by simp [azureName, hx]
  rw [e]
  constructor
  · intro h
    exact lastPart_unique (sep := '.') ⟨h1, h2⟩ h
  · rintro rfl
    exact ⟨h1, h2⟩

theorem azureName_no_dot (r : Route) : '.' ∉ azureName r := ((functionName_iff r _).mpr rfl).1

/-- Names without dots lead downwards only. -/
theorem walk_no_dots {segs : List Str} (h : ∀ s ∈ segs, '.' ∉ s) : ∀ base, ∃ l, walk base segs = base ++ l := by
  induction segs with
  | nil => intro base; exact ⟨[], by simp [walk_nil]⟩
  | cons s segs ih =>
    intro base
    rw [walk_cons]
    obtain ⟨l, hl⟩ := ih (fun x hx => h x (List.mem_cons_of_mem _ hx)) (walkStep base s)
    rw [hl]
    have hs := h s List.mem_cons_self
    unfold walkStep
    split
    · exact ⟨l, rfl⟩
    · split
      · rename_i e; rw [e] at hs; exact absurd (by decide) hs
      · exact ⟨s :: l, by simp⟩

theorem mem_split {sep c : Char} {s x : Str} (hx : x ∈ split sep s) (hc : c ∈ x) : c ∈ s := by
  have key : ∀ l : List Str, x ∈ l → c ∈ join [sep] l := by
    intro l
    induction l with
    | nil => intro h; cases h
    | cons a l ih =>
      intro h
      cases l with
      | nil =>
        simp only [List.mem_singleton] at h
        subst h; simpa [join] using hc
      | cons b l =>
        rw [join_cons (by simp)]
        rcases List.mem_cons.mp h with h | h
        · subst h; simp [hc]
        · have := ih h
          simp [this]
  have := key _ hx
  rwa [join_split] at this

/-- Where the directory and the file of a route go. -/
theorem resolve_function (c : FPath) {temp : Str} (ht : temp ≠ []) (r : Route) :
    ∃ l, (pathJoin [temp, azureName r] ≠ []) ∧ resolve c (pathJoin [temp, azureName r]) = some (locOf c temp ++ l) ∧
      resolve c (pathJoin [pathJoin [temp, azureName r], azureFile]) = some (locOf c temp ++ (l ++ [c!"function.json"])) ∧
      ('/' ∉ azureName r → l = if azureName r = [] then [] else [azureName r]) := by
  obtain ⟨h1, h2⟩ := loc_join c (a := temp) (b := azureName r) (Or.inl ht)
  obtain ⟨l, hl⟩ := walk_no_dots (segs := segments (azureName r))
    (fun s hs hd => azureName_no_dot r (mem_split hs hd)) (locOf c temp)
  rw [hl] at h2
  obtain ⟨h3, h4⟩ := loc_join_plain c (pathJoin [temp, azureName r]) plain_function
  refine ⟨l, h1, by rw [resolve_eq h1, h2], by rw [resolve_eq h3, h4, h2]; simp [azureFile], fun hs => ?_⟩
  by_cases hn : azureName r = []
  · rw [if_pos hn]
    rw [hn] at hl
    simpa [segments, split, walk, walkStep] using hl
  · rw [if_neg hn]
    have hp : PlainName (azureName r) := by
      refine ⟨hn, ?_, ?_, hs⟩
      · intro e; have := azureName_no_dot r; rw [e] at this; exact this (by decide)
      · intro e; have := azureName_no_dot r; rw [e] at this; exact this (by decide)
    rw [walk_plain hp] at hl
    exact (List.append_cancel_left hl).symm

/-! ### Building the temporary directory -/

theorem foot_azureFiles {c : FPath} {S : Proc → Prop} {T : FPath → Prop} {fs0 : FS} {temp : Str} (ht : temp ≠ [])
    (hT : ∀ q, locOf c temp <+: q → T q) (rs : List Route) : Keeps (Inv c S (SameOutside T fs0)) anyVal (azureFiles temp rs) := by
  induction rs with
  | nil => exact Keeps.pure trivial
  | cons r rs ih =>
    unfold azureFiles
    obtain ⟨l, _, h2, h3, _⟩ := resolve_function c ht r
    refine Keeps.seq (foot_mkdir (fun q hr => ?_)) (fun _ => Keeps.seq (foot_writeFile (fun q hr => ?_)) (fun _ => ih))
    · rw [h2] at hr; cases hr; exact hT _ (List.prefix_append _ _)
    · rw [h3] at hr; cases hr; exact hT _ (List.prefix_append _ _)

/-- The text that is written for a route. -/
def functionText (r : Route) : Str := marshalIndent (azureDocument r)

theorem osMkdir_inv {σ : Type} {φ : Faults} {w w' : World σ} {p : Str} (h : osMkdir p φ w = (w', .ok ())) :
    ∃ q, φ w.clock = .none ∧ resolve w.cwd p = some q ∧ q ≠ [] ∧ w.fs.look q = none ∧ w.fs.look q.dropLast = some .dir ∧
      w' = { w with clock := w.clock + 1, fs := w.fs.put q .dir } := by
  obtain ⟨q, fs', h0, hr, h2, rfl⟩ := Run.call_inv h
  have h2 := writing_ok h2
  obtain ⟨h3, h4, rfl⟩ := FS.mkdir_ok h2
  exact ⟨q, h0, hr, h3, h4, FS.mkdir_parent h2, rfl⟩

theorem azureTree_nodup_step {text : Route → Str} {done : List Route} {fs : FS} {d : FPath} (h : AzureTree text done fs d) {r : Route}
    (hn : fs.look (d ++ [azureName r]) = none) : azureName r ∉ done.map azureName := by
  intro hm
  obtain ⟨r', hr', e⟩ := List.mem_map.mp hm
  have := (h [azureName r] .dir).mpr (Or.inr ⟨r', hr', _, (functionName_iff r' _).mpr rfl, Or.inl ⟨by rw [e], rfl⟩⟩)
  rw [hn] at this; cases this

theorem azureTree_new {fs : FS} {T : FPath} (hTne : T ≠ []) (ht : Tree fs) (hnone : fs.look T = none) :
    AzureTree functionText [] (fs.put T .dir) T := by
  intro rest node
  rw [FS.look_put _ hTne]
  by_cases hr : rest = []
  · subst hr
    rw [List.append_nil, if_pos rfl]
    constructor
    · intro h; cases h; exact Or.inl ⟨rfl, rfl⟩
    · rintro (⟨_, rfl⟩ | ⟨_, h, _⟩)
      · rfl
      · cases h
  · rw [if_neg (by simpa using hr), ht.nothing hnone _ (List.prefix_append _ _)]
    simp [hr]

theorem azureTree_add {done : List Route} {fs : FS} {d : FPath} (hb : AzureTree functionText done fs d) (r : Route)
    (hnew : azureName r ∉ done.map azureName) :
    AzureTree functionText (done ++ [r])
      ((fs.put (d ++ [azureName r]) .dir).put (d ++ [azureName r, c!"function.json"]) (.file (functionText r))) d := by
  intro rest node
  rw [FS.look_put _ (by simp), FS.look_put _ (by simp)]
  simp only [List.append_cancel_left_eq]
  by_cases c1 : rest = [azureName r, c!"function.json"]
  · rw [if_pos c1]
    subst c1
    constructor
    · intro h; cases h
      exact Or.inr ⟨r, by simp, _, (functionName_iff r _).mpr rfl, Or.inr ⟨rfl, rfl⟩⟩
    · rintro (⟨h, _⟩ | ⟨r', hr', n, hn, ⟨h, _⟩ | ⟨h, h'⟩⟩)
      · cases h
      · simp at h
      · rw [functionName_iff] at hn
        simp only [List.cons.injEq, and_true] at h
        rcases List.mem_append.mp hr' with hr' | hr'
        · exact absurd (List.mem_map.mpr ⟨r', hr', hn.trans h.symm⟩) hnew
        · simp only [List.mem_singleton] at hr'
          subst hr'; rw [h']
  · rw [if_neg c1]
    by_cases c2 : rest = [azureName r]
    · rw [if_pos c2]
      subst c2
      constructor
      · intro h; cases h
        exact Or.inr ⟨r, by simp, _, (functionName_iff r _).mpr rfl, Or.inl ⟨rfl, rfl⟩⟩
      · rintro (⟨h, _⟩ | ⟨r', hr', n, hn, ⟨h, h'⟩ | ⟨h, h'⟩⟩)
        · cases h
        · rw [h']
        · simp at h
    · rw [if_neg c2, hb rest node]
      constructor
      · rintro (h | ⟨r', hr', n, hn⟩)
        · exact Or.inl h
        · exact Or.inr ⟨r', by simp [hr'], n, hn⟩
      · rintro (h | ⟨r', hr', n, hn, h⟩)
        · exact Or.inl h
        · rcases List.mem_append.mp hr' with hr' | hr'
          · exact Or.inr ⟨r', hr', n, hn, h⟩
          · simp only [List.mem_singleton] at hr'
            subst hr'
            rw [functionName_iff] at hn
            subst hn
            rcases h with ⟨h, _⟩ | ⟨h, _⟩
            · exact absurd h c2
            · exact absurd h c1

theorem azureFiles_built {φ : Faults} {temp : Str} (ht : temp ≠ []) (rs : List Route) (hs : ∀ r ∈ rs, '/' ∉ azureName r) :
    ∀ (done : List Route) (w w' : World Proc), azureFiles temp rs φ w = (w', .ok ()) → (done.map azureName).Nodup →
      AzureTree functionText done w.fs (locOf w.cwd temp) →
      w'.cwd = w.cwd ∧ w'.st = w.st ∧ AzureTree functionText (done ++ rs) w'.fs (locOf w.cwd temp) ∧ ((done ++ rs).map azureName).Nodup := by
  induction rs with
  | nil =>
    intro done w w' h hnd hb
    cases h
    exact ⟨rfl, rfl, by simpa using hb, by simpa using hnd⟩
  | cons r rs ih =>
    intro done w w' h hnd hb
    unfold azureFiles at h
    obtain ⟨w1, _, h1, h⟩ := Run.bind_inv h
    obtain ⟨w2, _, h2, h⟩ := Run.bind_inv h
    obtain ⟨q, _, hq, hne, hnone, _, rfl⟩ := osMkdir_inv h1
    obtain ⟨q', hq', hne', rfl⟩ := osWriteFile_inv h2
    obtain ⟨l, _, e1, e2, e3⟩ := resolve_function w.cwd ht r
    rw [e1] at hq; cases hq
    have hq' : resolve w.cwd _ = some q' := hq'
    rw [e2] at hq'; cases hq'
    have e3 := e3 (hs r List.mem_cons_self)
    have hname : azureName r ≠ [] := by
      intro hn
      rw [if_pos hn] at e3
      subst e3
      have := (hb [] .dir).mpr (Or.inl ⟨rfl, rfl⟩)
      rw [hnone] at this; cases this
    rw [if_neg hname] at e3
    subst e3
    have hnew := azureTree_nodup_step hb hnone
    have hb' := azureTree_add hb r hnew
    have hnd' : ((done ++ [r]).map azureName).Nodup := by
      rw [List.map_append, List.nodup_append]
      refine ⟨hnd, by simp, ?_⟩
      intro a ha b hb e
      simp only [List.map_cons, List.map_nil, List.mem_singleton] at hb
      subst hb
      exact hnew (e ▸ ha)
    obtain ⟨k1, k2, k3, k4⟩ := ih (fun x hx => hs x (List.mem_cons_of_mem _ hx)) (done ++ [r]) _ w' h hnd' hb'
    refine ⟨k1, k2, ?_, ?_⟩
    · simpa using k3
    · simpa using k4

/-! ### Moving it into place -/

theorem osStat_cases {σ : Type} (p : Str) (φ : Faults) (w : World σ) : (osStat p φ w).1 = { w with clock := w.clock + 1 } ∧
    ((∃ n, (osStat p φ w).2 = .ok n) ∨ (∃ e, (osStat p φ w).2 = .err e) ∨ (osStat p φ w).2 = .crash) := by
  unfold osStat Run.call
  simp only
  cases resolve w.cwd p with
  | none => exact ⟨rfl, Or.inr (Or.inl ⟨_, rfl⟩)⟩
  | some q =>
    simp only
    cases φ w.clock with
    | none =>
      cases hs : w.fs.stat q <;> simp [reading, hs]
    | fail n k => cases hs : w.fs.stat q <;> simp [reading, hs, atomicPart]
    | crash n k => cases hs : w.fs.stat q <;> simp [reading, hs, atomicPart]

theorem osRemoveAll_cases {σ : Type} (p : Str) (φ : Faults) (w : World σ) (q : FPath) (hr : resolve w.cwd p = some q) :
    ∃ clk fs1, (osRemoveAll p φ w).1 = { w with clock := clk, fs := fs1 } ∧
      (((osRemoveAll p φ w).2 = .ok () ∧ (fs1 = w.fs.del q ∨ fs1 = w.fs)) ∨
       (((∃ e, (osRemoveAll p φ w).2 = .err e) ∨ (osRemoveAll p φ w).2 = .crash) ∧
        (fs1 = w.fs ∨ ∃ i n keep, (φ i = .fail n keep ∨ φ i = .crash n keep) ∧ fs1 = w.fs.delPart keep q))) := by
  unfold osRemoveAll
  split
  · exact ⟨w.clock, w.fs, rfl, Or.inl ⟨rfl, Or.inr rfl⟩⟩
  · split
    · exact ⟨w.clock, w.fs, rfl, Or.inr ⟨Or.inl ⟨_, rfl⟩, Or.inl rfl⟩⟩
    · unfold Run.call
      simp only [hr]
      cases hf : φ w.clock with
      | none =>
        cases hs : w.fs.removeAll q with
        | error e => simp only [writing, hs]; exact ⟨_, _, rfl, Or.inr ⟨Or.inl ⟨_, rfl⟩, Or.inl rfl⟩⟩
        | ok fs1 =>
          simp only [writing, hs]
          refine ⟨_, _, rfl, Or.inl ⟨trivial, ?_⟩⟩
          rcases FS.removeAll_ok hs with h | ⟨h, _⟩
          · exact Or.inl h
          · exact Or.inr h
      | fail n k =>
        cases hs : w.fs.removeAll q with
        | error e => simp only [writing, hs]; exact ⟨_, _, rfl, Or.inr ⟨Or.inl ⟨_, rfl⟩, Or.inl rfl⟩⟩
        | ok fs1 => simp only [writing, hs]; exact ⟨_, _, rfl, Or.inr ⟨Or.inl ⟨_, rfl⟩, Or.inr ⟨_, _, _, Or.inl hf, rfl⟩⟩⟩
      | crash n k =>
        cases hs : w.fs.removeAll q with
        | error e => simp only [writing, hs]; exact ⟨_, _, rfl, Or.inr ⟨Or.inr trivial, Or.inl rfl⟩⟩
        | ok fs1 => simp only [writing, hs]; exact ⟨_, _, rfl, Or.inr ⟨Or.inr trivial, Or.inr ⟨_, _, _, Or.inr hf, rfl⟩⟩⟩

theorem osRename_cases {σ : Type} (a b : Str) (φ : Faults) (w : World σ) (qa qb : FPath) (ha : resolve w.cwd a = some qa)
    (hb : resolve w.cwd b = some qb) :
    ((osRename a b φ w).2 = .ok () ∧ (osRename a b φ w).1 = { w with clock := w.clock + 1, fs := w.fs.move qa qb }) ∨
    (((∃ e, (osRename a b φ w).2 = .err e) ∨ (osRename a b φ w).2 = .crash) ∧ (osRename a b φ w).1 = { w with clock := w.clock + 1 }) := by
  unfold osRename Run.call
  simp only [ha, hb]
  cases φ w.clock with
  | none =>
    cases hs : w.fs.rename qa qb with
    | error e => simp [writing, hs]
    | ok fs1 => simp [writing, hs, (FS.rename_ok hs).2.2.2]
  | fail n k => cases hs : w.fs.rename qa qb <;> simp [writing, hs, atomicPart]
  | crash n k => cases hs : w.fs.rename qa qb <;> simp [writing, hs, atomicPart]

theorem shrunk_delPart (keep : FPath → Bool) (fs : FS) (q : FPath) : Shrunk q fs (fs.delPart keep q) := fun r _ => FS.look_delPart keep fs q r

theorem delPart_all {keep : FPath → Bool} (h : ∀ q, keep q = true) (fs : FS) (q : FPath) : fs.delPart keep q = fs := by
  unfold FS.delPart
  rw [List.filter_eq_self]
  intro e he
  simp only [Bool.or_eq_true, List.any_eq_true, Bool.and_eq_true]
  exact Or.inr ⟨e, he, List.isPrefixOf_iff_prefix.mpr (List.prefix_refl _), h _⟩

/-- What moving the temporary directory does to the file tree. -/
structure Moved (φ : Faults) (T D : FPath) (w w' : World Proc) (x : Exit Unit) : Prop where
  cwd : w'.cwd = w.cwd
  st : w'.st = w.st
  ok : x = .ok () → ∃ fs1, SameOutside (fun q => D <+: q) w.fs fs1 ∧ w'.fs = fs1.move T D
  fail : x ≠ .ok () → SameOutside (fun q => D <+: q) w.fs w'.fs ∧ Shrunk D w.fs w'.fs ∧
    (AtomicRemoval φ → D ≠ [] → Untouched D w.fs w'.fs ∨ NothingAt w'.fs D)

theorem move_spec (φ : Faults) (w : World Proc) (dir : Str) (D : FPath) (hD : resolve w.cwd (pathJoin [w.st.svc.workDir, dir]) = some D) :
    Moved φ (locOf w.cwd w.st.svc.workDir ++ [c!".astra", c!"azure"]) D w (moveTempOutputDir azureTemp dir φ w).1 (moveTempOutputDir azureTemp dir φ w).2 := by
  have hT := resolve_in_astra w.cwd w.st.svc plain_azure
  -- the last call
  have last : ∀ (w1 : World Proc) (fs1 : FS) (clk : Nat), w1 = { w with clock := clk, fs := fs1 } → SameOutside (fun q => D <+: q) w.fs fs1 →
      Shrunk D w.fs fs1 → (D ≠ [] → Untouched D w.fs fs1 ∨ NothingAt fs1 D) →
      Moved φ (locOf w.cwd w.st.svc.workDir ++ [c!".astra", c!"azure"]) D w
        (osRename (pathJoin [astraDirPath w.st.svc, azureTemp]) (pathJoin [w.st.svc.workDir, dir]) φ w1).1
        (osRename (pathJoin [astraDirPath w.st.svc, azureTemp]) (pathJoin [w.st.svc.workDir, dir]) φ w1).2 := by
    rintro w1 fs1 clk rfl h1 h2 h3
    rcases osRename_cases (pathJoin [astraDirPath w.st.svc, azureTemp]) (pathJoin [w.st.svc.workDir, dir]) φ { w with clock := clk, fs := fs1 } _ D hT hD with
      ⟨e1, e2⟩ | ⟨e1, e2⟩
    · rw [e1, e2]
      exact ⟨rfl, rfl, fun _ => ⟨fs1, h1, rfl⟩, fun h => absurd rfl h⟩
    · rw [e2]
      refine ⟨rfl, rfl, fun h => ?_, fun _ => ⟨h1, h2, fun _ => h3⟩⟩
      rcases e1 with ⟨e, e1⟩ | e1 <;> rw [e1] at h <;> cases h
  have hdelS : ∀ fs : FS, SameOutside (fun q => D <+: q) fs (fs.del D) := fun fs => .del (fun _ h => h)
  have hdelK : ∀ fs : FS, Shrunk D fs (fs.del D) := by
    intro fs q _
    rw [FS.look_del]
    split
    · exact Or.inr rfl
    · exact Or.inl rfl
  have hdelN : ∀ fs : FS, D ≠ [] → NothingAt (fs.del D) D := by
    intro fs hne r hr
    rw [FS.look_del, if_pos]
    exact ⟨hr, fun e => hne (by rw [e] at hr; exact List.prefix_nil.mp hr)⟩
  unfold moveTempOutputDir
  rw [Run.bind_ok (getSvc_ok φ w)]
  obtain ⟨s1, s2⟩ := osStat_cases (pathJoin [w.st.svc.workDir, dir]) φ w
  -- the call of RemoveAll, if any
  have rem : ∀ b : Bool, Moved φ (locOf w.cwd w.st.svc.workDir ++ [c!".astra", c!"azure"]) D w
      (((if b then (Pure.pure () : Prg Unit) else osRemoveAll (pathJoin [w.st.svc.workDir, dir])) >>=
        fun _ => osRename (pathJoin [astraDirPath w.st.svc, azureTemp]) (pathJoin [w.st.svc.workDir, dir])) φ { w with clock := w.clock + 1 }).1
      (((if b then (Pure.pure () : Prg Unit) else osRemoveAll (pathJoin [w.st.svc.workDir, dir])) >>=
        fun _ => osRename (pathJoin [astraDirPath w.st.svc, azureTemp]) (pathJoin [w.st.svc.workDir, dir])) φ { w with clock := w.clock + 1 }).2 := by
    intro b
    cases b with
    | true =>
      exact last { w with clock := w.clock + 1 } w.fs (w.clock + 1) rfl (.refl _ _) (fun _ _ => Or.inl rfl) (fun _ => Or.inl (fun _ _ => rfl))
    | false =>
      simp only [Bool.false_eq_true, if_false]
      obtain ⟨clk, fs1, e0, e⟩ := osRemoveAll_cases (pathJoin [w.st.svc.workDir, dir]) φ { w with clock := w.clock + 1 } D hD
      cases hm : osRemoveAll (pathJoin [w.st.svc.workDir, dir]) φ { w with clock := w.clock + 1 } with
      | mk w1 x =>
        rw [hm] at e0 e
        simp only at e0 e
        rcases e with ⟨ex, efs⟩ | ⟨ex, efs⟩
        · subst ex
          rw [Run.bind_ok hm]
          rcases efs with e | e
          · rw [e] at e0
            exact last w1 _ clk e0 (hdelS _) (hdelK _) (fun hne => Or.inr (hdelN _ hne))
          · rw [e] at e0
            exact last w1 _ clk e0 (.refl _ _) (fun _ _ => Or.inl rfl) (fun _ => Or.inl (fun _ _ => rfl))
        · have hx : x ≠ .ok () := by rintro rfl; rcases ex with ⟨e, ex⟩ | ex <;> cases ex
          have hb : ((osRemoveAll (pathJoin [w.st.svc.workDir, dir]) >>=
              fun _ => osRename (pathJoin [astraDirPath w.st.svc, azureTemp]) (pathJoin [w.st.svc.workDir, dir])) φ { w with clock := w.clock + 1 }) = (w1, x) := by
            rcases ex with ⟨e, ex⟩ | ex
            · subst ex; exact Run.bind_err hm
            · subst ex; exact Run.bind_crash hm
          rw [hb]
          rw [e0]
          refine ⟨rfl, rfl, fun h => absurd h hx, fun _ => ?_⟩
          rcases efs with e | ⟨i, n, keep, hi, e⟩
          · rw [e]
            exact ⟨.refl _ _, fun _ _ => Or.inl rfl, fun _ _ => Or.inl (fun _ _ => rfl)⟩
          · rw [e]
            refine ⟨.delPart keep (fun _ h => h), shrunk_delPart keep _ D, fun ha _ => Or.inl ?_⟩
            rw [delPart_all (ha i n keep hi)]
            exact fun _ _ => rfl
  cases hm : osStat (pathJoin [w.st.svc.workDir, dir]) φ w with
  | mk w1 x =>
    rw [hm] at s1 s2
    simp only at s1 s2
    subst s1
    rcases s2 with ⟨n, rfl⟩ | ⟨e, rfl⟩ | rfl
    · rw [Run.bind_ok (Run.try_ok hm)]
      exact rem _
    · rw [Run.bind_ok (Run.try_err hm)]
      exact rem _
    · have : Run.try_ (osStat (pathJoin [w.st.svc.workDir, dir])) φ w = ({ w with clock := w.clock + 1 }, .crash) := by
        unfold Run.try_; rw [hm]
      rw [Run.bind_crash this]
      exact ⟨rfl, rfl, fun h => (nomatch h), fun _ => ⟨.refl _ _, fun _ _ => Or.inl rfl, fun _ _ => Or.inl (fun _ _ => rfl)⟩⟩

/-! ### The whole function -/

theorem apart_not_both {a b q : FPath} (h : Apart a b) : ¬ (a <+: q ∧ b <+: q) := by
  rintro ⟨h1, h2⟩
  rcases List.prefix_or_prefix_of_prefix h1 h2 with h3 | h3
  · exact h.1 h3
  · exact h.2 h3

/-- A program of two parts either stops in the first one or goes on in the world it left. -/
theorem bind_stages {σ α β : Type} (m : Run σ α) (f : α → Run σ β) (φ : Faults) (w : World σ) :
    (∃ a, (m φ w).2 = .ok a ∧ (m >>= f) φ w = f a φ (m φ w).1) ∨
    (∃ x : Exit β, (∀ b, x ≠ .ok b) ∧ (∀ a, (m φ w).2 ≠ .ok a) ∧ (m >>= f) φ w = ((m φ w).1, x)) := by
  cases hm : m φ w with
  | mk w1 x =>
    cases x with
    | ok a => exact Or.inl ⟨a, rfl, Run.bind_ok hm⟩
    | err e => exact Or.inr ⟨.err e, fun _ h => (nomatch h), fun _ h => (nomatch h), Run.bind_err hm⟩
    | panic => exact Or.inr ⟨.panic, fun _ h => (nomatch h), fun _ h => (nomatch h), Run.bind_panic hm⟩
    | crash => exact Or.inr ⟨.crash, fun _ h => (nomatch h), fun _ h => (nomatch h), Run.bind_crash hm⟩

theorem osMkdir_cases {σ : Type} (p : Str) (φ : Faults) (w : World σ) (q : FPath) (hr : resolve w.cwd p = some q) :
    ((osMkdir p φ w).2 = .ok () ∧ w.fs.look q = none ∧ q ≠ [] ∧ (osMkdir p φ w).1 = { w with clock := w.clock + 1, fs := w.fs.put q .dir }) ∨
    ((∀ u, (osMkdir p φ w).2 ≠ .ok u) ∧ (osMkdir p φ w).1 = { w with clock := w.clock + 1 }) := by
  cases hx : (osMkdir p φ w).2 with
  | ok u =>
    left
    obtain ⟨q', _, h1, h2, h3, _, h5⟩ := osMkdir_inv (w' := (osMkdir p φ w).1) (show osMkdir p φ w = ((osMkdir p φ w).1, .ok ()) by
      rw [← show (osMkdir p φ w).2 = .ok () from hx])
    rw [hr] at h1; cases h1
    exact ⟨rfl, h3, h2, h5⟩
  | err e =>
    right
    refine ⟨fun _ h => (nomatch h), ?_⟩
    unfold osMkdir Run.call at hx ⊢
    simp only [hr] at hx ⊢
    cases hf : φ w.clock <;> cases hs : w.fs.mkdir q <;> simp [writing, hs, hf, atomicPart] at hx ⊢
  | panic =>
    exfalso
    unfold osMkdir Run.call at hx
    simp only [hr] at hx
    cases hf : φ w.clock <;> cases hs : w.fs.mkdir q <;> simp [writing, hs, hf, atomicPart] at hx
  | crash =>
    right
    refine ⟨fun _ h => (nomatch h), ?_⟩
    unfold osMkdir Run.call at hx ⊢
    simp only [hr] at hx ⊢
    cases hf : φ w.clock <;> cases hs : w.fs.mkdir q <;> simp [writing, hs, hf, atomicPart] at hx ⊢

theorem untouched_of_sameOutside {T D : FPath} (hap : Apart T D) {fs fs' : FS} (h : SameOutside (fun q => T <+: q) fs fs') : Untouched D fs fs' :=
  fun q hq => h q (fun ht => apart_not_both hap ⟨ht, hq⟩)

/-- The parts of a run. -/
theorem azure_cases (φ : Faults) (w : World Proc) (dir : Str) :
    ∃ T, T = locOf w.cwd w.st.svc.workDir ++ [c!".astra", c!"azure"] ∧
    (((∀ u, (azureGenerate dir φ w).2 ≠ .ok u) ∧ (azureGenerate dir φ w).1 = { w with clock := w.clock + 1 }) ∨
     (w.fs.look T = none ∧ (∀ u, (azureGenerate dir φ w).2 ≠ .ok u) ∧ SameOutside (fun q => T <+: q) w.fs (azureGenerate dir φ w).1.fs ∧
      (azureGenerate dir φ w).1.cwd = w.cwd ∧ (azureGenerate dir φ w).1.st = w.st) ∨
     ∃ w1 w2 : World Proc, w.fs.look T = none ∧ w1 = { w with clock := w.clock + 1, fs := w.fs.put T .dir } ∧
      azureFiles (pathJoin [astraDirPath w.st.svc, azureTemp]) w.st.svc.routes φ w1 = (w2, .ok ()) ∧
      SameOutside (fun q => T <+: q) w.fs w2.fs ∧ w2.cwd = w.cwd ∧ w2.st = w.st ∧
      azureGenerate dir φ w = moveTempOutputDir azureTemp dir φ w2) := by
  refine ⟨_, rfl, ?_⟩
  generalize hTdef : locOf w.cwd w.st.svc.workDir ++ [c!".astra", c!"azure"] = T
  have hT : resolve w.cwd (pathJoin [astraDirPath w.st.svc, azureTemp]) = some T := by
    rw [resolve_in_astra w.cwd w.st.svc plain_azure, ← hTdef]; rfl
  have hne : pathJoin [astraDirPath w.st.svc, azureTemp] ≠ [] := (loc_join_plain [] _ plain_azure).1
  have hloc : locOf w.cwd (pathJoin [astraDirPath w.st.svc, azureTemp]) = T := by
    rw [resolve_eq hne] at hT; exact Option.some.inj hT
  have hset : setupTempOutputDir azureTemp φ w =
      (osMkdir (pathJoin [astraDirPath w.st.svc, azureTemp]) >>= fun _ => Pure.pure (pathJoin [astraDirPath w.st.svc, azureTemp])) φ w := by
    unfold setupTempOutputDir
    rw [Run.bind_ok (getSvc_ok φ w)]
  unfold azureGenerate
  rcases bind_stages (osMkdir (pathJoin [astraDirPath w.st.svc, azureTemp])) (fun _ => (Pure.pure (pathJoin [astraDirPath w.st.svc, azureTemp]) : Prg Str)) φ w
    with ⟨u, hok, hb⟩ | ⟨x, hx, hno, hb⟩
  · rcases osMkdir_cases (pathJoin [astraDirPath w.st.svc, azureTemp]) φ w T hT with ⟨_, hnone, hTne, hw⟩ | ⟨hn, _⟩
    · rw [hw] at hb
      have hset' : setupTempOutputDir azureTemp φ w = ({ w with clock := w.clock + 1, fs := w.fs.put T .dir }, .ok (pathJoin [astraDirPath w.st.svc, azureTemp])) := by
        rw [hset, hb]; rfl
      rw [Run.bind_ok hset', Run.bind_ok (getSvc_ok φ _)]
      have h1 : SameOutside (fun q => T <+: q) w.fs (w.fs.put T .dir) := .put hTne _ (List.prefix_refl _)
      have hfoot := foot_azureFiles (c := w.cwd) (S := fun p => p = w.st) (T := fun q => T <+: q) (fs0 := w.fs) hne
        (fun q hq => by rwa [hloc] at hq) w.st.svc.routes φ { w with clock := w.clock + 1, fs := w.fs.put T .dir } ⟨rfl, rfl, h1⟩
      rcases bind_stages (azureFiles (pathJoin [astraDirPath w.st.svc, azureTemp]) w.st.svc.routes) (fun _ => moveTempOutputDir azureTemp dir) φ
        { w with clock := w.clock + 1, fs := w.fs.put T .dir } with ⟨u, hok, hb⟩ | ⟨x, hx, hno, hb⟩
      · right; right
        refine ⟨_, _, hnone, rfl, Prod.ext rfl hok, hfoot.1.2.2, hfoot.1.1, hfoot.1.2.1, ?_⟩
        exact hb
      · right; left
        refine ⟨hnone, ?_, ?_, ?_, ?_⟩
        · intro u h
          refine hx u ?_
          rw [← h]
          exact (congrArg Prod.snd hb).symm
        · exact (congrArg (fun r : World Proc × Exit Unit => SameOutside (fun q => T <+: q) w.fs r.1.fs) hb).mpr hfoot.1.2.2
        · exact (congrArg (fun r : World Proc × Exit Unit => r.1.cwd) hb).trans hfoot.1.1
        · exact (congrArg (fun r : World Proc × Exit Unit => r.1.st) hb).trans hfoot.1.2.1
    · exact absurd hok (hn u)
  · left
    rcases osMkdir_cases (pathJoin [astraDirPath w.st.svc, azureTemp]) φ w T hT with ⟨h, _⟩ | ⟨_, hw⟩
    · exact absurd h (hno ())
    · rcases bind_stages (setupTempOutputDir azureTemp) (fun tempDir => getSvc >>= fun s => azureFiles tempDir s.routes >>= fun _ => moveTempOutputDir azureTemp dir) φ w
        with ⟨a, h1, _⟩ | ⟨y, hy, _, h2⟩
      · rw [hset, hb] at h1; exact absurd h1 (hx a)
      · refine ⟨?_, ?_⟩
        · intro u h
          refine hy u ?_
          rw [← h]
          exact (congrArg Prod.snd h2).symm
        · refine (congrArg Prod.fst h2).trans ?_
          show (setupTempOutputDir azureTemp φ w).1 = _
          rw [hset, hb, hw]

/-- C42, in part: whatever fails or dies at any point, the output directory (`D`) is complete and new if the function succeeds, and otherwise what is
in it was there before; nothing is changed outside it and the temporary directory. It is even untouched or absent as long as
removals are all or nothing. Missing for the full property: an interrupted removal leaves a part of the old output
(`not_azure_all_or_nothing`), and a failed run cannot be repeated (`not_azure_retry`). -/
theorem azure_replace_partial (φ : Faults) (w : World Proc) (dir : Str) (d D : FPath) (hd : DirAt w.cwd w.st.svc.workDir d)
    (hD : resolve w.cwd (pathJoin [w.st.svc.workDir, dir]) = some D) (hap : Apart (d ++ [c!".astra", c!"azure"]) D) (ht : Tree w.fs)
    (hs : ∀ r ∈ w.st.svc.routes, ∀ n, FunctionName r.handler n → '/' ∉ n) :
    ((azureGenerate dir φ w).2 = .ok () → AzureTree functionText w.st.svc.routes (azureGenerate dir φ w).1.fs D) ∧
    ((azureGenerate dir φ w).2 ≠ .ok () → Shrunk D w.fs (azureGenerate dir φ w).1.fs ∧
      (AtomicRemoval φ → Untouched D w.fs (azureGenerate dir φ w).1.fs ∨ NothingAt (azureGenerate dir φ w).1.fs D)) ∧
    ChangesOnly (fun q => d ++ [c!".astra", c!"azure"] <+: q ∨ D <+: q) w.fs (azureGenerate dir φ w).1.fs := by
  have hd := dirAt_iff.mp hd
  obtain ⟨T, hT, h⟩ := azure_cases φ w dir
  rw [hd] at hT
  rw [← hT] at hap ⊢
  have hDne : D ≠ [] := by rintro rfl; exact hap.2 List.nil_prefix
  have hTne : T ≠ [] := by rw [hT]; simp
  rcases h with ⟨h1, h2⟩ | ⟨_, h1, h2, _, _⟩ | ⟨w1, w2, hnone, hw1, hf, h2, hc, hst, he⟩
  · rw [h2]
    exact ⟨fun h => absurd h (h1 ()), fun _ => ⟨fun _ _ => Or.inl rfl, fun _ => Or.inl (fun _ _ => rfl)⟩, fun _ _ => rfl⟩
  · have hu := untouched_of_sameOutside hap h2
    exact ⟨fun h => absurd h (h1 ()), fun _ => ⟨fun q hq => Or.inl (hu q hq), fun _ => Or.inl hu⟩, fun q hq => h2 q (fun h => hq (Or.inl h))⟩
  · rw [he]
    have hu := untouched_of_sameOutside hap h2
    have hmv := move_spec φ w2 dir D (by rw [hc, hst]; exact hD)
    rw [hc, hst, hd, ← hT] at hmv
    refine ⟨fun hok => ?_, fun hno => ?_, ?_⟩
    · obtain ⟨fs1, hs1, hfs⟩ := hmv.ok hok
      have hbuilt := azureFiles_built (loc_join_plain [] _ plain_azure).1 w.st.svc.routes (fun r hr => hs r hr _ ((functionName_iff r _).mpr rfl)) [] w1 w2 hf
        (by simp)
      have hloc : locOf w1.cwd (pathJoin [astraDirPath w.st.svc, azureTemp]) = T := by
        rw [hw1]
        show locOf w.cwd _ = T
        rw [(loc_join_plain w.cwd _ plain_azure).2, loc_astra, hd, hT]; simp [azureTemp]
      rw [hloc] at hbuilt
      have h0 : AzureTree functionText [] w1.fs T := by rw [hw1]; exact azureTree_new hTne ht hnone
      obtain ⟨_, _, k3, _⟩ := hbuilt h0
      intro rest node
      rw [hfs, FS.look_move _ hTne hDne, if_pos (List.prefix_append _ _), List.drop_left]
      rw [hs1 _ (fun hh => apart_not_both hap ⟨List.prefix_append _ _, hh⟩)]
      exact k3 rest node
    · obtain ⟨m1, m2, m3⟩ := hmv.fail hno
      refine ⟨fun q hq => ?_, fun ha => ?_⟩
      · rcases m2 q hq with e | e
        · exact Or.inl (e.trans (hu q hq))
        · exact Or.inr e
      · rcases m3 ha hDne with e | e
        · exact Or.inl (fun q hq => (e q hq).trans (hu q hq))
        · exact Or.inr e
    · intro q hq
      by_cases hok : (moveTempOutputDir azureTemp dir φ w2).2 = .ok ()
      · obtain ⟨fs1, hs1, hfs⟩ := hmv.ok hok
        rw [hfs, FS.look_move _ hTne hDne, if_neg (fun h => hq (Or.inr h)), if_neg (fun h => hq (Or.inl h)), hs1 q (fun h => hq (Or.inr h)),
          h2 q (fun h => hq (Or.inl h))]
      · rw [(hmv.fail hok).1 q (fun h => hq (Or.inr h)), h2 q (fun h => hq (Or.inl h))]

/-- Nothing is changed outside the output directory and the temporary one, and a run that succeeds leaves no temporary directory. -/
theorem azure_footprint (φ : Faults) (w : World Proc) (dir : Str) (d D : FPath) (hd : DirAt w.cwd w.st.svc.workDir d)
    (hD : resolve w.cwd (pathJoin [w.st.svc.workDir, dir]) = some D) (hap : Apart (d ++ [c!".astra", c!"azure"]) D) :
    SameOutside (fun q => d ++ [c!".astra", c!"azure"] <+: q ∨ D <+: q) w.fs (azureGenerate dir φ w).1.fs ∧
    ((azureGenerate dir φ w).2 = .ok () → NothingAt (azureGenerate dir φ w).1.fs (d ++ [c!".astra", c!"azure"])) := by
  have hd := dirAt_iff.mp hd
  obtain ⟨T, hT, h⟩ := azure_cases φ w dir
  rw [hd] at hT
  rw [← hT] at hap ⊢
  have hDne : D ≠ [] := by rintro rfl; exact hap.2 List.nil_prefix
  have hTne : T ≠ [] := by rw [hT]; simp
  rcases h with ⟨h1, h2⟩ | ⟨_, h1, h2, _, _⟩ | ⟨w1, w2, hnone, hw1, hf, h2, hc, hst, he⟩
  · rw [h2]
    exact ⟨fun _ _ => rfl, fun h => absurd h (h1 ())⟩
  · exact ⟨fun q hq => h2 q (fun h => hq (Or.inl h)), fun h => absurd h (h1 ())⟩
  · rw [he]
    have hmv := move_spec φ w2 dir D (by rw [hc, hst]; exact hD)
    rw [hc, hst, hd, ← hT] at hmv
    refine ⟨fun q hq => ?_, fun hok q hq => ?_⟩
    · by_cases hok : (moveTempOutputDir azureTemp dir φ w2).2 = .ok ()
      · obtain ⟨fs1, hs1, hfs⟩ := hmv.ok hok
        rw [hfs, FS.look_move _ hTne hDne, if_neg (fun h => hq (Or.inr h)), if_neg (fun h => hq (Or.inl h)), hs1 q (fun h => hq (Or.inr h)),
          h2 q (fun h => hq (Or.inl h))]
      · rw [(hmv.fail hok).1 q (fun h => hq (Or.inr h)), h2 q (fun h => hq (Or.inl h))]
    · obtain ⟨fs1, hs1, hfs⟩ := hmv.ok hok
      rw [hfs, FS.look_move _ hTne hDne, if_neg (fun h => apart_not_both hap ⟨hq, h⟩), if_pos hq]

/-- C42: the function never succeeds if two routes have functions of the same name, so no output is lost unseen. -/
theorem azure_names_distinct (φ : Faults) (w : World Proc) (dir : Str) (d : FPath) (hd : DirAt w.cwd w.st.svc.workDir d) (ht : Tree w.fs)
    (hs : ∀ r ∈ w.st.svc.routes, ∀ n, FunctionName r.handler n → '/' ∉ n) (hok : (azureGenerate dir φ w).2 = .ok ()) :
    w.st.svc.routes.Pairwise (fun r r' => ∀ n, FunctionName r.handler n → ¬ FunctionName r'.handler n) := by
  have hd := dirAt_iff.mp hd
  obtain ⟨T, hT, h⟩ := azure_cases φ w dir
  have hTne : T ≠ [] := by rw [hT]; simp
  rcases h with ⟨h1, _⟩ | ⟨_, h1, _⟩ | ⟨w1, w2, hnone, hw1, hf, _⟩
  · exact absurd hok (h1 ())
  · exact absurd hok (h1 ())
  · have hbuilt := azureFiles_built (loc_join_plain [] _ plain_azure).1 w.st.svc.routes (fun r hr => hs r hr _ ((functionName_iff r _).mpr rfl)) [] w1 w2 hf
      (by simp)
    have hloc : locOf w1.cwd (pathJoin [astraDirPath w.st.svc, azureTemp]) = T := by
      rw [hw1]
      show locOf w.cwd _ = T
      rw [(loc_join_plain w.cwd _ plain_azure).2, loc_astra, hT]; simp [azureTemp]
    rw [hloc] at hbuilt
    have h0 : AzureTree functionText [] w1.fs T := by rw [hw1]; exact azureTree_new hTne ht hnone
    have k4 := (hbuilt h0).2.2.2
    simp only [List.nil_append, List.nodup_iff_pairwise_ne, List.pairwise_map] at k4
    refine k4.imp (fun hne n h1 h2 => hne ?_)
    rw [functionName_iff] at h1 h2
    rw [h1, h2]

/-! ### Success -/

theorem azureTree_absent {done : List Route} {fs : FS} {d : FPath} (hb : AzureTree functionText done fs d) {r : Route}
    (hnew : azureName r ∉ done.map azureName) : fs.look (d ++ [azureName r]) = none := by
  cases hl : fs.look (d ++ [azureName r]) with
  | none => rfl
  | some node =>
    rcases (hb _ node).mp hl with ⟨h, _⟩ | ⟨r', hr', n, hn', ⟨h, _⟩ | ⟨h, _⟩⟩
    · cases h
    · rw [functionName_iff] at hn'
      simp only [List.cons.injEq, and_true] at h
      exact absurd (List.mem_map.mpr ⟨r', hr', by rw [hn', h]⟩) hnew
    · cases h

theorem azureFiles_succeeds {temp : Str} (hne : temp ≠ []) (rs : List Route) : ∀ (done : List Route) (w : World Proc),
    AzureTree functionText done w.fs (locOf w.cwd temp) → ((done ++ rs).map azureName).Nodup →
    (∀ r ∈ rs, azureName r ≠ [] ∧ '/' ∉ azureName r) → ∃ w', azureFiles temp rs noFaults w = (w', .ok ()) := by
  induction rs with
  | nil => intro done w _ _ _; exact ⟨w, rfl⟩
  | cons r rs ih =>
    intro done w hb hnd hp
    obtain ⟨h1, h2⟩ := hp r List.mem_cons_self
    have hnew : azureName r ∉ done.map azureName := by
      rw [List.map_append, List.nodup_append] at hnd
      exact fun hm => hnd.2.2 _ hm (azureName r) (by simp) rfl
    obtain ⟨l, _, e1, e2, e3⟩ := resolve_function w.cwd hne r
    have e3 := e3 h2
    rw [if_neg h1] at e3
    subst e3
    have hdir := (hb [] .dir).mpr (Or.inl ⟨rfl, rfl⟩)
    rw [List.append_nil] at hdir
    have m1 := osMkdir_ok (φ := noFaults) (w := w) rfl e1 (by rw [List.dropLast_concat]; exact hdir) (azureTree_absent hb hnew)
    have hnone : w.fs.look (locOf w.cwd temp ++ [azureName r, c!"function.json"]) = none := by
      cases hl : w.fs.look (locOf w.cwd temp ++ [azureName r, c!"function.json"]) with
      | none => rfl
      | some node =>
        rcases (hb _ node).mp hl with ⟨h, _⟩ | ⟨r', hr', n, hn', ⟨h, _⟩ | ⟨h, _⟩⟩
        · cases h
        · simp at h
        · rw [functionName_iff] at hn'
          simp only [List.cons.injEq, and_true] at h
          exact absurd (List.mem_map.mpr ⟨r', hr', by rw [hn', h]⟩) hnew
    have m2 := osWriteFile_ok (φ := noFaults) (w := { w with clock := w.clock + 1, fs := w.fs.put (locOf w.cwd temp ++ [azureName r]) .dir })
      (c := marshalIndent (azureDocument r)) rfl rfl (q := locOf w.cwd temp ++ [azureName r, c!"function.json"]) e2
      (by
        show (w.fs.put (locOf w.cwd temp ++ [azureName r]) .dir).look _ = _
        rw [show locOf w.cwd temp ++ [azureName r, c!"function.json"] = (locOf w.cwd temp ++ [azureName r]) ++ [c!"function.json"] by simp,
          List.dropLast_concat, FS.look_put _ (by simp), if_pos rfl])
      (by
        show (w.fs.put (locOf w.cwd temp ++ [azureName r]) .dir).look _ ≠ _
        rw [FS.look_put _ (by simp), if_neg (by simp), hnone]; simp)
    unfold azureFiles
    rw [Run.bind_ok m1, Run.bind_ok m2]
    exact ih (done ++ [r]) _ (azureTree_add hb r hnew) (by simpa using hnd) (fun x hx => hp x (List.mem_cons_of_mem _ hx))

/-- Everything above a directory is a directory. -/
theorem dir_above {fs : FS} (ht : Tree fs) {q r : FPath} (hq : fs.look q ≠ none) (h : r <+: q) (hne : r ≠ q) : fs.look r = some .dir := by
  cases hl : fs.look r with
  | none => exact absurd (ht.none_below (by rw [hl]; simp) h hne) hq
  | some n =>
    cases n with
    | dir => rfl
    | file t => exact absurd (ht.none_below (by rw [hl]; simp) h hne) hq

theorem absent_noent {fs : FS} (ht : Tree fs) {q : FPath} (hp : fs.look q.dropLast = some .dir) : fs.absent q = .noent := by
  unfold FS.absent
  rw [if_neg]
  intro h
  obtain ⟨k, hk, hf⟩ := List.any_eq_true.mp h
  rw [List.mem_range] at hk
  rw [FS.isFile_iff] at hf
  obtain ⟨t, hf⟩ := hf
  have hpre : q.take k <+: q.dropLast := prefix_dropLast (List.take_prefix _ _) (by
    intro e
    have := congrArg List.length e
    rw [List.length_take] at this
    omega)
  by_cases e : q.take k = q.dropLast
  · rw [e, hp] at hf; cases hf
  · have := dir_above ht (by rw [hp]; simp) hpre e
    rw [this] at hf; cases hf

theorem move_succeeds (w : World Proc) (dir : Str) (D : FPath) (ht : Tree w.fs)
    (hD : resolve w.cwd (pathJoin [w.st.svc.workDir, dir]) = some D) (hdot : pathJoin [w.st.svc.workDir, dir] ≠ c!".")
    (hap : Apart (locOf w.cwd w.st.svc.workDir ++ [c!".astra", c!"azure"]) D)
    (hT : w.fs.look (locOf w.cwd w.st.svc.workDir ++ [c!".astra", c!"azure"]) = some .dir) (hp : w.fs.look D.dropLast = some .dir) :
    (moveTempOutputDir azureTemp dir noFaults w).2 = .ok () := by
  have hDne : D ≠ [] := by rintro rfl; exact hap.2 List.nil_prefix
  have hTr := resolve_in_astra w.cwd w.st.svc plain_azure
  have hDD : ¬ D <+: D.dropLast := by
    intro h
    have := h.length_le
    rw [List.length_dropLast] at this
    have := List.length_pos_iff.mpr hDne
    omega
  have last : ∀ (fs1 : FS) (clk : Nat), SameOutside (fun q => D <+: q) w.fs fs1 → fs1.look D = none →
      (osRename (pathJoin [astraDirPath w.st.svc, azureTemp]) (pathJoin [w.st.svc.workDir, dir]) noFaults { w with clock := clk, fs := fs1 }).2 = .ok () := by
    intro fs1 clk h1 h2
    have hren : ∃ fs2, fs1.rename (locOf w.cwd w.st.svc.workDir ++ [c!".astra", c!"azure"]) D = .ok fs2 := by
      unfold FS.rename FS.stat
      rw [h1 _ (fun h => hap.2 h), hT]
      simp only [FS.parent_ok (show fs1.look D.dropLast = some .dir by rw [h1 _ hDD]; exact hp), h2]
      rw [if_neg (by rw [List.isPrefixOf_iff_prefix]; exact hap.1)]
      exact ⟨_, rfl⟩
    obtain ⟨fs2, hren⟩ := hren
    unfold osRename Run.call
    have hTr' : resolve w.cwd (pathJoin [astraDirPath w.st.svc, azureTemp]) = some (locOf w.cwd w.st.svc.workDir ++ [c!".astra", c!"azure"]) := hTr
    simp only [hD, hTr', noFaults, writing, hren]
  unfold moveTempOutputDir
  rw [Run.bind_ok (getSvc_ok noFaults w)]
  cases hl : w.fs.look D with
  | some n =>
    rw [Run.bind_ok (Run.try_ok (osStat_ok (w := w) (φ := noFaults) rfl hD hl))]
    have : isNotExist (.ok n) = false := rfl
    simp only [this, Bool.false_eq_true, if_false]
    rw [Run.bind_ok (osRemoveAll_ok (w := { w with clock := w.clock + 1 }) (φ := noFaults) rfl hD hdot hl)]
    refine last (w.fs.del D) (w.clock + 1 + 1) (.del (fun _ h => h)) ?_
    rw [FS.look_del, if_pos ⟨List.prefix_refl _, hDne⟩]
  | none =>
    rw [Run.bind_ok (Run.try_err (osStat_err (w := w) (φ := noFaults) rfl hD hl)), absent_noent ht hp]
    exact last w.fs (w.clock + 1) (.refl _ _) hl

/-- What a run of the Azure output needs: .astra is a directory without leftovers, the parent of the output directory exists, and the
functions have proper names that are all different. -/
structure AzureReady (w : World Proc) (dir : Str) (d D : FPath) : Prop where
  work : DirAt w.cwd w.st.svc.workDir d
  out : resolve w.cwd (pathJoin [w.st.svc.workDir, dir]) = some D
  notDot : pathJoin [w.st.svc.workDir, dir] ≠ c!"."
  apart : Apart (d ++ [c!".astra", c!"azure"]) D
  tree : Tree w.fs
  astra : w.fs.look (d ++ [c!".astra"]) = some .dir
  fresh : w.fs.look (d ++ [c!".astra", c!"azure"]) = none
  parent : w.fs.look D.dropLast = some .dir
  plain : ∀ r ∈ w.st.svc.routes, ∀ n, FunctionName r.handler n → n ≠ [] ∧ '/' ∉ n
  distinct : w.st.svc.routes.Pairwise (fun r r' => ∀ n, FunctionName r.handler n → ¬ FunctionName r'.handler n)

/-- C42: without failures from outside, such a run succeeds, with the complete output. -/
theorem azure_succeeds (w : World Proc) (dir : Str) (d D : FPath) (h : AzureReady w dir d D) :
    (azureGenerate dir noFaults w).2 = .ok () ∧ AzureTree functionText w.st.svc.routes (azureGenerate dir noFaults w).1.fs D := by
  have hd := dirAt_iff.mp h.work
  have key : (azureGenerate dir noFaults w).2 = .ok () := by
    obtain ⟨_, hout, hdot, hap, ht, hA, hT, hp, hplain, hdist⟩ := h
    subst hd
    have hTne : locOf w.cwd w.st.svc.workDir ++ [c!".astra", c!"azure"] ≠ [] := by simp
    have hne : pathJoin [astraDirPath w.st.svc, azureTemp] ≠ [] := (loc_join_plain [] _ plain_azure).1
    have hTr := resolve_in_astra w.cwd w.st.svc plain_azure
    have hloc : locOf w.cwd (pathJoin [astraDirPath w.st.svc, azureTemp]) = locOf w.cwd w.st.svc.workDir ++ [c!".astra", c!"azure"] := by
      rw [(loc_join_plain w.cwd _ plain_azure).2, loc_astra]; simp [azureTemp]
    have m1 := osMkdir_ok (φ := noFaults) (w := w) rfl hTr
      (by
        rw [show locOf w.cwd w.st.svc.workDir ++ [c!".astra", azureTemp] = (locOf w.cwd w.st.svc.workDir ++ [c!".astra"]) ++ [azureTemp] by simp,
          List.dropLast_concat]
        exact hA) hT
    have hset : setupTempOutputDir azureTemp noFaults w =
        ({ w with clock := w.clock + 1, fs := w.fs.put (locOf w.cwd w.st.svc.workDir ++ [c!".astra", c!"azure"]) .dir }, .ok (pathJoin [astraDirPath w.st.svc, azureTemp])) := by
      unfold setupTempOutputDir
      rw [Run.bind_ok (getSvc_ok _ w), Run.bind_ok m1]
      rfl
    have hnew := azureTree_new hTne ht hT
    have hnd : (w.st.svc.routes.map azureName).Nodup := by
      rw [List.nodup_iff_pairwise_ne, List.pairwise_map]
      refine hdist.imp (fun hh e => ?_)
      exact hh _ ((functionName_iff _ _).mpr rfl) ((functionName_iff _ _).mpr e.symm)
    have hpl : ∀ r ∈ w.st.svc.routes, azureName r ≠ [] ∧ '/' ∉ azureName r := fun r hr => hplain r hr _ ((functionName_iff r _).mpr rfl)
    obtain ⟨w2, hw2⟩ := azureFiles_succeeds hne w.st.svc.routes []
      { w with clock := w.clock + 1, fs := w.fs.put (locOf w.cwd w.st.svc.workDir ++ [c!".astra", c!"azure"]) .dir }
      (by show AzureTree _ _ _ (locOf w.cwd _); rw [hloc]; exact hnew) (by simpa using hnd) hpl
    have hfoot := foot_azureFiles (c := w.cwd) (S := fun p => p = w.st) (T := fun q => locOf w.cwd w.st.svc.workDir ++ [c!".astra", c!"azure"] <+: q) (fs0 := w.fs) hne
        (fun q hq => by rwa [hloc] at hq) w.st.svc.routes noFaults _ (⟨rfl, rfl, .put hTne _ (List.prefix_refl _)⟩ :
          Inv w.cwd (fun p => p = w.st) (SameOutside (fun q => locOf w.cwd w.st.svc.workDir ++ [c!".astra", c!"azure"] <+: q) w.fs)
          { w with clock := w.clock + 1, fs := w.fs.put (locOf w.cwd w.st.svc.workDir ++ [c!".astra", c!"azure"]) .dir })
    rw [hw2] at hfoot
    obtain ⟨⟨hc, hst, hso⟩, _⟩ := hfoot
    have hc : w2.cwd = w.cwd := hc
    have hst : w2.st = w.st := hst
    have hso : SameOutside (fun q => locOf w.cwd w.st.svc.workDir ++ [c!".astra", c!"azure"] <+: q) w.fs w2.fs := hso
    have hbuilt := azureFiles_built hne w.st.svc.routes (fun r hr => (hpl r hr).2) [] _ w2 hw2 (by simp)
      (by show AzureTree _ _ _ (locOf w.cwd _); rw [hloc]; exact hnew)
    have htree : Tree w2.fs := by
      have hA' : w.fs.look (locOf w.cwd w.st.svc.workDir ++ [c!".astra", c!"azure"]).dropLast = some .dir := by
        rw [show locOf w.cwd w.st.svc.workDir ++ [c!".astra", c!"azure"] = (locOf w.cwd w.st.svc.workDir ++ [c!".astra"]) ++ [c!"azure"] by simp,
          List.dropLast_concat]
        exact hA
      have hk : Keeps (Inv w.cwd (fun _ : Proc => True) Tree) anyVal (azureFiles (pathJoin [astraDirPath w.st.svc, azureTemp]) w.st.svc.routes) := by
        generalize w.st.svc.routes = rs
        induction rs with
        | nil => exact Keeps.pure trivial
        | cons r rs ih =>
          unfold azureFiles
          exact Keeps.seq (keepsIO_mkdir closed_tree) (fun _ => Keeps.seq (keepsIO_writeFile closed_tree) (fun _ => ih))
      have := (hk noFaults { w with clock := w.clock + 1, fs := w.fs.put (locOf w.cwd w.st.svc.workDir ++ [c!".astra", c!"azure"]) .dir }
        ⟨rfl, trivial, ht.put hTne hA' (Or.inl rfl)⟩).1.2.2
      rw [hw2] at this
      exact this
    have hTD : ¬ locOf w.cwd w.st.svc.workDir ++ [c!".astra", c!"azure"] <+: D.dropLast := fun hh => hap.1 (hh.trans (List.dropLast_prefix _))
    have hmv := move_succeeds w2 dir D htree (by rw [hc, hst]; exact hout) (by rw [hst]; exact hdot) (by rw [hc, hst]; exact hap)
      (by
        rw [hc, hst]
        have := (hbuilt.2.2.1 [] .dir).mpr (Or.inl ⟨rfl, rfl⟩)
        rw [List.append_nil] at this
        have h' : w2.fs.look (locOf w.cwd (pathJoin [astraDirPath w.st.svc, azureTemp])) = some .dir := this
        rwa [hloc] at h')
      (by rw [hso _ hTD]; exact hp)
    unfold azureGenerate
    rw [Run.bind_ok hset, Run.bind_ok (getSvc_ok _ _)]
    rw [Run.bind_ok hw2]
    exact hmv
  exact ⟨key, (azure_replace_partial noFaults w dir d D h.work h.out h.apart h.tree (fun r hr n hn => (h.plain r hr n hn).2)).1 key⟩

/-! ### Running again -/

/-- The run keeps proper file trees. -/
theorem azure_tree (φ : Faults) (w : World Proc) (dir : Str) (ht : Tree w.fs) :
    Tree (azureGenerate dir φ w).1.fs ∧ (azureGenerate dir φ w).1.cwd = w.cwd ∧ (azureGenerate dir φ w).1.st = w.st := by
  have hk : Keeps (Inv w.cwd (fun p => p = w.st) Tree) anyVal (azureGenerate dir) := by
    unfold azureGenerate setupTempOutputDir moveTempOutputDir
    refine Keeps.seq (A := anyVal) (Keeps.seq keepsIO_getSvc (fun s => Keeps.seq (keepsIO_mkdir closed_tree) (fun _ => Keeps.pure trivial))) (fun temp => ?_)
    refine Keeps.seq keepsIO_getSvc (fun s => Keeps.seq (A := anyVal) ?_ (fun _ => ?_))
    · generalize s.routes = rs
      induction rs with
      | nil => exact Keeps.pure trivial
      | cons r rs ih =>
        unfold azureFiles
        exact Keeps.seq (keepsIO_mkdir closed_tree) (fun _ => Keeps.seq (keepsIO_writeFile closed_tree) (fun _ => ih))
    · refine Keeps.seq keepsIO_getSvc (fun s => Keeps.seq (Keeps.try' keepsIO_stat) (fun st => Keeps.seq (A := anyVal) ?_ (fun _ => keepsIO_rename closed_tree)))
      split
      · exact Keeps.pure trivial
      · exact keepsIO_removeAll closed_tree
  have := (hk φ w ⟨rfl, rfl, ht⟩).1
  exact ⟨this.2.2, this.1, this.2.1⟩

/-- C42, in part: after any failure, removing the leftovers of the temporary directory is enough to run again, with the complete output. Missing for
the full property: that this removal is not necessary. -/
theorem azure_retry_partial (φ : Faults) (w : World Proc) (dir : Str) (d D : FPath) (h : AzureReady w dir d D) :
    let w' := (azureGenerate dir φ w).1
    let w'' := { w' with fs := w'.fs.del (d ++ [c!".astra", c!"azure"]) }
    (azureGenerate dir noFaults w'').2 = .ok () ∧ AzureTree functionText w.st.svc.routes (azureGenerate dir noFaults w'').1.fs D := by
  intro w' w''
  obtain ⟨t1, t2, t3⟩ := azure_tree φ w dir h.tree
  obtain ⟨_, _, hch⟩ := azure_replace_partial φ w dir d D h.work h.out h.apart h.tree (fun r hr n hn => (h.plain r hr n hn).2)
  have hTne : d ++ [c!".astra", c!"azure"] ≠ [] := by simp
  have hDne : D ≠ [] := by rintro e; have := h.apart.2; rw [e] at this; exact this List.nil_prefix
  have keepOutside : ∀ q, ¬ d ++ [c!".astra", c!"azure"] <+: q → ¬ D <+: q → w''.fs.look q = w.fs.look q := by
    intro q h1 h2
    show ((azureGenerate dir φ w).1.fs.del _).look q = _
    rw [FS.look_del, if_neg (fun hh => h1 hh.1), hch q (fun hh => hh.elim h1 h2)]
  have hc : w''.cwd = w.cwd := t2
  have hst : w''.st = w.st := t3
  have hready : AzureReady w'' dir d D := by
    refine ⟨by rw [hc, hst]; exact h.work, by rw [hc, hst]; exact h.out, by rw [hst]; exact h.notDot, h.apart, t1.del _, ?_, ?_, ?_, ?_, ?_⟩
    · rw [keepOutside _ (by
        intro hh
        have := hh.length_le
        simp at this) (fun hh => h.apart.2 (hh.trans ⟨[c!"azure"], by simp⟩))]
      exact h.astra
    · show ((azureGenerate dir φ w).1.fs.del _).look _ = _
      rw [FS.look_del, if_pos ⟨List.prefix_refl _, hTne⟩]
    · rw [keepOutside _ (fun hh => h.apart.1 (hh.trans (List.dropLast_prefix _))) (by
        intro hh
        have := hh.length_le
        rw [List.length_dropLast] at this
        have := List.length_pos_iff.mpr hDne
        omega)]
      exact h.parent
    · rw [hst]; exact h.plain
    · rw [hst]; exact h.distinct
  have := azure_succeeds w'' dir d D hready
  rwa [hst] at this

/-- A leftover of the temporary directory stops every run before it changes anything. -/
theorem azure_blocked (φ : Faults) (w : World Proc) (dir : Str) (d : FPath) (hd : DirAt w.cwd w.st.svc.workDir d)
    (hT : w.fs.look (d ++ [c!".astra", c!"azure"]) ≠ none) :
    (azureGenerate dir φ w).2 ≠ .ok () ∧ (azureGenerate dir φ w).1.fs = w.fs := by
  have hd := dirAt_iff.mp hd
  obtain ⟨T, e, h⟩ := azure_cases φ w dir
  rw [hd] at e
  rw [← e] at hT
  rcases h with ⟨h1, h2⟩ | ⟨h1, _⟩ | ⟨_, _, h1, _⟩
  · exact ⟨h1 (), by rw [h2]⟩
  · exact absurd h1 hT
  · exact absurd h1 hT

/-- A project with an old output and two routes. -/
def azureWorld : World Proc :=
  { fs := [([c!"w"], .dir), ([c!"w", c!".astra"], .dir), ([c!"w", c!"out"], .dir), ([c!"w", c!"out", c!"old"], .dir),
      ([c!"w", c!"out", c!"old", c!"function.json"], .file c!"{}")]
    cwd := [c!"w"]
    st := { svc := { newService [.workDir c!"/w"] with routes := [
      { handler := c!"main.Get", file := c!"/w/main.go", lineNo := 1, method := c!"GET", path := c!"/a" },
      { handler := c!"main.Post", file := c!"/w/main.go", lineNo := 2, method := c!"POST", path := c!"/a" }] } } }

theorem azureWorld_tree : Tree azureWorld.fs := by
  intro q hq hl
  rw [FS.look, if_neg hq, FS.get_mem_iff] at hl
  obtain ⟨e, he, rfl⟩ := hl
  have : ∀ e ∈ azureWorld.fs, azureWorld.fs.look e.1.dropLast = some .dir := by decide
  exact this e he

/-- Non-vacuity: the hypotheses hold in a concrete world, with an output directory that exists. -/
theorem azureWorld_ready : AzureReady azureWorld c!"out" [c!"w"] [c!"w", c!"out"] where
  work := Or.inr (by decide)
  out := by decide
  notDot := by decide
  apart := ⟨by decide, by decide⟩
  tree := azureWorld_tree
  astra := by decide
  fresh := by decide
  parent := by decide
  plain := by
    intro r hr n hn
    rw [functionName_iff] at hn
    subst hn
    exact (by decide : ∀ r ∈ azureWorld.st.svc.routes, azureName r ≠ [] ∧ '/' ∉ azureName r) r hr
  distinct := by
    have : azureWorld.st.svc.routes.Pairwise (fun r r' => azureName r ≠ azureName r') := by decide
    refine this.imp (fun h n h1 h2 => h ?_)
    rw [functionName_iff] at h1 h2
    rw [h1, h2]

/-- Non-vacuity: what such a run leaves. -/
example : (azureGenerate c!"out" noFaults azureWorld).1.fs.look [c!"w", c!"out", c!"Post"] = some .dir ∧
    (azureGenerate c!"out" noFaults azureWorld).1.fs.look [c!"w", c!"out", c!"old"] = none := by decide +kernel

/-- C42, negation: a crash during the removal of the old output leaves a part of it. -/
theorem not_azure_all_or_nothing :
    let φ : Faults := fun n => if n = 8 then .crash 0 (fun q => decide (q = [c!"w", c!"out", c!"old"])) else .none
    let w' := (azureGenerate c!"out" φ azureWorld).1
    w'.fs.look [c!"w", c!"out", c!"old"] = some .dir ∧ w'.fs.look [c!"w", c!"out", c!"old", c!"function.json"] = none ∧
    w'.fs.look [c!"w", c!"out", c!"Get"] = none := by decide +kernel

/-- C42, negation: a run that fails once cannot be repeated, even if nothing fails any more. -/
theorem not_azure_retry :
    let φ : Faults := fun n => if n = 1 then .fail 0 (fun _ => true) else .none
    let w' := (azureGenerate c!"out" φ azureWorld).1
    (azureGenerate c!"out" φ azureWorld).2 ≠ .ok () ∧ (azureGenerate c!"out" noFaults w').2 = .err (.errno .exist) := by decide +kernel

/-- C42, negation: the same happens without any failure from outside if two handlers have the same name in different packages; the old output
stays and no later run can succeed. -/
theorem not_azure_same_name :
    let w : World Proc := { azureWorld with st := { svc := { azureWorld.st.svc with routes := [
      { handler := c!"a.Get", file := [], lineNo := 1, method := c!"GET", path := c!"/a" },
      { handler := c!"b.Get", file := [], lineNo := 2, method := c!"GET", path := c!"/b" }] } } }
    (azureGenerate c!"out" noFaults w).2 = .err (.errno .exist) ∧
    (azureGenerate c!"out" noFaults w).1.fs.look [c!"w", c!".astra", c!"azure"] = some .dir := by decide +kernel

/-- C42, negation outside the assumption on the directories: the working directory itself as output directory deletes the whole project. -/
theorem azure_deletes_project :
    (azureGenerate c!"." noFaults azureWorld).2 ≠ .ok () ∧ ∀ e ∈ azureWorld.fs, (azureGenerate c!"." noFaults azureWorld).1.fs.look e.1 = none := by
  decide +kernel

/-! ### The files -/

/-- C42: the file of a function is a JSON text with a trigger binding for the method of the route (and OPTIONS) and its path, and an output
binding. -/
theorem function_file (r : Route) (h : convertRoute r ≠ []) : JsonText (functionText r) (.obj [(c!"bindings", .arr [
    .obj [(c!"type", .str c!"httpTrigger"), (c!"direction", .str c!"in"), (c!"name", .str c!"req"),
      (c!"methods", .arr [.str (r.method.map Char.toLower), .str c!"options"]), (c!"route", .str (convertRoute r))],
    .obj [(c!"type", .str c!"http"), (c!"direction", .str c!"out"), (c!"name", .str c!"res")]])]) := by
  have e : azureDocument r = .obj [(c!"bindings", .arr [
    .obj [(c!"type", .str c!"httpTrigger"), (c!"direction", .str c!"in"), (c!"name", .str c!"req"),
      (c!"methods", .arr [.str (r.method.map Char.toLower), .str c!"options"]), (c!"route", .str (convertRoute r))],
    .obj [(c!"type", .str c!"http"), (c!"direction", .str c!"out"), (c!"name", .str c!"res")]])] := by
    simp [azureDocument, members, isZeroJson, h]
  unfold functionText marshalIndent
  rw [← e]
  exact written_is_json true 0 _ (by rw [e]; simp [GoodJson, GoodElems, GoodMembers])

end Astra.Props
