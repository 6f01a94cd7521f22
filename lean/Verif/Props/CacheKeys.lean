/-
C98: which parts of a JSON cache file have an effect when it is loaded.
-/
import Verif.Spec.CacheKeys
import Verif.Props.Cache

namespace Astra.Props
open Astra.Spec

theorem toUpper_toNat (c : Char) : c.toUpper.toNat = if 97 ≤ c.toNat ∧ c.toNat ≤ 122 then c.toNat - 32 else c.toNat := by
  have hv : ∀ c : Char, c.toNat = c.val.toNat := fun _ => rfl
  unfold Char.toUpper
  split
  · rename_i h
    have h1 : 97 ≤ c.toNat := by have := h.1; simp [UInt32.le_iff_toNat_le] at this; exact this
    have h2 : c.toNat ≤ 122 := by have := h.2; simp [UInt32.le_iff_toNat_le] at this; exact this
    rw [if_pos ⟨h1, h2⟩]
    rw [hv] at h1 h2 ⊢
    simp only [UInt32.toNat_add, UInt32.toNat_sub]
    rw [hv]
    have e1 : 'A'.val.toNat = 65 := rfl
    have e2 : 'a'.val.toNat = 97 := rfl
    rw [e1, e2]
    omega
  · rename_i h
    rw [if_neg]
    rintro ⟨h1, h2⟩
    refine h ⟨?_, ?_⟩
    · simp [UInt32.le_iff_toNat_le]; exact h1
    · simp [UInt32.le_iff_toNat_le]; exact h2

theorem char_eq_iff (a b : Char) : a = b ↔ a.toNat = b.toNat := by
  constructor
  · rintro rfl; rfl
  · intro h; exact Char.ext (UInt32.toNat_inj.1 h)

theorem ofNat_toNat_small (n : Nat) (h : n < 0xd800) : (Char.ofNat n).toNat = n := by
  have hv : n.isValidChar := Or.inl h
  simp only [Char.ofNat, hv, dite_true]
  rfl

theorem foldChar_toNat (c : Char) : (foldChar c).toNat = if 97 ≤ c.toNat ∧ c.toNat ≤ 122 then c.toNat - 32
    else if c.toNat = 0x17f then 83 else if c.toNat = 0x212a then 75 else c.toNat := by
  have hle : ∀ a b : Char, a ≤ b ↔ a.toNat ≤ b.toNat := fun a b => by rw [Char.le_def, UInt32.le_iff_toNat_le]; rfl
  have ha : 'a'.toNat = 97 := rfl
  have hz : 'z'.toNat = 122 := rfl
  unfold foldChar
  simp only [hle, ha, hz]
  split
  · rename_i h; rw [ofNat_toNat_small _ (by omega)]
  · split
    · rfl
    · split
      · rfl
      · rfl

theorem foldChar_eq_iff (a b : Char) : foldChar a = foldChar b ↔ SameLetter a b := by
  have e1 : (Char.ofNat 0x17f).toNat = 0x17f := rfl
  have e2 : (Char.ofNat 0x212a).toNat = 0x212a := rfl
  have es : 's'.toNat = 115 := rfl
  have eS : 'S'.toNat = 83 := rfl
  have ek : 'k'.toNat = 107 := rfl
  have eK : 'K'.toNat = 75 := rfl
  simp only [SameLetter, List.mem_cons, List.not_mem_nil, or_false, char_eq_iff, foldChar_toNat, toUpper_toNat, e1, e2, es, eS, ek, eK]
  repeat' split
  all_goals omega

theorem foldKey_eq_iff (a b : Str) : foldKey a = foldKey b ↔ SameKeyUpToCase a b := by
  induction a generalizing b with
  | nil =>
    cases b with
    | nil => exact ⟨fun _ => ⟨rfl, fun i x y h => by simp at h⟩, fun _ => rfl⟩
    | cons y b => exact ⟨fun h => by simp [foldKey] at h, fun h => by have := h.1; simp at this⟩
  | cons x a ih =>
    cases b with
    | nil => exact ⟨fun h => by simp [foldKey] at h, fun h => by have := h.1; simp at this⟩
    | cons y b =>
      have hs : foldKey (x :: a) = foldKey (y :: b) ↔ foldChar x = foldChar y ∧ foldKey a = foldKey b := by simp [foldKey]
      rw [hs, foldChar_eq_iff, ih]
      constructor
      · rintro ⟨h1, h2, h3⟩
        refine ⟨by simp [h2], ?_⟩
        intro i p q hp hq
        cases i with
        | zero => simp at hp hq; subst hp; subst hq; exact h1
        | succ i => exact h3 i p q (by simpa using hp) (by simpa using hq)
      · rintro ⟨h2, h3⟩
        exact ⟨h3 0 x y rfl rfl, by simpa using h2, fun i p q hp hq => h3 (i + 1) p q (by simpa using hp) (by simpa using hq)⟩

theorem lastMember_none (ms : List (Str × Json)) (k : Str) : lastMember ms k = none ↔ ∀ e ∈ ms, ¬ SameKeyUpToCase e.1 k := by
  induction ms with
  | nil => simp [lastMember]
  | cons e ms ih =>
    obtain ⟨k', v⟩ := e
    simp only [lastMember, List.forall_mem_cons]
    cases h : lastMember ms k with
    | some w =>
      simp only [reduceCtorEq, false_iff]
      rintro ⟨_, h2⟩
      rw [ih.2 h2] at h; cases h
    | none =>
      simp only
      rw [← foldKey_eq_iff]
      by_cases hk : foldKey k' = foldKey k
      · simp [hk]
      · simp [hk]; exact fun a b h' => ih.1 h (a, b) h'

theorem lastMember_some (ms : List (Str × Json)) (k : Str) (v : Json) : lastMember ms k = some v ↔ SetTo ms k v := by
  induction ms with
  | nil => simp [lastMember, SetTo]
  | cons e ms ih =>
    obtain ⟨k', v'⟩ := e
    simp only [lastMember]
    cases h : lastMember ms k with
    | some w =>
      simp only [Option.some.injEq]
      rw [h, Option.some.injEq] at ih
      rw [ih]
      constructor
      · rintro ⟨pre, k1, post, rfl, h1, h2⟩
        exact ⟨(k', v') :: pre, k1, post, rfl, h1, h2⟩
      · rintro ⟨pre, k1, post, he, h1, h2⟩
        cases pre with
        | nil =>
          simp only [List.nil_append, List.cons.injEq, Prod.mk.injEq] at he
          obtain ⟨_, rfl⟩ := he
          rw [(lastMember_none ms k).2 h2] at h; cases h
        | cons p pre =>
          simp only [List.cons_append, List.cons.injEq] at he
          exact ⟨pre, k1, post, he.2, h1, h2⟩
    | none =>
      have hn := (lastMember_none ms k).1 h
      simp only
      constructor
      · intro hv
        split at hv
        · rename_i hk
          cases hv
          exact ⟨[], k', ms, rfl, (foldKey_eq_iff _ _).1 hk, hn⟩
        · cases hv
      · rintro ⟨pre, k1, post, he, h1, h2⟩
        cases pre with
        | nil =>
          simp only [List.nil_append, List.cons.injEq, Prod.mk.injEq] at he
          obtain ⟨⟨rfl, rfl⟩, rfl⟩ := he
          rw [if_pos ((foldKey_eq_iff _ _).2 h1)]
        | cons p pre =>
          simp only [List.cons_append, List.cons.injEq] at he
          obtain ⟨_, rfl⟩ := he
          exact absurd h1 (hn (k1, v) (by simp))

theorem lastMember_same {keys : List Str} {ms ms' : List (Str × Json)} (h : SameSettings keys ms ms') {k : Str} (hk : k ∈ keys) :
    lastMember ms k = lastMember ms' k := by
  cases h1 : lastMember ms k with
  | some v => exact ((lastMember_some ms' k v).2 ((h k hk v).1 ((lastMember_some ms k v).1 h1))).symm
  | none =>
    cases h2 : lastMember ms' k with
    | none => rfl
    | some v => rw [(lastMember_some ms k v).2 ((h k hk v).2 ((lastMember_some ms' k v).1 h2))] at h1; cases h1

theorem member_same {keys : List Str} {ms ms' : List (Str × Json)} (h : SameSettings keys ms ms') {k : Str} (hk : k ∈ keys) :
    member ms k = member ms' k := by rw [member, lastMember_same h hk, member]

theorem decService_same (f64 : Str → Str) (ms ms' : List (Str × Json)) (h : SameSettings cacheKeys ms ms') :
    decService f64 (.obj ms) = decService f64 (.obj ms') := by
  simp only [decService, readObj]
  rw [member_same h (k := c!"inputs") (by simp [cacheKeys]), member_same h (k := c!"outputs") (by simp [cacheKeys]),
    member_same h (k := c!"config") (by simp [cacheKeys]), member_same h (k := c!"routes") (by simp [cacheKeys]),
    member_same h (k := c!"components") (by simp [cacheKeys]), member_same h (k := c!"custom_type_mapping") (by simp [cacheKeys])]

theorem members_agree {keys : List Str} {ms ms' : List (Str × Json)} (h : SameSettings keys ms ms') :
    ∀ k ∈ keys, member ms k = member ms' k := fun _ hk => member_same h hk

theorem decConfig_same (ms ms' : List (Str × Json)) (h : SameSettings configKeys ms ms') : decConfig (.obj ms) = decConfig (.obj ms') := by
  have hm := members_agree h
  simp only [configKeys, List.forall_mem_cons, List.not_mem_nil, false_implies, implies_true, and_true] at hm
  simp only [decConfig, readObj, hm]

theorem decRoute_same (f64 : Str → Str) (ms ms' : List (Str × Json)) (h : SameSettings routeKeys ms ms') :
    decRoute f64 (.obj ms) = decRoute f64 (.obj ms') := by
  have hm := members_agree h
  simp only [routeKeys, List.forall_mem_cons, List.not_mem_nil, false_implies, implies_true, and_true] at hm
  simp only [decRoute, readObj, hm]

theorem decStructFields_last (f64 : Str → Str) (ms : List (Str × Json)) : decStructFields f64 ms = decFieldMap f64 (member ms c!"structFields") := by
  induction ms with
  | nil => simp [decStructFields, member, lastMember, decFieldMap]
  | cons e ms ih =>
    obtain ⟨k, v⟩ := e
    simp only [decStructFields, member, lastMember]
    cases h : lastMember ms c!"structFields" with
    | some w => simp [ih, member, h]
    | none =>
      simp only [Option.isSome_none, Bool.false_eq_true, if_false]
      split
      · rfl
      · rfl

theorem decField_same (f64 : Str → Str) (ms ms' : List (Str × Json)) (h : SameSettings fieldKeys ms ms') :
    decField f64 (.obj ms) = decField f64 (.obj ms') := by
  have hm := members_agree h
  simp only [fieldKeys, List.forall_mem_cons, List.not_mem_nil, false_implies, implies_true, and_true] at hm
  simp only [decField, decFieldWith, decStructFields_last, hm]

/-- C98: two JSON files with the same settings have the same effect when they are loaded as the cache, with any outside failure: in
the loaded service and in what is returned. Other members, the order of the members, the letter case of their keys and the spacing
of the text do not count. -/
theorem load_settings_only (L : Lib) (φ : Faults) (v v' : World Proc) (p : Str) (q : FPath) (text text' : Str) (ms ms' : List (Str × Json))
    (hext : c!".json" <:+ p) (hr : resolve v.cwd p = some q) (hl : v.fs.look q = some (.file text)) (ht : decodeText text = some (.obj ms))
    (hst : v'.st = v.st) (hcwd : v'.cwd = v.cwd) (hclock : v'.clock = v.clock) (hl' : v'.fs.look q = some (.file text')) (ht' : decodeText text' = some (.obj ms'))
    (h : SameSettings cacheKeys ms ms') :
    (loadCacheFrom L p φ v).1.st = (loadCacheFrom L p φ v').1.st ∧ (loadCacheFrom L p φ v).2 = (loadCacheFrom L p φ v').2 := by
  have hd : decodeCache L p text = decodeCache L p text' := by
    have hs : hasSuffix p c!".json" = true := hasSuffix_iff.2 hext
    simp only [decodeCache, hs, if_true, ht, ht', Option.bind_some, decService_same L.f64 ms ms' h]
  obtain ⟨fs', clock', cwd', st'⟩ := v'
  obtain ⟨fs, clock, cwd, st⟩ := v
  dsimp only at hst hcwd hclock hr hl hl'
  subst hst; subst hcwd; subst hclock
  have e1 : reading FS.readFile fs q = .ok (fs, text) := by simp [reading, FS.readFile, FS.stat, hl]
  have e2 : reading FS.readFile fs' q = .ok (fs', text') := by simp [reading, FS.readFile, FS.stat, hl']
  cases hf : φ clock' with
  | none =>
    have h1 : osReadFile p φ { fs := fs, clock := clock', cwd := cwd', st := st' } = ({ fs := fs, clock := clock' + 1, cwd := cwd', st := st' }, .ok text) := by
      simp only [osReadFile, Run.call, hr, hf, e1]
    have h2 : osReadFile p φ { fs := fs', clock := clock', cwd := cwd', st := st' } = ({ fs := fs', clock := clock' + 1, cwd := cwd', st := st' }, .ok text') := by
      simp only [osReadFile, Run.call, hr, hf, e2]
    unfold loadCacheFrom
    rw [Run.bind_ok h1, Run.bind_ok h2, hd]
    cases decodeCache L p text' with
    | error e => exact ⟨rfl, rfl⟩
    | ok d => exact ⟨rfl, rfl⟩
  | fail n keep =>
    have h1 : osReadFile p φ { fs := fs, clock := clock', cwd := cwd', st := st' } = ({ fs := fs, clock := clock' + 1, cwd := cwd', st := st' }, .err (.errno .io)) := by
      simp only [osReadFile, Run.call, hr, hf, e1, atomicPart]
    have h2 : osReadFile p φ { fs := fs', clock := clock', cwd := cwd', st := st' } = ({ fs := fs', clock := clock' + 1, cwd := cwd', st := st' }, .err (.errno .io)) := by
      simp only [osReadFile, Run.call, hr, hf, e2, atomicPart]
    unfold loadCacheFrom
    rw [Run.bind_err h1, Run.bind_err h2]
    exact ⟨rfl, rfl⟩
  | crash n keep =>
    have h1 : osReadFile p φ { fs := fs, clock := clock', cwd := cwd', st := st' } = ({ fs := fs, clock := clock' + 1, cwd := cwd', st := st' }, .crash) := by
      simp only [osReadFile, Run.call, hr, hf, e1, atomicPart]
    have h2 : osReadFile p φ { fs := fs', clock := clock', cwd := cwd', st := st' } = ({ fs := fs', clock := clock' + 1, cwd := cwd', st := st' }, .crash) := by
      simp only [osReadFile, Run.call, hr, hf, e2, atomicPart]
    unfold loadCacheFrom
    rw [Run.bind_crash h1, Run.bind_crash h2]
    exact ⟨rfl, rfl⟩

/-- C98: what the file does not set is empty after loading, whatever the service held before. -/
theorem load_empties_missing (L : Lib) (φ : Faults) (v v' : World Proc) (p : Str) (q : FPath) (text : Str) (ms : List (Str × Json))
    (hext : c!".json" <:+ p) (hr : resolve v.cwd p = some q) (hl : v.fs.look q = some (.file text)) (ht : decodeText text = some (.obj ms))
    (h : loadCacheFrom L p φ v = (v', .ok ())) :
    ((¬ ∃ x, SetTo ms c!"inputs" x) → v'.st.svc.inputs = []) ∧ ((¬ ∃ x, SetTo ms c!"outputs" x) → v'.st.svc.outputs = []) ∧
    ((¬ ∃ x, SetTo ms c!"config" x) → v'.st.svc.config = none) ∧ ((¬ ∃ x, SetTo ms c!"routes" x) → v'.st.svc.routes = []) ∧
    ((¬ ∃ x, SetTo ms c!"components" x) → v'.st.svc.components = []) := by
  obtain ⟨q', text', d, _, hr', hl', hd, rfl⟩ := loadCacheFrom_inv h
  rw [hr] at hr'; cases hr'
  rw [hl] at hl'; cases hl'
  have hs : hasSuffix p c!".json" = true := hasSuffix_iff.2 hext
  simp only [decodeCache, hs, if_true, ht, Option.bind_some] at hd
  have hnone : ∀ k, (¬ ∃ x, SetTo ms k x) → member ms k = .null := by
    intro k hk
    have : lastMember ms k = none := by
      cases hm : lastMember ms k with
      | none => rfl
      | some x => exact absurd ⟨x, (lastMember_some ms k x).1 hm⟩ hk
    rw [member, this]; rfl
  cases hdec : decService L.f64 (.obj ms) with
  | none => rw [hdec] at hd; cases hd
  | some d' =>
    rw [hdec] at hd
    cases hd
    simp only [decService, readObj, Option.bind_eq_bind, Option.bind_eq_some_iff, Option.pure_def, Option.some.injEq] at hdec
    obtain ⟨a1, h1, a2, h2, a3, h3, a4, h4, a5, h5, a6, h6, rfl⟩ := hdec
    refine ⟨fun hk => ?_, fun hk => ?_, fun hk => ?_, fun hk => ?_, fun hk => ?_⟩
    · rw [hnone _ hk] at h1; cases h1; rfl
    · rw [hnone _ hk] at h2; cases h2; rfl
    · rw [hnone _ hk] at h3; cases h3; rfl
    · rw [hnone _ hk] at h4; cases h4; rfl
    · rw [hnone _ hk] at h5; cases h5; rfl

/-! A cache of an older version, and the same written by hand, with another spacing and a member of a newer version. -/

def plainCache : Str := c!"{\"inputs\":[{\"mode\":\"gin\"}],\"routes\":[{\"path\":\"/a\",\"method\":\"GET\"}]}"
def fancyCache : Str := c!"{ \"future\": [1, {\"x\": null}],\n  \"ROUTES\": [ {\"path\": \"/a\", \"method\": \"GET\"} ], \"Inputs\": [{\"mode\": \"gin\"}] }\n"

def plainMembers : List (Str × Json) :=
  [(c!"inputs", .arr [.obj [(c!"mode", .str c!"gin")]]), (c!"routes", .arr [.obj [(c!"path", .str c!"/a"), (c!"method", .str c!"GET")]])]
def fancyMembers : List (Str × Json) :=
  [(c!"future", .arr [.num c!"1", .obj [(c!"x", .null)]]), (c!"ROUTES", .arr [.obj [(c!"path", .str c!"/a"), (c!"method", .str c!"GET")]]),
   (c!"Inputs", .arr [.obj [(c!"mode", .str c!"gin")]])]

/-- The hypotheses of `load_settings_only` hold for the two texts. -/
example : decodeText plainCache = some (.obj plainMembers) ∧ decodeText fancyCache = some (.obj fancyMembers) ∧
    SameSettings cacheKeys plainMembers fancyMembers := by
  refine ⟨rfl, rfl, ?_⟩
  intro k hk v
  rw [← lastMember_some, ← lastMember_some]
  simp only [cacheKeys, List.mem_cons, List.not_mem_nil, or_false] at hk
  rcases hk with rfl | rfl | rfl | rfl | rfl | rfl
  all_goals exact Iff.of_eq (congrArg (· = some v) rfl)

/-- Without routes in the file, the routes of the service are gone. -/
example : ¬ ∃ x, SetTo [(c!"inputs", .arr [])] c!"routes" x := by
  rintro ⟨x, h⟩
  rw [← lastMember_some] at h
  revert h
  simp [lastMember, foldKey, foldChar]

end Astra.Props
