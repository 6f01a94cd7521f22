/-
C38, C39: the cache is restored by loading it, and a crash while it is written never yields a wrong state.
-/
import Verif.Spec.Cache
import Verif.Spec.OutputFile
import Verif.Lemmas.Codec
import Verif.Lemmas.Json
import Verif.Lemmas.Keeps

namespace Astra.Spec

/-- `s'` has the inputs, outputs, config, routes and components of `s` (up to what a cache can carry: functions are not cached, the
order of maps is not fixed, numbers in enums are floating point numbers), and the rest of the service `base` it was loaded into. -/
structure LoadedFrom (f64 : Str → Str) (s base s' : Service) : Prop where
  inputs : Each SameInput s.inputs s'.inputs
  outputs : Each SameOutput s.outputs s'.outputs
  config : s'.config = s.config
  routes : Each (RestoredRoute f64) s.routes s'.routes
  components : Each (Restored f64) s.components s'.components
  rest : s' = { base with inputs := s'.inputs, outputs := s'.outputs, config := s'.config, routes := s'.routes, components := s'.components }

/-- What a service must satisfy to have a JSON form: its maps have no key twice and its numbers are finite. -/
structure Cacheable (s : Service) : Prop where
  maps : ∀ f ∈ serviceFields s, GoMaps f
  finite : ∀ f ∈ serviceFields s, FiniteEnums f
  conf : ∀ o ∈ s.outputs, (o.configuration.map (·.1)).Nodup
  confFinite : ∀ o ∈ s.outputs, ∀ e ∈ o.configuration, GoodJson e.2
  types : (s.maps.custom.map (·.1)).Nodup

end Astra.Spec

namespace Astra.Props
open Spec Run

theorem not_yaml_of_json {p : Str} (h : c!".json" <:+ p) : isYaml p = false := by
  have e1 : hasSuffix p c!".yaml" = false := by
    rw [← Bool.not_eq_true, hasSuffix_iff]
    intro h'
    rcases List.suffix_or_suffix_of_suffix h h' with x | x
    · exact absurd x (by decide)
    · exact absurd x (by decide)
  have e2 : hasSuffix p c!".yml" = false := by
    rw [← Bool.not_eq_true, hasSuffix_iff]
    intro h'
    rcases List.suffix_or_suffix_of_suffix h h' with x | x
    · exact absurd x (by decide)
    · exact absurd x (by decide)
  simp [isYaml, e1, e2]

theorem cacheText_json {L : Lib} {p : Str} (h : c!".json" <:+ p) (s : Service) : cacheText L p s = some (marshal (encService s)) := by
  simp [cacheText, not_yaml_of_json h]

/-- The decoded text of a cached service. -/
theorem decode_cached (L : Lib) {p : Str} (h : c!".json" <:+ p) {s : Service} (hs : Cacheable s) :
    ∃ d, decodeCache L p (marshal (encService s)) = .ok d ∧ ∀ base, LoadedFrom L.f64 s base (d.into base) := by
  obtain ⟨d, h1, h2, h3, h4, h5, h6, _⟩ := decService_enc L.f64 s hs.maps hs.conf hs.types
  refine ⟨d, ?_, fun base => ⟨?_, ?_, h4, h5, h6, rfl⟩⟩
  · unfold decodeCache
    rw [if_pos (hasSuffix_iff.mpr h)]
    have : decodeText (marshal (encService s)) = some (encService s) := decode_render false 0 _ (good_service hs.finite hs.confFinite)
    rw [this]
    show (match decService L.f64 (encService s) with
      | none => _
      | some d => _) = _
    rw [h1]
  · show Each SameInput s.inputs d.inputs
    rw [h2]
    generalize s.inputs = l
    induction l with
    | nil => exact .nil
    | cons i l ih => exact .cons rfl ih
  · have e : (d.into base).outputs = d.outputs := rfl
    rw [e]
    clear h2 h4 h5 h6 e h1
    revert h3
    generalize d.outputs = l'
    generalize s.outputs = l
    intro h3
    induction h3 with
    | nil => exact .nil
    | cons h _ ih => exact .cons h.1 ih

/-- A proper beginning of the text of a cached service is not accepted. -/
theorem decode_cut (L : Lib) {p : Str} (h : c!".json" <:+ p) {s : Service} (hs : Cacheable s) (n : Nat)
    (hn : (marshal (encService s)).take n ≠ marshal (encService s)) : ∃ e, decodeCache L p ((marshal (encService s)).take n) = .error e := by
  have : decodeText ((marshal (encService s)).take n) = none := by
    apply decode_prefix false 0 (serviceMembers s) (good_service hs.finite hs.confFinite) _ ((marshal (encService s)).drop n)
    · exact List.take_append_drop n _
    · intro e
      apply hn
      have := List.take_append_drop n (marshal (encService s))
      rw [e, List.append_nil] at this
      exact this
  unfold decodeCache
  rw [if_pos (hasSuffix_iff.mpr h), this]
  exact ⟨_, rfl⟩

/-- What is in the tree while and after the cache is written, whatever fails: below the cache path the old entry, nothing or a
beginning of the new text; elsewhere nothing changes. -/
def CacheState (q : FPath) (text : Str) (old fs : FS) : Prop :=
  SameOutside (q <+: ·) old fs ∧ (fs.look q = old.look q ∨ fs.look q = none ∨ ∃ n, fs.look q = some (.file (text.take n)))

theorem CacheState.put {q : FPath} {text : Str} {old fs : FS} (h : CacheState q text old fs) (hq : q ≠ []) (n : Nat) :
    CacheState q text old (fs.put q (.file (text.take n))) :=
  ⟨h.1.trans (SameOutside.put hq _ (List.prefix_refl q)), Or.inr (Or.inr ⟨n, by rw [FS.look_put _ hq, if_pos rfl]⟩)⟩

theorem CacheState.del {q : FPath} {text : Str} {old fs : FS} (h : CacheState q text old fs) : CacheState q text old (fs.del q) := by
  refine ⟨h.1.trans (SameOutside.del (fun _ h => h)), ?_⟩
  by_cases hq : q = []
  · subst hq; exact Or.inl (by simp)
  · exact Or.inr (Or.inl (by rw [FS.look_del, if_pos ⟨List.prefix_refl q, hq⟩]))

theorem CacheState.delPart {q : FPath} {text : Str} {old fs : FS} (h : CacheState q text old fs) (keep : FPath → Bool) :
    CacheState q text old (fs.delPart keep q) := by
  refine ⟨h.1.trans (SameOutside.delPart keep (fun _ h => h)), ?_⟩
  rcases FS.look_delPart keep fs q q with e | e
  · rw [e]; exact h.2
  · exact Or.inr (Or.inl e)

/-- Cache in a process in directory `c` whose cache path denotes `q`: the process state is unchanged, and the tree is in one of the
states above. -/
theorem cache_keeps (L : Lib) (st : Proc) (c q : FPath) (text : Str) (old : FS) (hr : resolve c (cachePathOf st.svc) = some q) (hq : q ≠ [])
    (ht : ∀ t, cacheText L (cachePathOf st.svc) st.svc = some t → t = text) :
    Keeps (Inv c (· = st) (CacheState q text old)) anyVal (cache L) := by
  unfold cache
  refine Keeps.bind (keeps_getSvc (A := (· = st.svc)) (fun p hp => by rw [hp])) ?_
  rintro s rfl
  have hclear : Keeps (Inv c (· = st) (CacheState q text old)) anyVal clearCache := by
    unfold clearCache
    refine Keeps.bind (keeps_getSvc (A := (· = st.svc)) (fun p hp => by rw [hp])) ?_
    rintro s rfl
    refine Keeps.seq (keeps_stat (A := anyVal) (fun _ _ _ _ _ _ => trivial)) (fun _ => ?_)
    refine keeps_removeAll (fun fs q' hp hr' => ?_)
    rw [hr] at hr'; cases hr'
    exact ⟨hp.del, hp.delPart⟩
  refine Keeps.seq (Keeps.try' (keeps_stat (A := anyVal) (fun _ _ _ _ _ _ => trivial))) (fun r => ?_)
  have hrest : Keeps (Inv c (· = st) (CacheState q text old)) anyVal (do
      osCreate (cachePathOf st.svc)
      match cacheText L (cachePathOf st.svc) st.svc with
      | none => Run.panic
      | some text => osWrite (cachePathOf st.svc) text) := by
    refine Keeps.seq (keeps_create (fun fs q' hp hr' _ _ _ => ?_)) (fun _ => ?_)
    · rw [hr] at hr'; cases hr'
      have := hp.put hq 0
      rwa [List.take_zero] at this
    · cases hct : cacheText L (cachePathOf st.svc) st.svc with
      | none => exact Keeps.panic
      | some t =>
        obtain rfl := ht t hct
        refine keeps_write (fun fs q' n hp hr' _ => ?_)
        rw [hr] at hr'; cases hr'
        exact hp.put hq n
  cases r with
  | error e => exact hrest
  | ok n => exact Keeps.seq hclear (fun _ => hrest)

/-- If Cache succeeds, the cache file holds the whole text. -/
theorem cache_inv {L : Lib} {φ : Faults} {w w' : World Proc} (h : cache L φ w = (w', .ok ())) :
    ∃ q text, resolve w.cwd (cachePathOf w.st.svc) = some q ∧ q ≠ [] ∧ cacheText L (cachePathOf w.st.svc) w.st.svc = some text ∧
      w'.fs.look q = some (.file text) := by
  have hk : Keeps (Inv w.cwd (· = w.st) (fun _ => True)) anyVal clearCache := by
    unfold clearCache
    refine Keeps.seq (keeps_getSvc (A := anyVal) (fun _ _ => trivial)) (fun s => ?_)
    exact Keeps.seq (keeps_stat (A := anyVal) (fun _ _ _ _ _ _ => trivial)) (fun _ => keeps_removeAll (fun _ _ _ _ => ⟨trivial, fun _ => trivial⟩))
  have hs : Keeps (Inv w.cwd (· = w.st) (fun _ => True)) anyVal (osStat (cachePathOf w.st.svc) : Prg FNode) :=
    keeps_stat (A := anyVal) (fun _ _ _ _ _ _ => trivial)
  unfold cache at h
  rw [Run.bind_ok (getSvc_ok φ w)] at h
  obtain ⟨w1, r, h1, h⟩ := Run.bind_inv h
  have hi1 : Inv w.cwd (· = w.st) (fun _ => True) w1 := by
    have := (Keeps.try' hs φ w ⟨rfl, rfl, trivial⟩).1
    rwa [h1] at this
  have fin : ∀ w2 : World Proc, Inv w.cwd (· = w.st) (fun _ => True) w2 → (do
      osCreate (cachePathOf w.st.svc)
      match cacheText L (cachePathOf w.st.svc) w.st.svc with
      | none => Run.panic
      | some text => osWrite (cachePathOf w.st.svc) text : Prg Unit) φ w2 = (w', .ok ()) → 
      ∃ q text, resolve w.cwd (cachePathOf w.st.svc) = some q ∧ q ≠ [] ∧ cacheText L (cachePathOf w.st.svc) w.st.svc = some text ∧
      w'.fs.look q = some (.file text) := by
    rintro w2 ⟨hc, _, _⟩ h
    obtain ⟨w3, _, h2, h⟩ := Run.bind_inv h
    obtain ⟨q, hr, hq, rfl⟩ := osCreate_inv h2
    cases hct : cacheText L (cachePathOf w.st.svc) w.st.svc with
    | none => rw [hct] at h; cases h
    | some text =>
      rw [hct] at h
      obtain ⟨q', hr', rfl⟩ := osWrite_inv h
      rw [hc] at hr
      have hr'' : resolve w2.cwd (cachePathOf w.st.svc) = some q' := hr'
      rw [hc, hr] at hr''
      cases hr''
      exact ⟨q, text, hr, hq, rfl, by simp only [FS.write_file (FS.isFile_put hq [])]; rw [FS.look_put _ hq, if_pos rfl]⟩
  cases r with
  | error e => exact fin w1 hi1 h
  | ok n =>
    obtain ⟨w2, _, h2, h⟩ := Run.bind_inv h
    have hi2 : Inv w.cwd (· = w.st) (fun _ => True) w2 := by
      have := (hk φ w1 hi1).1
      rwa [h2] at this
    exact fin w2 hi2 h

/-- Loading a file with a given text. -/
theorem loadCacheFrom_ok {L : Lib} {φ : Faults} {v : World Proc} {p : Str} {q : FPath} {text : Str} {d : CacheData} (hf : φ v.clock = .none)
    (hr : resolve v.cwd p = some q) (hl : v.fs.look q = some (.file text)) (hd : decodeCache L p text = .ok d) :
    loadCacheFrom L p φ v = ({ v with clock := v.clock + 1, st := { v.st with svc := d.into v.st.svc } }, .ok ()) := by
  unfold loadCacheFrom
  rw [Run.bind_ok (osReadFile_ok hf hr hl), hd]
  rfl

/-- A successful load has read and decoded the file. -/
theorem loadCacheFrom_inv {L : Lib} {φ : Faults} {v v' : World Proc} {p : Str} (h : loadCacheFrom L p φ v = (v', .ok ())) :
    ∃ q text d, φ v.clock = .none ∧ resolve v.cwd p = some q ∧ v.fs.look q = some (.file text) ∧ decodeCache L p text = .ok d ∧
      v' = { v with clock := v.clock + 1, st := { v.st with svc := d.into v.st.svc } } := by
  unfold loadCacheFrom at h
  obtain ⟨w1, text, h1, h⟩ := Run.bind_inv h
  obtain ⟨q, fs', h2, h3, h4, rfl⟩ := Run.call_inv h1
  obtain ⟨rfl, h5⟩ := reading_ok h4
  have hl : v.fs.look q = some (.file text) := by
    unfold FS.readFile FS.stat at h5
    cases hl : v.fs.look q with
    | none => rw [hl] at h5; cases h5
    | some n => rw [hl] at h5; cases n <;> cases h5; rfl
  cases hd : decodeCache L p text with
  | error e => rw [hd] at h; cases h
  | ok d =>
    rw [hd] at h
    simp only at h
    rw [modifySvc_ok] at h
    cases h
    exact ⟨q, text, d, h2, h3, hl, hd, rfl⟩

/-- C38 (partial): when Cache has succeeded with a path that ends in ".json", loading the file, in whatever process, succeeds and
restores inputs, outputs, config, routes and components. Missing: other extensions (`not_cache_round_trip`), and the loss of
integers in enums (`cache_changes_integers`). -/
theorem cache_round_trip_partial (L : Lib) (φ φ' : Faults) (w w' v : World Proc) (hs : Cacheable w.st.svc)
    (hext : c!".json" <:+ cachePathOf w.st.svc) (h : cache L φ w = (w', .ok ())) (hfs : v.fs = w'.fs) (hcwd : v.cwd = w.cwd)
    (hf : φ' v.clock = .none) :
    ∃ v', loadCacheFrom L (cachePathOf w.st.svc) φ' v = (v', .ok ()) ∧ LoadedFrom L.f64 w.st.svc v.st.svc v'.st.svc ∧ v'.fs = v.fs := by
  obtain ⟨q, text, hr, hq, ht, hl⟩ := cache_inv h
  rw [cacheText_json hext] at ht
  cases ht
  obtain ⟨d, hd, hl'⟩ := decode_cached L hext hs
  exact ⟨_, loadCacheFrom_ok hf (by rw [hcwd]; exact hr) (by rw [hfs]; exact hl) hd, hl' _, rfl⟩

/-- C38 (partial): the same for LoadCache in a process whose service has the same cache path. -/
theorem cache_round_trip_same_path_partial (L : Lib) (φ φ' : Faults) (w w' v : World Proc) (hs : Cacheable w.st.svc)
    (hext : c!".json" <:+ cachePathOf w.st.svc) (h : cache L φ w = (w', .ok ())) (hfs : v.fs = w'.fs) (hcwd : v.cwd = w.cwd)
    (hp : cachePathOf v.st.svc = cachePathOf w.st.svc) (hf : φ' v.clock = .none) (hf' : φ' (v.clock + 1) = .none) :
    ∃ v', loadCache L φ' v = (v', .ok ()) ∧ LoadedFrom L.f64 w.st.svc v.st.svc v'.st.svc ∧ v'.fs = v.fs := by
  obtain ⟨q, text, hr, hq, ht, hl⟩ := cache_inv h
  obtain ⟨v', h1, h2, h3⟩ := cache_round_trip_partial L φ φ' w w' { v with clock := v.clock + 1 } hs hext h hfs hcwd hf'
  refine ⟨v', ?_, h2, h3⟩
  unfold loadCache
  rw [Run.bind_ok (getSvc_ok φ' v), hp]
  rw [Run.bind_ok (osStat_ok hf (by rw [hcwd]; exact hr) (by rw [hfs]; exact hl))]
  exact h1

/-- C39 (partial): whatever happens during Cache — errors, a crash at any call, a partial write or removal — a later successful load
of the path restores what loading would have restored before, or the new state. Missing: YAML caches. -/
theorem cache_crash_partial (L : Lib) (φ φ' : Faults) (w v v' : World Proc) (hs : Cacheable w.st.svc)
    (hext : c!".json" <:+ cachePathOf w.st.svc) (hfs : v.fs = (cache L φ w).1.fs) (hcwd : v.cwd = w.cwd)
    (h : loadCacheFrom L (cachePathOf w.st.svc) φ' v = (v', .ok ())) :
    (loadCacheFrom L (cachePathOf w.st.svc) φ' { v with fs := w.fs } = ({ v' with fs := w.fs }, .ok ())) ∨
    LoadedFrom L.f64 w.st.svc v.st.svc v'.st.svc := by
  obtain ⟨q, text, d, hf, hr, hl, hd, rfl⟩ := loadCacheFrom_inv h
  rw [hcwd] at hr
  have hq : q ≠ [] := by rintro rfl; simp at hl
  have hk := (cache_keeps L w.st w.cwd q (marshal (encService w.st.svc)) w.fs hr hq (fun t ht => by
    rw [cacheText_json hext] at ht; exact (Option.some.inj ht).symm)) φ w ⟨rfl, rfl, .refl _ _, Or.inl rfl⟩
  rw [hfs] at hl
  obtain ⟨_, hst⟩ := hk.1.2.2
  rcases hst with e | e | ⟨n, e⟩
  · left
    exact loadCacheFrom_ok hf (by simpa [hcwd] using hr) (by rw [← e]; exact hl) hd
  · rw [e] at hl; cases hl
  · right
    rw [e] at hl
    cases hl
    by_cases hn : (marshal (encService w.st.svc)).take n = marshal (encService w.st.svc)
    · rw [hn] at hd
      obtain ⟨d', hd', hl'⟩ := decode_cached L hext hs
      rw [hd] at hd'
      cases hd'
      exact hl' _
    · obtain ⟨e', he'⟩ := decode_cut L hext hs n hn
      rw [he'] at hd; cases hd

/-- C39: Cache changes nothing but the cache path (and what is below it) and leaves the service alone, whatever happens. -/
theorem cache_footprint (L : Lib) (φ : Faults) (w : World Proc) (q : FPath) (hr : resolve w.cwd (cachePathOf w.st.svc) = some q) :
    (∀ p, ¬ q <+: p → (cache L φ w).1.fs.look p = w.fs.look p) ∧ (cache L φ w).1.st = w.st := by
  by_cases hq : q = []
  · subst hq
    refine ⟨fun p hp => absurd (List.nil_prefix) hp, ?_⟩
    have : Keeps (Inv w.cwd (· = w.st) (fun _ => True)) anyVal (cache L) := by
      unfold cache
      refine Keeps.seq (keeps_getSvc (A := anyVal) (fun _ _ => trivial)) (fun s => ?_)
      have hrest : Keeps (Inv w.cwd (· = w.st) (fun _ => True)) anyVal (do
          osCreate (cachePathOf s)
          match cacheText L (cachePathOf s) s with
          | none => Run.panic
          | some text => osWrite (cachePathOf s) text) := by
        refine Keeps.seq (keeps_create (fun _ _ _ _ _ _ _ => trivial)) (fun _ => ?_)
        cases cacheText L (cachePathOf s) s with
        | none => exact Keeps.panic
        | some t => exact keeps_write (fun _ _ _ _ _ _ => trivial)
      refine Keeps.seq (Keeps.try' (keeps_stat (A := anyVal) (fun _ _ _ _ _ _ => trivial))) (fun r => ?_)
      cases r with
      | error e => exact hrest
      | ok n =>
        refine Keeps.seq (A := anyVal) ?_ (fun _ => hrest)
        unfold clearCache
        refine Keeps.seq (keeps_getSvc (A := anyVal) (fun _ _ => trivial)) (fun s => ?_)
        exact Keeps.seq (keeps_stat (A := anyVal) (fun _ _ _ _ _ _ => trivial)) (fun _ => keeps_removeAll (fun _ _ _ _ => ⟨trivial, fun _ => trivial⟩))
    exact ((this φ w ⟨rfl, rfl, trivial⟩).1).2.1
  · have hk := (cache_keeps L w.st w.cwd q ((cacheText L (cachePathOf w.st.svc) w.st.svc).getD []) w.fs hr hq (fun t ht => by
      rw [ht]; rfl)) φ w ⟨rfl, rfl, .refl _ _, Or.inl rfl⟩
    exact ⟨fun p hp => hk.1.2.2.1 p hp, hk.1.2.1⟩

/-! ### Where the claims fail -/

/-- The full claim of C38: every service state and cache path. -/
def CacheRoundTrip : Prop :=
  ∀ (L : Lib) (w w' v : World Proc), Cacheable w.st.svc → cache L noFaults w = (w', .ok ()) → v.fs = w'.fs → v.cwd = w.cwd →
    ∃ v', loadCacheFrom L (cachePathOf w.st.svc) noFaults v = (v', .ok ()) ∧ LoadedFrom L.f64 w.st.svc v.st.svc v'.st.svc

/-- The entries of an object in a tree of values, for examples. -/
def entriesAt (j : Json) (k : Str) : List (Str × Json) :=
  match j with
  | .obj ms => match member ms k with
    | .obj es => es
    | _ => []
  | _ => []

/-- The text at a key in a tree of values, for examples. -/
def textAt (j : Json) (k : Str) : Str :=
  match j with
  | .obj ms => (readStr (member ms k)).getD []
  | _ => []

/-- A library for examples. -/
def exampleLib : Lib where
  f64 := id
  rel := fun p => .ok p
  usesMain := fun _ => false
  parse := fun _ cs r => (cs, .ok r)
  choices := { groups := id, route := fun _ => ⟨id, fun _ => id⟩ }
  yamlText := fun _ => .ok []
  yamlEnc := fun _ => []
  yamlDec := fun _ => none
  custom := fun _ => Run.pure ()

/-- A process in /w with a cache at the given path; there is a directory /w/data with a file in it. -/
def cacheWorld (path : Str) : World Proc :=
  { fs := [([c!"w"], .dir), ([c!"w", c!"data"], .dir), ([c!"w", c!"data", c!"keep"], .file c!"text")], cwd := [c!"w"]
    st := { svc := newService [.ginInput (some []), .jsonOutput c!"out", .cachePath path] } }

theorem cacheable_example (path : Str) : Cacheable (cacheWorld path).st.svc := by
  constructor
  · intro f hf; cases hf
  · intro f hf; cases hf
  · intro o ho
    simp only [cacheWorld, newService, List.foldl_cons, List.foldl_nil, Opt.apply, withGinInput, withJsonOutput, List.nil_append, List.mem_singleton] at ho
    subst ho; decide
  · intro o ho
    simp only [cacheWorld, newService, List.foldl_cons, List.foldl_nil, Opt.apply, withGinInput, withJsonOutput, List.nil_append, List.mem_singleton] at ho
    subst ho
    simp [GoodJson]
  · exact List.nodup_nil

/-- C38 does not hold in full: a cache at a path with another extension is written, but not read. -/
theorem not_cache_round_trip : ¬ CacheRoundTrip := by
  intro h
  have h1 : (cache exampleLib noFaults (cacheWorld c!"cache.txt")).2 = .ok () := by decide
  obtain ⟨v', h2, _⟩ := h exampleLib (cacheWorld c!"cache.txt") _ { (cache exampleLib noFaults (cacheWorld c!"cache.txt")).1 with clock := 0 } (cacheable_example _)
    (Prod.ext rfl h1) rfl (by decide)
  have h3 := congrArg Prod.snd h2
  revert h3
  generalize v' = v'
  have e : (loadCacheFrom exampleLib c!"cache.txt" noFaults { (cache exampleLib noFaults (cacheWorld c!"cache.txt")).1 with clock := 0 }).2 =
      .err (.msg c!"unsupported file format") := by decide
  intro h3
  have h3' : (loadCacheFrom exampleLib c!"cache.txt" noFaults { (cache exampleLib noFaults (cacheWorld c!"cache.txt")).1 with clock := 0 }).2 = .ok () := h3
  rw [e] at h3'
  cases h3'

/-- A YAML cache cannot be written at all as soon as the service has an input: yaml.v3 cannot write its functions. -/
theorem yaml_cache_fails (L : Lib) (φ : Faults) (w w' : World Proc) (hy : isYaml (cachePathOf w.st.svc) = true) (hi : w.st.svc.inputs ≠ []) :
    cache L φ w ≠ (w', .ok ()) := by
  intro h
  obtain ⟨q, text, _, _, ht, _⟩ := cache_inv h
  simp [cacheText, hy, hi] at ht

/-- LoadCache fails if there is no cache file. -/
theorem load_missing_cache (L : Lib) (w : World Proc) (q : FPath) (hr : resolve w.cwd (cachePathOf w.st.svc) = some q) (hl : w.fs.look q = none) :
    ∃ w' e, loadCache L noFaults w = (w', .err e) := by
  unfold loadCache
  rw [Run.bind_ok (getSvc_ok noFaults w), Run.bind_err (osStat_err rfl hr hl)]
  exact ⟨_, _, rfl⟩

/-- An integer enum value. -/
def intEnum : Field := { type := c!"T", enumValues := [.int 1] }

/-- C38: the integers of an enum come back as floating point numbers. -/
theorem cache_changes_integers (f64 : Str → Str) (f' : Field) (h : decField f64 (encField intEnum) = some f') : f'.enumValues ≠ intEnum.enumValues := by
  have e : decField f64 (encField intEnum) = some { type := c!"T", enumValues := [.float (f64 c!"1")] } := rfl
  rw [e] at h
  cases h
  intro h
  cases h

/-- C39: Cache with the path of a directory removes the directory with everything in it. -/
theorem cache_removes_directory : let w := cacheWorld c!"data"
    w.fs.look [c!"w", c!"data", c!"keep"] = some (.file c!"text") ∧ (cache exampleLib noFaults w).2 = .ok () ∧
    (cache exampleLib noFaults w).1.fs.look [c!"w", c!"data", c!"keep"] = none := by decide

/-- Non-vacuity: caching succeeds for a path that ends in ".json". -/
example : (cache exampleLib noFaults (cacheWorld c!"cache.json")).2 = .ok () ∧ c!".json" <:+ cachePathOf (cacheWorld c!"cache.json").st.svc ∧
    Cacheable (cacheWorld c!"cache.json").st.svc := ⟨by decide, by decide, cacheable_example _⟩

/-- Non-vacuity: a crash in the middle of the write. -/
example : (cache exampleLib (fun n => if n = 2 then .crash 5 (fun _ => false) else .none) (cacheWorld c!"cache.json")).2 = .crash ∧
    (cache exampleLib (fun n => if n = 2 then .crash 5 (fun _ => false) else .none) (cacheWorld c!"cache.json")).1.fs.look [c!"w", c!"cache.json"] =
      some (.file c!"{\"inp") := by decide

end Astra.Props
