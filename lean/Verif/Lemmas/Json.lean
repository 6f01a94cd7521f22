/-
Lemmas about the JSON text model: reading what was written, and prefixes.
-/
import Verif.Spec.Json
import Verif.Lemmas.Basic
import Verif.Lemmas.JsonNumber

namespace Astra
open Spec

theorem skipWs_of_not {c : Char} (h : isWs c = false) (cs : Str) : skipWs (c :: cs) = c :: cs := by
  simp [skipWs, h]

theorem skipWs_spaces (n : Nat) (s : Str) : skipWs (List.replicate n ' ' ++ s) = skipWs s := by
  induction n with
  | zero => simp
  | succ n ih => simp [List.replicate_succ, skipWs, isWs, ih]

theorem skipWs_newline (ind : Bool) (d : Nat) (s : Str) : skipWs (newline ind d ++ s) = skipWs s := by
  cases ind
  · simp [newline]
  · simp [newline, skipWs, isWs, skipWs_spaces]

theorem skipWs_idem (s : Str) : skipWs (skipWs s) = skipWs s := by
  induction s with
  | nil => rfl
  | cons c cs ih =>
    simp only [skipWs]
    split
    · exact ih
    · rename_i h; simp only [skipWs, h]; rfl

theorem parseValue_newline (n : Nat) (ind : Bool) (d : Nat) (s : Str) : parseValue n (newline ind d ++ s) = parseValue n s := by
  cases n with
  | zero => simp [parseValue]
  | succ n => simp only [parseValue, skipWs_newline]

theorem hexVal_hexDigit (n : Nat) (h : n < 16) : hexVal (hexDigit n) = some n := by
  have : ∀ n, n < 16 → hexVal (hexDigit n) = some n := by decide
  exact this n h

theorem char_ofNat_toNat (c : Char) : Char.ofNat c.toNat = c := Char.ofNat_toNat c

theorem uCode_hex (n : Nat) (h : n < 65536) :
    uCode (hexDigit (n / 4096 % 16)) (hexDigit (n / 256 % 16)) (hexDigit (n / 16 % 16)) (hexDigit (n % 16)) = some n := by
  have hn : n / 4096 % 16 * 4096 + n / 256 % 16 * 256 + n / 16 % 16 * 16 + n % 16 = n := by omega
  simp only [uCode, hexVal_hexDigit _ (Nat.mod_lt _ (by decide : 0 < 16)), hn]

theorem needsU_range {c : Char} (h : needsU c = true) : c.toNat < 65536 ∧ ¬ (0xD800 ≤ c.toNat ∧ c.toNat ≤ 0xDFFF) := by
  simp only [needsU, Bool.or_eq_true, decide_eq_true_eq] at h
  rcases h with ((((h | h) | h) | h) | h) | h
  · omega
  · subst h; decide
  · subst h; decide
  · subst h; decide
  · omega
  · omega

/-- The unit that the encoder writes for a character. -/
def unitOf (c : Char) : JUnit :=
  if c = '"' ∨ c = '\\' ∨ c = '\n' ∨ c = '\r' ∨ c = '\t' then .char c else if needsU c then .code c.toNat else .char c

theorem joinUnits_code (n : Nat) (us : List JUnit) : joinUnits (.code n :: us) =
    if 0xD800 ≤ n ∧ n ≤ 0xDFFF then
      match us with
      | .code m :: us' =>
        if n ≤ 0xDBFF ∧ 0xDC00 ≤ m ∧ m ≤ 0xDFFF then Char.ofNat (0x10000 + (n - 0xD800) * 0x400 + (m - 0xDC00)) :: joinUnits us'
        else Char.ofNat 0xFFFD :: joinUnits (.code m :: us')
      | us => Char.ofNat 0xFFFD :: joinUnits us
    else Char.ofNat n :: joinUnits us := by
  cases us with
  | nil => rfl
  | cons u us => cases u <;> rfl

theorem joinUnits_unitOf (s : Str) : joinUnits (s.map unitOf) = s := by
  induction s with
  | nil => rfl
  | cons c cs ih =>
    rw [List.map_cons]
    generalize hm : List.map unitOf cs = us at ih ⊢
    unfold unitOf
    split
    · rw [joinUnits, ih]
    split
    · rename_i h
      rw [joinUnits_code, if_neg (needsU_range h).2, ih, char_ofNat_toNat]
    · rw [joinUnits, ih]

theorem parseUnits_esc (c : Char) (cs : Str) :
    parseUnits (escChar c ++ cs) = (parseUnits cs).map (fun r => (unitOf c :: r.1, r.2)) := by
  unfold escChar
  split
  · rename_i h; subst h; simp [parseUnits, simpleEscape, unitOf]
  split
  · rename_i h; subst h; simp [parseUnits, simpleEscape, unitOf]
  split
  · rename_i h; subst h; simp [parseUnits, simpleEscape, unitOf]
  split
  · rename_i h; subst h; simp [parseUnits, simpleEscape, unitOf]
  split
  · rename_i h; subst h; simp [parseUnits, simpleEscape, unitOf]
  split
  · rename_i h1 h2 h3 h4 h5 h
    have hr := needsU_range h
    simp only [uEscape, List.cons_append, List.nil_append, parseUnits, uCode_hex _ hr.1, unitOf, h1, h2, h3, h4, h5, h, or_self,
      if_false, if_true]
  · rename_i h1 h2 h4 h5 h6 h3
    have h20 : ¬ c.toNat < 0x20 := by
      intro hh; apply h3; simp [needsU, hh]
    simp only [List.cons_append, List.nil_append]
    rw [parseUnits]
    · simp only [h1, h2, h3, h4, h5, h6, h20, or_self, if_false, unitOf, Bool.false_eq_true]
    · exact h1
    · intro a b c d cs h _; exact h2 h
    · intro e cs h _; exact h2 h

theorem parseUnits_escStr (s rest : Str) : parseUnits (escStr s ++ rest) = some (s.map unitOf, rest) := by
  induction s with
  | nil => simp [escStr, parseUnits]
  | cons c cs ih => simp [escStr, List.append_assoc, parseUnits_esc, ih]

theorem parseStr_escStr (s rest : Str) : parseStr (escStr s ++ rest) = some (s, rest) := by
  rw [parseStr, parseUnits_escStr, Option.map_some, joinUnits_unitOf]

mutual
/-- The fuel that reading the value needs. -/
def Json.size : Json → Nat
  | .arr xs => 1 + Json.sizeElems xs
  | .obj ms => 1 + Json.sizeMembers ms
  | _ => 1
def Json.sizeElems : List Json → Nat
  | [] => 0
  | x :: xs => 1 + Json.size x + Json.sizeElems xs
def Json.sizeMembers : List (Str × Json) → Nat
  | [] => 0
  | (_, v) :: ms => 1 + Json.size v + Json.sizeMembers ms
end

/-- The text does not continue a number. -/
def Stops (rest : Str) : Prop := ∀ c cs, rest = c :: cs → isNumChar c = false

theorem Stops.newline {ind : Bool} {d : Nat} {c : Char} {cs : Str} (h : isNumChar c = false) : Stops (newline ind d ++ c :: cs) := by
  intro c' cs' e
  cases ind
  · simp [Astra.newline] at e; rw [← e.1]; exact h
  · simp [Astra.newline] at e; rw [← e.1]; decide

theorem takeWhile_stop {t rest : Str} (ht : ∀ c ∈ t, isNumChar c = true) (hr : Stops rest) :
    (t ++ rest).takeWhile isNumChar = t ∧ (t ++ rest).dropWhile isNumChar = rest := by
  induction t with
  | nil =>
    cases rest with
    | nil => simp
    | cons c cs => simp [hr c cs rfl]
  | cons c cs ih =>
    have h1 := ht c (by simp)
    have h2 := ih (fun x hx => ht x (by simp [hx]))
    simp [h1, h2.1, h2.2]

theorem parseValue_number (n : Nat) {c : Char} (cs : Str) (hc : isNumChar c = true) :
    parseValue (n + 1) (c :: cs) =
      if isNumber ((c :: cs).takeWhile isNumChar) then some (.num ((c :: cs).takeWhile isNumChar), (c :: cs).dropWhile isNumChar)
      else none := by
  have hw : isWs c = false := by
    cases h : isWs c with
    | false => rfl
    | true =>
      simp only [isWs, Bool.or_eq_true, decide_eq_true_eq] at h
      rcases h with ((h | h) | h) | h <;> subst h <;> revert hc <;> decide
  have ne : ∀ x, isNumChar x = false → c ≠ x := by
    intro x hx h; rw [h, hx] at hc; cases hc
  rw [parseValue, skipWs_of_not hw]
  split
  · contradiction
  · rename_i h; exact absurd (List.cons.inj h).1 (ne '{' (by decide))
  · rename_i h; exact absurd (List.cons.inj h).1 (ne '[' (by decide))
  · rename_i h; exact absurd (List.cons.inj h).1 (ne '"' (by decide))
  · rename_i h; exact absurd (List.cons.inj h).1 (ne 't' (by decide))
  · rename_i h; exact absurd (List.cons.inj h).1 (ne 'f' (by decide))
  · rename_i h; exact absurd (List.cons.inj h).1 (ne 'n' (by decide))
  · rename_i h; cases h; rfl

theorem isNumber_ne_nil {t : Str} (h : isNumber t = true) : t ≠ [] := by
  intro e; subst e; revert h; decide

/-- The first character of a written value is not white space and not a closing bracket. -/
theorem render_head (ind : Bool) (d : Nat) (j : Json) (hg : GoodJson j) :
    ∃ c cs, render ind d j = c :: cs ∧ isWs c = false ∧ c ≠ ']' ∧ c ≠ '}' := by
  match j with
  | .null => exact ⟨_, _, rfl, by decide⟩
  | .bool true => exact ⟨_, _, rfl, by decide⟩
  | .bool false => exact ⟨_, _, rfl, by decide⟩
  | .str s => exact ⟨'"', escStr s, by simp only [render, quoteStr], by decide⟩
  | .arr [] => exact ⟨_, _, rfl, by decide⟩
  | .arr (x :: xs) => exact ⟨'[', _, by simp only [render, List.cons_append]; rfl, by decide⟩
  | .obj [] => exact ⟨_, _, rfl, by decide⟩
  | .obj ((k, v) :: ms) => exact ⟨'{', _, by simp only [render, List.cons_append]; rfl, by decide⟩
  | .num t =>
    simp only [GoodJson] at hg
    cases t with
    | nil => exact absurd rfl (isNumber_ne_nil ((number_iff _).2 hg))
    | cons c cs =>
      have hc := number_chars hg c (by simp)
      refine ⟨c, cs, by simp [render], ?_, ?_, ?_⟩
      · cases h : isWs c with
        | false => rfl
        | true =>
          simp only [isWs, Bool.or_eq_true, decide_eq_true_eq] at h
          rcases h with ((h | h) | h) | h <;> subst h <;> revert hc <;> decide
      · intro h; subst h; revert hc; decide
      · intro h; subst h; revert hc; decide

theorem skipWs_colon (ind : Bool) (s : Str) : ∃ r, skipWs (colon ind ++ s) = ':' :: r ∧ (∀ n, parseValue n r = parseValue n s) := by
  cases ind
  · exact ⟨s, by simp [colon, skipWs, isWs], fun _ => rfl⟩
  · refine ⟨' ' :: s, by simp [colon, skipWs, isWs], fun n => ?_⟩
    cases n with
    | zero => simp [parseValue]
    | succ n => simp [parseValue, skipWs, isWs]

mutual
theorem parse_render (ind : Bool) (d : Nat) (j : Json) (hg : GoodJson j) (n : Nat) (hn : j.size ≤ n) (rest : Str) (hr : Stops rest) :
    parseValue n (render ind d j ++ rest) = some (j, rest) := by
  match j, hg, hn with
  | .null, _, hn => obtain ⟨m, rfl⟩ : ∃ m, n = m + 1 := ⟨n - 1, by simp only [Json.size] at hn; omega⟩; simp [render, parseValue, skipWs, isWs]
  | .bool true, _, hn => obtain ⟨m, rfl⟩ : ∃ m, n = m + 1 := ⟨n - 1, by simp only [Json.size] at hn; omega⟩; simp [render, parseValue, skipWs, isWs]
  | .bool false, _, hn => obtain ⟨m, rfl⟩ : ∃ m, n = m + 1 := ⟨n - 1, by simp only [Json.size] at hn; omega⟩; simp [render, parseValue, skipWs, isWs]
  | .str s, _, hn =>
    obtain ⟨m, rfl⟩ : ∃ m, n = m + 1 := ⟨n - 1, by simp only [Json.size] at hn; omega⟩
    simp [render, quoteStr, parseValue, skipWs, isWs, parseStr_escStr]
  | .arr [], _, hn => obtain ⟨m, rfl⟩ : ∃ m, n = m + 1 := ⟨n - 1, by simp only [Json.size] at hn; omega⟩; simp [render, parseValue, skipWs, isWs]
  | .obj [], _, hn => obtain ⟨m, rfl⟩ : ∃ m, n = m + 1 := ⟨n - 1, by simp only [Json.size] at hn; omega⟩; simp [render, parseValue, skipWs, isWs]
  | .num t, hg, hn =>
    obtain ⟨m, rfl⟩ : ∃ m, n = m + 1 := ⟨n - 1, by simp only [Json.size] at hn; omega⟩
    simp only [GoodJson] at hg
    cases t with
    | nil => exact absurd rfl (isNumber_ne_nil ((number_iff _).2 hg))
    | cons c cs =>
      have hw := takeWhile_stop (number_chars hg) hr
      simp only [render, List.cons_append] at hw ⊢
      rw [parseValue_number m _ (number_chars hg c (by simp)), hw.1, hw.2, (number_iff _).2 hg]
      simp
  | .arr (x :: xs), hg, hn =>
    obtain ⟨m, rfl⟩ : ∃ m, n = m + 1 := ⟨n - 1, by simp only [Json.size] at hn; omega⟩
    simp only [GoodJson, GoodElems] at hg
    simp only [Json.size, Json.sizeElems] at hn
    have ih := parse_elems ind d x xs hg.1 hg.2 m (by omega) rest
    obtain ⟨c, cs, hc, hws, h1, h2⟩ := render_head ind (d + 1) x hg.1
    simp only [render, List.cons_append, List.append_assoc]
    rw [parseValue, skipWs_of_not (by decide)]
    simp only
    rw [skipWs_newline, hc, List.cons_append, skipWs_of_not hws]
    rw [hc, List.cons_append] at ih
    split
    · rename_i h; exact absurd (List.cons.inj h).1 h1
    · rw [ih]; rfl
  | .obj ((k, v) :: ms), hg, hn =>
    obtain ⟨m, rfl⟩ : ∃ m, n = m + 1 := ⟨n - 1, by simp only [Json.size] at hn; omega⟩
    simp only [GoodJson, GoodMembers] at hg
    simp only [Json.size, Json.sizeMembers] at hn
    have ih := parse_members ind d k v ms hg.1 hg.2 m (by omega) rest
    simp only [render, List.cons_append, List.append_assoc]
    rw [parseValue, skipWs_of_not (by decide)]
    simp only
    rw [skipWs_newline]
    simp only [quoteStr, List.cons_append] at ih ⊢
    rw [skipWs_of_not (by decide)]
    split
    · rename_i h; cases h
    · rw [ih]; rfl
termination_by n
theorem parse_elems (ind : Bool) (d : Nat) (x : Json) (xs : List Json) (hx : GoodJson x) (hxs : GoodElems xs) (n : Nat)
    (hn : 1 + x.size + Json.sizeElems xs ≤ n) (rest : Str) :
    parseElems n (render ind (d + 1) x ++ (renderElems ind d xs ++ rest)) = some (x :: xs, rest) := by
  obtain ⟨m, rfl⟩ : ∃ m, n = m + 1 := ⟨n - 1, by omega⟩
  match xs, hxs, hn with
  | [], _, hn =>
    simp only [renderElems, List.append_assoc, List.cons_append, List.nil_append]
    rw [parseElems, parse_render ind (d + 1) x hx m (by simp only [Json.sizeElems] at hn; omega) _ (Stops.newline (by decide))]
    simp only
    rw [skipWs_newline, skipWs_of_not (by decide)]
    rfl
  | y :: ys, hxs, hn =>
    simp only [GoodElems] at hxs
    simp only [Json.sizeElems] at hn
    have ih := parse_elems ind d y ys hxs.1 hxs.2 m (by omega) rest
    simp only [renderElems, List.append_assoc, List.cons_append]
    rw [parseElems, parse_render ind (d + 1) x hx m (by omega) _ (by intro c cs e; cases e; decide)]
    simp only
    rw [skipWs_of_not (by decide)]
    simp only
    have hnl : parseElems m (newline ind (d + 1) ++ (render ind (d + 1) y ++ (renderElems ind d ys ++ rest))) =
        parseElems m (render ind (d + 1) y ++ (renderElems ind d ys ++ rest)) := by
      cases m with
      | zero => simp [parseElems]
      | succ m => simp only [parseElems, parseValue_newline]
    rw [hnl, ih]; rfl
termination_by n
theorem parse_members (ind : Bool) (d : Nat) (k : Str) (v : Json) (ms : List (Str × Json)) (hv : GoodJson v) (hms : GoodMembers ms)
    (n : Nat) (hn : 1 + v.size + Json.sizeMembers ms ≤ n) (rest : Str) :
    parseMembers n (quoteStr k ++ (colon ind ++ (render ind (d + 1) v ++ (renderMembers ind d ms ++ rest)))) =
      some ((k, v) :: ms, rest) := by
  obtain ⟨m, rfl⟩ : ∃ m, n = m + 1 := ⟨n - 1, by omega⟩
  match ms, hms, hn with
  | [], _, hn =>
    simp only [renderMembers, List.append_assoc, List.cons_append, List.nil_append, quoteStr]
    rw [parseMembers, skipWs_of_not (by decide)]
    simp only
    rw [parseStr_escStr]
    simp only
    obtain ⟨r, h1, h2⟩ := skipWs_colon ind (render ind (d + 1) v ++ (newline ind d ++ '}' :: rest))
    rw [h1]
    simp only
    rw [h2, parse_render ind (d + 1) v hv m (by simp only [Json.sizeMembers] at hn; omega) _ (Stops.newline (by decide))]
    simp only
    rw [skipWs_newline, skipWs_of_not (by decide)]
    rfl
  | (k', v') :: ms', hms, hn =>
    simp only [GoodMembers] at hms
    simp only [Json.sizeMembers] at hn
    have ih := parse_members ind d k' v' ms' hms.1 hms.2 m (by omega) rest
    simp only [renderMembers, List.append_assoc, List.cons_append]
    rw [quoteStr, List.cons_append, parseMembers, skipWs_of_not (by decide)]
    simp only
    rw [parseStr_escStr]
    simp only
    obtain ⟨r, h1, h2⟩ := skipWs_colon ind (render ind (d + 1) v ++ (',' :: (newline ind (d + 1) ++ (quoteStr k' ++ (colon ind ++ (render ind (d + 1) v' ++ (renderMembers ind d ms' ++ rest)))))))
    rw [h1]
    simp only
    rw [h2, parse_render ind (d + 1) v hv m (by omega) _ (by intro c cs e; cases e; decide)]
    simp only
    rw [skipWs_of_not (by decide)]
    simp only
    have hnl : ∀ s, parseMembers m (newline ind (d + 1) ++ s) = parseMembers m s := by
      intro s
      cases m with
      | zero => simp [parseMembers]
      | succ m => simp only [parseMembers, skipWs_newline]
    rw [hnl, ih]; rfl
termination_by n
end

/-! ### Fuel and prefixes -/

mutual
theorem parseValue_mono {n m : Nat} (h : n ≤ m) {s : Str} {x : Json × Str} (hp : parseValue n s = some x) : parseValue m s = some x := by
  match n, m, h with
  | 0, _, _ => simp [parseValue] at hp
  | n + 1, m + 1, h =>
    have h' : n ≤ m := by omega
    rw [parseValue] at hp ⊢
    generalize skipWs s = t at hp ⊢
    split at hp <;> try (simp_all; done)
    · rename_i cs
      generalize skipWs cs = t at hp ⊢
      split at hp
      · exact hp
      · rename_i hne
        simp only [Option.map_eq_some_iff] at hp
        obtain ⟨y, hy, rfl⟩ := hp
        rw [parseMembers_mono h' hy]; rfl
    · rename_i cs
      generalize skipWs cs = t at hp ⊢
      split at hp
      · exact hp
      · rename_i hne
        simp only [Option.map_eq_some_iff] at hp
        obtain ⟨y, hy, rfl⟩ := hp
        rw [parseElems_mono h' hy]; rfl
theorem parseElems_mono {n m : Nat} (h : n ≤ m) {s : Str} {x : List Json × Str} (hp : parseElems n s = some x) : parseElems m s = some x := by
  match n, m, h with
  | 0, _, _ => simp [parseElems] at hp
  | n + 1, m + 1, h =>
    have h' : n ≤ m := by omega
    rw [parseElems] at hp ⊢
    split at hp
    · cases hp
    · rename_i x r hx
      rw [parseValue_mono h' hx]
      simp only
      generalize skipWs r = t at hp ⊢
      split at hp
      · exact hp
      · simp only [Option.map_eq_some_iff] at hp
        obtain ⟨y, hy, rfl⟩ := hp
        simp only [parseElems_mono h' hy, Option.map_some]
      · cases hp
theorem parseMembers_mono {n m : Nat} (h : n ≤ m) {s : Str} {x : List (Str × Json) × Str} (hp : parseMembers n s = some x) :
    parseMembers m s = some x := by
  match n, m, h with
  | 0, _, _ => simp [parseMembers] at hp
  | n + 1, m + 1, h =>
    have h' : n ≤ m := by omega
    rw [parseMembers] at hp ⊢
    generalize skipWs s = t at hp ⊢
    split at hp
    · rename_i cs
      split at hp
      · cases hp
      · rename_i k r hk
        generalize skipWs r = u at hp ⊢
        split at hp
        · rename_i r'
          split at hp
          · cases hp
          · rename_i v r'' hv
            rw [parseValue_mono h' hv]
            simp only
            generalize skipWs r'' = w at hp ⊢
            split at hp
            · exact hp
            · simp only [Option.map_eq_some_iff] at hp
              obtain ⟨y, hy, rfl⟩ := hp
              simp only [parseMembers_mono h' hy, Option.map_some]
            · cases hp
        · cases hp
    · cases hp
end

theorem skipWs_append {s t r : Str} {c : Char} (h : skipWs s = c :: r) : skipWs (s ++ t) = c :: (r ++ t) := by
  induction s with
  | nil => simp [skipWs] at h
  | cons a as ih =>
    simp only [skipWs, List.cons_append] at h ⊢
    split at h
    · rename_i hw; simp [hw, ih h]
    · rename_i hw; simp only [hw]; cases h; rfl

theorem parseUnits_append {s t : Str} {x : List JUnit × Str} (h : parseUnits s = some x) : parseUnits (s ++ t) = some (x.1, x.2 ++ t) := by
  induction s using parseUnits.induct generalizing x with
  | case1 => simp [parseUnits] at h
  | case2 cs => simp only [parseUnits, Option.some.injEq] at h; subst h; simp [parseUnits]
  | case3 a b c d cs hu => simp [parseUnits, hu] at h
  | case4 a b c d cs y hu ih =>
    simp only [parseUnits, hu, Option.map_eq_some_iff] at h
    obtain ⟨r, hr, rfl⟩ := h
    simp [parseUnits, hu, ih hr]
  | case5 e cs hne he =>
    rw [parseUnits] at h
    · simp [he] at h
    · exact hne
  | case6 e cs hne y he ih =>
    rw [parseUnits] at h
    · simp only [he, Option.map_eq_some_iff] at h
      obtain ⟨r, hr, rfl⟩ := h
      simp only [List.cons_append]
      rw [parseUnits]
      · simp [he, ih hr]
      · intro a b c d cs' h' _
        subst h'; simp [simpleEscape] at he
    · exact hne
  | case7 c cs h1 h2 h3 h4 =>
    rw [parseUnits] at h
    · simp [h4] at h
    · exact h1
    · exact h2
    · exact h3
  | case8 c cs h1 h2 h3 h4 ih =>
    rw [parseUnits] at h
    · simp only [h4, if_false, Option.map_eq_some_iff] at h
      obtain ⟨r, hr, rfl⟩ := h
      simp only [List.cons_append]
      rw [parseUnits]
      · simp only [h4, if_false, ih hr, Option.map_some]
      · exact h1
      · intro a b c d cs' h' _; exact h4 (Or.inl h')
      · intro e cs' h' _; exact h4 (Or.inl h')
    · exact h1
    · exact h2
    · exact h3

theorem parseStr_append {s t : Str} {x : Str × Str} (h : parseStr s = some x) : parseStr (s ++ t) = some (x.1, x.2 ++ t) := by
  simp only [parseStr, Option.map_eq_some_iff] at h ⊢
  obtain ⟨r, hr, rfl⟩ := h
  exact ⟨_, parseUnits_append hr, rfl⟩

theorem skipWs_ne_nil {r : Str} (h : skipWs r ≠ []) : r ≠ [] := by
  intro e; subst e; exact h rfl

theorem parseElems_head {n : Nat} {s : Str} {x : List Json × Str} (h : parseElems n s = some x) : skipWs s ≠ [] := by
  cases n with
  | zero => simp [parseElems] at h
  | succ n =>
    intro he
    rw [parseElems] at h
    cases n with
    | zero => simp [parseValue] at h
    | succ n => simp [parseValue, he] at h

theorem parseMembers_head {n : Nat} {s : Str} {x : List (Str × Json) × Str} (h : parseMembers n s = some x) : skipWs s ≠ [] := by
  cases n with
  | zero => simp [parseMembers] at h
  | succ n =>
    intro he
    rw [parseMembers, he] at h
    simp at h

theorem takeWhile_append_stop {p : Char → Bool} {s t : Str} (h : s.dropWhile p ≠ []) :
    (s ++ t).takeWhile p = s.takeWhile p ∧ (s ++ t).dropWhile p = s.dropWhile p ++ t := by
  induction s with
  | nil => simp at h
  | cons c cs ih =>
    cases hc : p c with
    | false => simp [hc]
    | true =>
      simp only [List.dropWhile_cons, hc, if_true] at h
      have := ih h
      simp [hc, this.1, this.2]

mutual
theorem parseValue_append {n : Nat} {s t : Str} {j : Json} {r : Str} (hp : parseValue n s = some (j, r))
    (hr : r ≠ [] ∨ ∀ x, j ≠ .num x) : parseValue n (s ++ t) = some (j, r ++ t) := by
  match n with
  | 0 => simp [parseValue] at hp
  | n + 1 =>
    rw [parseValue] at hp ⊢
    generalize hs : skipWs s = u at hp
    split at hp
    · cases hp
    · rename_i cs
      rw [skipWs_append hs]
      simp only
      generalize hcs : skipWs cs = v at hp
      split at hp
      · cases hp
        rw [skipWs_append hcs]
        rfl
      · rename_i hne
        simp only [Option.map_eq_some_iff] at hp
        obtain ⟨y, hy, he⟩ := hp
        cases he
        have hh := parseMembers_head hy
        cases v with
        | nil => exact absurd rfl hh
        | cons a as =>
          rw [skipWs_append hcs]
          split
          · rename_i h; cases h; exact absurd rfl (hne as)
          · rw [← List.cons_append, parseMembers_append hy]; rfl
    · rename_i cs
      rw [skipWs_append hs]
      simp only
      generalize hcs : skipWs cs = v at hp
      split at hp
      · cases hp
        rw [skipWs_append hcs]
        rfl
      · rename_i hne
        simp only [Option.map_eq_some_iff] at hp
        obtain ⟨y, hy, he⟩ := hp
        cases he
        have hh := parseElems_head hy
        cases v with
        | nil => exact absurd rfl hh
        | cons a as =>
          rw [skipWs_append hcs]
          split
          · rename_i h; cases h; exact absurd rfl (hne as)
          · rw [← List.cons_append, parseElems_append hy]; rfl
    · rename_i cs
      rw [skipWs_append hs]
      simp only [Option.map_eq_some_iff] at hp ⊢
      obtain ⟨y, hy, he⟩ := hp
      cases he
      exact ⟨_, parseStr_append hy, rfl⟩
    · cases hp; rw [skipWs_append hs]; rfl
    · cases hp; rw [skipWs_append hs]; rfl
    · cases hp; rw [skipWs_append hs]; rfl
    · rename_i c cs h1 h2 h3 h4 h5 h6
      simp only at hp
      split at hp
      · rename_i hnum
        cases hp
        rcases hr with hr | hr
        · have hw := takeWhile_append_stop (t := t) hr
          rw [skipWs_append hs]
          have hc : isNumChar c = true := by
            cases hc : isNumChar c with
            | true => rfl
            | false => simp [hc] at hnum; exact absurd hnum (by decide)
          have ne : ∀ x, isNumChar x = false → c ≠ x := by
            intro x hx h; rw [h, hx] at hc; cases hc
          simp only [List.cons_append] at hw
          split
          · contradiction
          · rename_i h; exact absurd (List.cons.inj h).1 (ne '{' (by decide))
          · rename_i h; exact absurd (List.cons.inj h).1 (ne '[' (by decide))
          · rename_i h; exact absurd (List.cons.inj h).1 (ne '"' (by decide))
          · rename_i h; exact absurd (List.cons.inj h).1 (ne 't' (by decide))
          · rename_i h; exact absurd (List.cons.inj h).1 (ne 'f' (by decide))
          · rename_i h; exact absurd (List.cons.inj h).1 (ne 'n' (by decide))
          · rename_i h; cases h; rw [hw.1, hw.2]; simp [hnum]
        · exact absurd rfl (hr _)
      · cases hp
theorem parseElems_append {n : Nat} {s t : Str} {x : List Json × Str} (hp : parseElems n s = some x) :
    parseElems n (s ++ t) = some (x.1, x.2 ++ t) := by
  match n with
  | 0 => simp [parseElems] at hp
  | n + 1 =>
    rw [parseElems] at hp ⊢
    split at hp
    · cases hp
    · rename_i j r hj
      generalize hs : skipWs r = u at hp
      split at hp
      · rw [parseValue_append hj (Or.inl (skipWs_ne_nil (by rw [hs]; simp)))]
        simp only
        rw [skipWs_append hs]
        cases hp; rfl
      · rw [parseValue_append hj (Or.inl (skipWs_ne_nil (by rw [hs]; simp)))]
        simp only
        rw [skipWs_append hs]
        simp only [Option.map_eq_some_iff] at hp ⊢
        obtain ⟨y, hy, rfl⟩ := hp
        exact ⟨_, parseElems_append hy, rfl⟩
      · cases hp
theorem parseMembers_append {n : Nat} {s t : Str} {x : List (Str × Json) × Str} (hp : parseMembers n s = some x) :
    parseMembers n (s ++ t) = some (x.1, x.2 ++ t) := by
  match n with
  | 0 => simp [parseMembers] at hp
  | n + 1 =>
    rw [parseMembers] at hp ⊢
    generalize hs : skipWs s = u at hp
    split at hp
    · rename_i cs
      rw [skipWs_append hs]
      simp only
      split at hp
      · cases hp
      · rename_i k r hk
        rw [parseStr_append hk]
        simp only
        generalize hr : skipWs r = u at hp
        split at hp
        · rename_i r'
          rw [skipWs_append hr]
          simp only
          split at hp
          · cases hp
          · rename_i v r'' hv
            generalize hr'' : skipWs r'' = w at hp
            split at hp
            · rw [parseValue_append hv (Or.inl (skipWs_ne_nil (by rw [hr'']; simp)))]
              simp only
              rw [skipWs_append hr'']
              cases hp; rfl
            · rw [parseValue_append hv (Or.inl (skipWs_ne_nil (by rw [hr'']; simp)))]
              simp only
              rw [skipWs_append hr'']
              simp only [Option.map_eq_some_iff] at hp ⊢
              obtain ⟨y, hy, rfl⟩ := hp
              exact ⟨_, parseMembers_append hy, rfl⟩
            · cases hp
        · cases hp
    · cases hp
end

mutual
theorem size_le_length (ind : Bool) (d : Nat) (j : Json) (hg : GoodJson j) : j.size ≤ (render ind d j).length := by
  match j, hg with
  | .null, _ => simp [Json.size, render]
  | .bool true, _ => simp [Json.size, render]
  | .bool false, _ => simp [Json.size, render]
  | .str s, _ => simp [Json.size, render, quoteStr]
  | .num t, hg =>
    simp only [GoodJson] at hg
    have := isNumber_ne_nil ((number_iff _).2 hg)
    simp only [Json.size, render]
    exact List.length_pos_iff.mpr this
  | .arr [], _ => simp [Json.size, Json.sizeElems, render]
  | .obj [], _ => simp [Json.size, Json.sizeMembers, render]
  | .arr (x :: xs), hg =>
    simp only [GoodJson, GoodElems] at hg
    have h1 := size_le_length ind (d + 1) x hg.1
    have h2 := sizeElems_le ind d xs hg.2
    simp only [Json.size, Json.sizeElems, render, List.length_cons, List.length_append]
    omega
  | .obj ((k, v) :: ms), hg =>
    simp only [GoodJson, GoodMembers] at hg
    have h1 := size_le_length ind (d + 1) v hg.1
    have h2 := sizeMembers_le ind d ms hg.2
    simp only [Json.size, Json.sizeMembers, render, List.length_cons, List.length_append]
    omega
theorem sizeElems_le (ind : Bool) (d : Nat) (xs : List Json) (hg : GoodElems xs) : Json.sizeElems xs + 1 ≤ (renderElems ind d xs).length := by
  match xs, hg with
  | [], _ => simp [Json.sizeElems, renderElems]
  | x :: xs, hg =>
    simp only [GoodElems] at hg
    have h1 := size_le_length ind (d + 1) x hg.1
    have h2 := sizeElems_le ind d xs hg.2
    simp only [Json.sizeElems, renderElems, List.length_cons, List.length_append]
    omega
theorem sizeMembers_le (ind : Bool) (d : Nat) (ms : List (Str × Json)) (hg : GoodMembers ms) :
    Json.sizeMembers ms + 1 ≤ (renderMembers ind d ms).length := by
  match ms, hg with
  | [], _ => simp [Json.sizeMembers, renderMembers]
  | (k, v) :: ms, hg =>
    simp only [GoodMembers] at hg
    have h1 := size_le_length ind (d + 1) v hg.1
    have h2 := sizeMembers_le ind d ms hg.2
    simp only [Json.sizeMembers, renderMembers, List.length_cons, List.length_append]
    omega
end

theorem parse_all (ind : Bool) (d : Nat) (j : Json) (hg : GoodJson j) (n : Nat) (hn : (render ind d j).length ≤ n) :
    parseValue n (render ind d j) = some (j, []) := by
  have h := parse_render ind d j hg n (Nat.le_trans (size_le_length ind d j hg) hn) [] (by intro c cs h; cases h)
  simpa using h

/-- What was written is read back. -/
theorem decode_render (ind : Bool) (d : Nat) (j : Json) (hg : GoodJson j) : decodeText (render ind d j) = some j := by
  simp [decodeText, parse_all ind d j hg _ (Nat.le_succ _)]

/-- A text that lacks the end of a written object is not a complete value. -/
theorem decode_prefix (ind : Bool) (d : Nat) (ms : List (Str × Json)) (hg : GoodJson (.obj ms)) (p t : Str)
    (h : p ++ t = render ind d (.obj ms)) (ht : t ≠ []) : decodeText p = none := by
  cases hd : parseValue (p.length + 1) p with
  | none => simp [decodeText, hd]
  | some x =>
    obtain ⟨j, r⟩ := x
    exfalso
    have hj : ∀ y, j ≠ .num y := by
      intro y hy
      subst hy
      have h0 : ∃ c cs, p = c :: cs := by
        cases p with
        | nil => simp [parseValue, skipWs] at hd
        | cons c cs => exact ⟨c, cs, rfl⟩
      obtain ⟨c, cs, rfl⟩ := h0
      have hc : c = '{' := by
        cases ms with
        | nil => simp [render] at h; exact h.1
        | cons m ms => simp [render] at h; exact h.1
      subst hc
      rw [parseValue, skipWs_of_not (by decide)] at hd
      simp only at hd
      split at hd
      · cases hd
      · simp only [Option.map_eq_some_iff] at hd
        obtain ⟨_, _, he⟩ := hd
        cases he
    have h1 := parseValue_append (t := t) hd (Or.inr hj)
    rw [h] at h1
    have h2 := parse_all ind d (.obj ms) hg ((render ind d (.obj ms)).length + p.length + 1) (by omega)
    have h3 := parseValue_mono (m := (render ind d (.obj ms)).length + p.length + 1) (by omega) h1
    rw [h2] at h3
    simp only [Option.some.injEq, Prod.mk.injEq] at h3
    exact ht (List.append_eq_nil_iff.mp h3.2.symm).2

end Astra
