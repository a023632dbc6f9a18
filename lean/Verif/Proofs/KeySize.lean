import Verif.Model.Config
import Verif.Proofs.CJson
/-
The strings directly inside a parsed document are no longer than its text; so the keys of a key file have at most 4096 bytes in all.
-/
namespace Verif.CJson

theorem emit_len {cap : Nat} {out bs r : List UInt8} (h : emit cap out bs = .ok r) : r = out ++ bs ∧ r.length ≤ cap := by
  unfold emit at h
  split at h
  · cases h
    exact ⟨rfl, by simpa using ‹_›⟩
  · cases h

theorem parseString_size {buf : List UInt8} {i : Nat} {s : List UInt8} {j : Nat} (h : parseString buf i = .ok (s, j)) : s.length + i < j := by
  unfold parseString at h
  cases hq : rd buf i with
  | error x => rw [hq] at h; cases h
  | ok q =>
    rw [hq] at h
    dsimp only at h
    split at h
    · cases h
    · cases hs : scan buf (i + 1) 0 with
      | error x => rw [hs] at h; cases h
      | ok ek =>
        obtain ⟨e, k⟩ := ek
        rw [hs] at h
        dsimp only at h
        cases hd : decode buf e (e - i - k + 1) (i + 1) [] with
        | error x => rw [hd] at h; cases h
        | ok out =>
          rw [hd] at h
          dsimp only at h
          cases he : emit (e - i - k + 1) out [0] with
          | error x => rw [he] at h; cases h
          | ok r =>
            rw [he] at h
            cases h
            obtain ⟨r1, r2⟩ := emit_len he
            rw [r1, List.length_append, List.length_singleton] at r2
            obtain ⟨k', -, hS⟩ := scan_S buf (i + 1) 0 e k hs
            have := hS.le
            omega

/-- Bytes of a string; other items have none of their own. -/
def J.bytes {V : Type} : J V → Nat
  | .str s => s.length
  | _ => 0

/-- An element parser whose strings are no longer than the text they come from. -/
def Sized {V : Type} (val : Nat → R (J V × Nat)) : Prop := ∀ i v j, val i = .ok (v, j) → v.bytes + i ≤ j

theorem elems_size {V : Type} {val : Nat → R (J V × Nat)} {buf : List UInt8} (hv : Sized val) (fuel i : Nat) (acc : List (J V)) (xs : List (J V)) (k : Nat)
    (h : elems val buf fuel i acc = .ok (xs, k)) (ha : (acc.map J.bytes).sum ≤ i) : (xs.map J.bytes).sum ≤ k ∧ k < buf.length := by
  induction fuel generalizing i acc with
  | zero => cases h
  | succ fuel ih =>
    rw [elems] at h
    cases hx : val (skipWs buf (i + 1)) with
    | error x => rw [hx] at h; cases h
    | ok p =>
      obtain ⟨v, j⟩ := p
      rw [hx] at h
      dsimp only at h
      have h0 := skipWs_ge buf (i + 1)
      have h1 := hv _ _ _ hx
      have h2 := skipWs_ge buf j
      have hs : ((acc ++ [v]).map J.bytes).sum = (acc.map J.bytes).sum + v.bytes := by simp
      split at h
      · exact ih _ _ h (by omega)
      · split at h
        · cases h
          exact ⟨by omega, isAt_lt ‹_›⟩
        · cases h

theorem members_size {V : Type} {val : Nat → R (J V × Nat)} {buf : List UInt8} (hv : Sized val) (fuel i : Nat) (acc : List (List UInt8 × J V))
    (xs : List (List UInt8 × J V)) (k : Nat) (h : members val buf fuel i acc = .ok (xs, k)) (ha : ((acc.map Prod.snd).map J.bytes).sum ≤ i) :
    ((xs.map Prod.snd).map J.bytes).sum ≤ k ∧ k < buf.length := by
  induction fuel generalizing i acc with
  | zero => cases h
  | succ fuel ih =>
    rw [members] at h
    cases hn : parseString buf (skipWs buf (i + 1)) with
    | error x => rw [hn] at h; cases h
    | ok p =>
      obtain ⟨name, j⟩ := p
      rw [hn] at h
      dsimp only at h
      have h0 := skipWs_ge buf (i + 1)
      have h1 := parseString_size hn
      have h2 := skipWs_ge buf j
      split at h
      · cases hx : val (skipWs buf (skipWs buf j + 1)) with
        | error x => rw [hx] at h; cases h
        | ok p =>
          obtain ⟨v, j'⟩ := p
          rw [hx] at h
          dsimp only at h
          have h3 := skipWs_ge buf (skipWs buf j + 1)
          have h4 := hv _ _ _ hx
          have h5 := skipWs_ge buf j'
          have hs : (((acc ++ [(name, v)]).map Prod.snd).map J.bytes).sum = ((acc.map Prod.snd).map J.bytes).sum + v.bytes := by simp
          split at h
          · exact ih _ _ h (by omega)
          · split at h
            · cases h
              exact ⟨by omega, isAt_lt ‹_›⟩
            · cases h
      · cases h

theorem array_size {V : Type} {val : Nat → R (J V × Nat)} {buf : List UInt8} (hv : Sized val) (i : Nat) (v : J V) (j : Nat) (h : array val buf i = .ok (v, j)) :
    ∃ xs, v = .arr xs ∧ (xs.map J.bytes).sum < buf.length := by
  unfold array at h
  dsimp only at h
  split at h
  · cases h
    exact ⟨[], rfl, Nat.lt_of_le_of_lt (Nat.zero_le _) (isAt_lt ‹_›)⟩
  · split at h
    · cases h
    · split at h
      · cases h
      · rename_i xs k hx
        cases h
        obtain ⟨a, b⟩ := elems_size hv _ _ _ _ _ hx (by simp)
        exact ⟨xs, rfl, by omega⟩

theorem object_size {V : Type} {val : Nat → R (J V × Nat)} {buf : List UInt8} (hv : Sized val) (i : Nat) (v : J V) (j : Nat) (h : object val buf i = .ok (v, j)) :
    ∃ xs, v = .obj xs ∧ ((xs.map Prod.snd).map J.bytes).sum < buf.length := by
  unfold object at h
  dsimp only at h
  split at h
  · cases h
    exact ⟨[], rfl, Nat.lt_of_le_of_lt (Nat.zero_le _) (isAt_lt ‹_›)⟩
  · split at h
    · cases h
    · split at h
      · cases h
      · rename_i xs k hx
        cases h
        obtain ⟨a, b⟩ := members_size hv _ _ _ _ _ hx (by simp)
        exact ⟨xs, rfl, by omega⟩

/-- What `parse_value` makes of brackets. -/
theorem nested_size {V : Type} {strtod : List UInt8 → Nat × V} {buf : List UInt8} {n i : Nat} {b : UInt8} {v : J V} {j : Nat}
    (hv : ∀ m, m < n → Sized (value strtod buf m)) (h : nested strtod buf n i b = .ok (v, j)) :
    (∃ xs, v = .arr xs ∧ (xs.map J.bytes).sum < buf.length) ∨ (∃ xs, v = .obj xs ∧ ((xs.map Prod.snd).map J.bytes).sum < buf.length) := by
  unfold nested at h
  split at h
  · cases h
  · rename_i n
    split at h
    · exact .inl (array_size (hv n (by omega)) _ _ _ h)
    · split at h
      · exact .inr (object_size (hv n (by omega)) _ _ _ h)
      · cases h

/-- The four kinds of results of `parse_value`. -/
theorem value_kinds {V : Type} {strtod : List UInt8 → Nat × V} {buf : List UInt8} {n i : Nat} {v : J V} {j : Nat}
    (h : value strtod buf n i = .ok (v, j)) :
    (v.bytes + i ≤ j ∧ (∀ xs, v ≠ .arr xs) ∧ ∀ xs, v ≠ .obj xs) ∨ ∃ b, nested strtod buf n i b = .ok (v, j) := by
  rw [value_eq] at h
  split at h
  · cases h; exact .inl ⟨by simp [J.bytes], by simp, by simp⟩
  split at h
  · cases h; exact .inl ⟨by simp [J.bytes], by simp, by simp⟩
  split at h
  · cases h; exact .inl ⟨by simp [J.bytes], by simp, by simp⟩
  split at h
  · cases h
  · rename_i b hb
    split at h
    · split at h
      · cases h
      · rename_i s j' hs
        cases h
        have := parseString_size hs
        exact .inl ⟨by simp only [J.bytes]; omega, by simp, by simp⟩
    · split at h
      · unfold parseNumber at h
        dsimp only at h
        split at h
        · cases h
        · cases h; exact .inl ⟨by simp [J.bytes], by simp, by simp⟩
      · exact .inr ⟨b, h⟩

theorem value_sized {V : Type} (strtod : List UInt8 → Nat × V) {buf : List UInt8} (hl : buf.getLast? ≠ some 0x2C) (n : Nat) : Sized (value strtod buf n) := by
  induction n using Nat.strongRecOn with
  | ind n ih =>
    intro i v j h
    have hij := (value_good strtod hl n i).2 _ _ h
    rcases value_kinds h with ⟨h1, -, -⟩ | ⟨b, hb⟩
    · exact h1
    · rcases nested_size ih hb with ⟨xs, rfl, -⟩ | ⟨xs, rfl, -⟩ <;> simp only [J.bytes] <;> omega

end Verif.CJson

namespace Verif.Config
open Verif.CJson

theorem keyStrings_size : ∀ (l : List (J Int)) (ks : List (List UInt8)), keyStrings l = .ok ks → ks.flatten.length ≤ (l.map J.bytes).sum
  | [], ks, h => by cases h; simp
  | .str s :: t, ks, h => by
    rw [keyStrings] at h
    cases ht : keyStrings t with
    | error e => rw [ht] at h; cases h
    | ok ks' =>
      rw [ht] at h
      cases h
      have h1 := keyStrings_size t ks' ht
      have h2 : (s.takeWhile (· ≠ 0)).length ≤ s.length := (List.takeWhile_sublist _).length_le
      simp only [List.flatten_cons, List.length_append, List.map_cons, List.sum_cons, J.bytes]
      omega
  | .null :: _, _, h => by cases h
  | .bool _ :: _, _, h => by cases h
  | .num _ :: _, _, h => by cases h
  | .arr _ :: _, _, h => by cases h
  | .obj _ :: _, _, h => by cases h

theorem parse_size {strtod : List UInt8 → Nat × Int} {text : List UInt8} {root : J Int} {j : Nat} (h : CJson.parse strtod text = .ok (root, j)) :
    ((children root).map J.bytes).sum ≤ text.length := by
  unfold CJson.parse parseLen at h
  split at h
  · cases h
  · have hl : (text.takeWhile (· ≠ 0) ++ [0]).getLast? ≠ some (0x2C : UInt8) := by simp
    have hlen : (text.takeWhile (· ≠ 0) ++ [0]).length ≤ text.length + 1 := by
      rw [List.length_append, List.length_singleton]
      have : (text.takeWhile (· ≠ 0)).length ≤ text.length := (List.takeWhile_sublist _).length_le
      omega
    rcases value_kinds h with ⟨-, h1, h2⟩ | ⟨b, hb⟩
    · cases root with
      | arr xs => exact absurd rfl (h1 xs)
      | obj xs => exact absurd rfl (h2 xs)
      | _ => simp [children]
    · rcases nested_size (fun m _ => value_sized strtod hl m) hb with ⟨xs, rfl, h1⟩ | ⟨xs, rfl, h1⟩ <;> simp only [children] <;> omega

/-- The keys of a key file have at most 4096 bytes in all. -/
theorem authKeys_size {strtod : List UInt8 → Nat × Int} {file : Option (List UInt8)} {rd : Nat → Option Nat} {ks : List (List UInt8)}
    (h : authKeys strtod file rd = .ok (some ks)) : ks.flatten.length ≤ 4096 := by
  unfold authKeys at h
  split at h
  · cases h
  · split at h
    · cases h
    · rename_i f b hb
      have hlen : b.length ≤ 4096 := by
        unfold readAt at hb
        cases hr : rd 0 with
        | none => rw [hr] at hb; cases hb
        | some k =>
          rw [hr] at hb
          cases hb
          simp only [List.length_take, authMax]
          omega
      split at h
      · rename_i root j hp
        split at h
        · cases h
        · rename_i ks' hk
          cases h
          have h1 := keyStrings_size _ _ hk
          have h2 := parse_size hp
          have h3 : (b.takeWhile (· ≠ 0)).length ≤ b.length := (List.takeWhile_sublist _).length_le
          omega
      · cases h; simp
      · cases h

end Verif.Config
