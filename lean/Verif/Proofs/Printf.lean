import Verif.Model.Printf
import Verif.Spec.Date
import Mathlib.Tactic.Ring
namespace Verif.Printf
open DateSpec

/-- The last `w` decimal digits. -/
def digits : Nat → Nat → List UInt8
  | 0, _ => []
  | w + 1, n => digits w (n / 10) ++ [UInt8.ofNat (48 + n % 10)]

theorem digits_length (w n : Nat) : (digits w n).length = w := by
  induction w generalizing n with
  | zero => rfl
  | succ w ih => simp [digits, ih]

theorem digits_zero (w : Nat) : digits w 0 = List.replicate w 48 := by
  induction w with
  | zero => rfl
  | succ w ih => simp only [digits, Nat.zero_div, ih, List.replicate_succ']; rfl

theorem nat_small {n : Nat} (h : n < 10) : nat n = [UInt8.ofNat (48 + n)] := by rw [nat, if_pos h]

theorem nat_big {n : Nat} (h : ¬ n < 10) : nat n = nat (n / 10) ++ [UInt8.ofNat (48 + n % 10)] := by rw [nat, if_neg h]

theorem nat_pad (w n : Nat) (h : n < 10 ^ (w + 1)) :
    (nat n).length ≤ w + 1 ∧ List.replicate (w + 1 - (nat n).length) 48 ++ nat n = digits (w + 1) n := by
  induction w generalizing n with
  | zero =>
    rw [nat_small (by simpa using h)]
    simp [digits, Nat.mod_eq_of_lt (show n < 10 by simpa using h)]
  | succ w ih =>
    by_cases h1 : n < 10
    · rw [nat_small h1]
      refine ⟨by simp, ?_⟩
      rw [digits, show n / 10 = 0 by omega, digits_zero, Nat.mod_eq_of_lt h1]
      rfl
    · rw [nat_big h1]
      have hlt : n / 10 < 10 ^ (w + 1) := by rw [Nat.div_lt_iff_lt_mul (by omega)]; rwa [← Nat.pow_succ]
      have := ih (n / 10) hlt
      refine ⟨by simp; exact this.1, ?_⟩
      rw [List.length_append, List.length_singleton, show w + 1 + 1 - ((nat (n / 10)).length + 1) = w + 1 - (nat (n / 10)).length by omega,
        ← List.append_assoc, this.2, digits.eq_def (w + 1 + 1)]

theorem d0_digits {w : Nat} {i : Int} (hw : 0 < w) (h0 : 0 ≤ i) (h : i < 10 ^ w) : d0 w i = digits w i.toNat := by
  obtain ⟨v, rfl⟩ := Nat.exists_eq_succ_of_ne_zero (Nat.pos_iff_ne_zero.mp hw)
  obtain ⟨n, rfl⟩ := Int.eq_ofNat_of_zero_le h0
  rw [d0, if_neg (by omega)]
  exact (nat_pad v n (by exact_mod_cast h)).2

theorem digit_toNat {k : Nat} (h : k < 10) : (UInt8.ofNat (48 + k)).toNat = 48 + k := by
  rw [UInt8.toNat_ofNat', Nat.mod_eq_of_lt (by omega)]

theorem number_append (a : List UInt8) (b : UInt8) (v : Nat) (ha : number a = some v) (hb : 48 ≤ b.toNat ∧ b.toNat ≤ 57) :
    number (a ++ [b]) = some (10 * v + (b.toNat - 48)) := by
  induction a generalizing v with
  | nil => simp [number] at ha ⊢; subst ha; simp [hb]
  | cons x r ih =>
    simp only [number] at ha
    split at ha
    · rename_i hx
      cases hr : number r with
      | none => simp [hr] at ha
      | some u =>
        simp only [hr, Option.map_some, Option.some.injEq] at ha
        simp only [List.cons_append, number, if_pos hx, ih u hr, Option.map_some, Option.some.injEq, List.length_append, List.length_singleton]
        subst ha
        rw [Nat.pow_succ]
        ring_nf
    · simp at ha

theorem number_digits (w n : Nat) (h : n < 10 ^ w) : number (digits w n) = some n := by
  induction w generalizing n with
  | zero => simp only [Nat.pow_zero] at h; simp [digits, number]; omega
  | succ w ih =>
    have hlt : n / 10 < 10 ^ w := by rw [Nat.div_lt_iff_lt_mul (by omega)]; rwa [← Nat.pow_succ]
    have hd : n % 10 < 10 := Nat.mod_lt _ (by omega)
    rw [digits, number_append _ _ _ (ih _ hlt) (by rw [digit_toNat hd]; omega), digit_toNat hd]
    congr 1
    omega

theorem nat_number (n : Nat) : number (nat n) = some n := by
  fun_induction nat n with
  | case1 n h => simp [number]; omega
  | case2 n h ih =>
    have hd : n % 10 < 10 := Nat.mod_lt _ (by omega)
    rw [number_append _ _ _ ih (by rw [digit_toNat hd]; omega), digit_toNat hd]
    congr 1
    omega

theorem nat_ne_nil (n : Nat) : nat n ≠ [] := by
  rw [nat]; split <;> simp

theorem nat_digit (n : Nat) : ∀ b ∈ nat n, 48 ≤ b.toNat ∧ b.toNat ≤ 57 := by
  fun_induction nat n with
  | case1 n h => simp only [List.mem_singleton, forall_eq, digit_toNat h]; omega
  | case2 n h ih =>
    have hd : n % 10 < 10 := Nat.mod_lt _ (by omega)
    intro b hb
    rw [List.mem_append, List.mem_singleton] at hb
    rcases hb with hb | rfl
    · exact ih b hb
    · rw [digit_toNat hd]; omega

end Verif.Printf
