import Verif.Spec.Config
import Verif.Model.CJsonPrint
/-
When two documents are the same: arrays element by element, objects by name, in any order. Used by C119.
-/
namespace Verif.CJsonCompare.Spec
open Verif.CJson (J)
open Verif.CJsonPrint (Dbl)

/-- A string up to its first zero byte. -/
def cstr (s : List UInt8) : List UInt8 := s.takeWhile (· ≠ 0)

/-- Two names are the same, with or without regard to case. -/
def NameEq (cs : Bool) (a b : List UInt8) : Prop := if cs then cstr a = cstr b else Config.Spec.Alike (cstr a) (cstr b)

/-- Two numbers are the same up to the last bit of the larger one. -/
def NumEq : Dbl → Dbl → Prop
  | .fin a, .fin b => (a - b).abs ≤ max a.abs b.abs / 2 ^ 52
  | _, _ => False

/-- Two documents are the same. -/
def Same (cs : Bool) : J Dbl → J Dbl → Prop
  | .null, .null => True
  | .bool a, .bool b => a = b
  | .num a, .num b => NumEq a b
  | .str a, .str b => cstr a = cstr b
  | .arr xs, .arr ys => ∃ h : xs.length = ys.length, ∀ i (hi : i < xs.length), Same cs xs[i] ys[i]
  | .obj xs, .obj ys =>
    (∀ x, ∀ _ : x ∈ xs, ∃ y ∈ ys, NameEq cs x.1 y.1 ∧ Same cs x.2 y.2) ∧ (∀ y ∈ ys, ∃ x, ∃ _ : x ∈ xs, NameEq cs x.1 y.1 ∧ Same cs x.2 y.2)
  | _, _ => False
termination_by a => sizeOf a
decreasing_by
  · have := List.sizeOf_lt_of_mem (List.getElem_mem hi); simp; omega
  · rename_i h; have := List.sizeOf_lt_of_mem h; rcases x with ⟨a, b⟩; simp at this ⊢; omega
  · have := List.sizeOf_lt_of_mem ‹x ∈ xs›; rcases x with ⟨a, b⟩; simp at this ⊢; omega

/-- No object has two members of the same name, and every number is finite. -/
inductive Clear (cs : Bool) : J Dbl → Prop
  | null : Clear cs .null
  | bool (b : Bool) : Clear cs (.bool b)
  | num (q : Rat) : Clear cs (.num (.fin q))
  | str (s : List UInt8) : Clear cs (.str s)
  | arr {xs : List (J Dbl)} : (∀ x ∈ xs, Clear cs x) → Clear cs (.arr xs)
  | obj {xs : List (List UInt8 × J Dbl)} : (xs.Pairwise fun x y => ¬ NameEq cs x.1 y.1) → (∀ x ∈ xs, Clear cs x.2) → Clear cs (.obj xs)

/-- The nesting is at most `n`. -/
inductive Depth : Nat → J Dbl → Prop
  | null (n : Nat) : Depth n .null
  | bool (n : Nat) (b : Bool) : Depth n (.bool b)
  | num (n : Nat) (d : Dbl) : Depth n (.num d)
  | str (n : Nat) (s : List UInt8) : Depth n (.str s)
  | arr {n : Nat} {xs : List (J Dbl)} : (∀ x ∈ xs, Depth n x) → Depth (n + 1) (.arr xs)
  | obj {n : Nat} {xs : List (List UInt8 × J Dbl)} : (∀ x ∈ xs, Depth n x.2) → Depth (n + 1) (.obj xs)

end Verif.CJsonCompare.Spec
