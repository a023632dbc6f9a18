import Verif.Model.Mem
/-
What a user of the pool may do and rely on.
-/
namespace Verif.Mem

/-- `malloc` gave pairwise disjoint areas for the six classes. -/
def Layout (base : Nat → Nat) : Prop :=
  ∀ i < nclass, ∀ k < nclass, i ≠ k →
    base i + stride i * count i ≤ base k ∨ base k + stride k * count k ≤ base i

/-- Blocks live after a history, given those live before it: handed out by an allocation and not freed since. -/
def live (acc : List (Nat × Nat)) : List (Op × Ret) → List (Nat × Nat)
  | [] => acc
  | (.alloc _, .ptr i j) :: t => live (acc ++ [(i, j)]) t
  | (.free i j, _) :: t => live (acc.filter (· ≠ (i, j))) t
  | _ :: t => live acc t

/-- A block handed to the user: `n` bytes at `a`. -/
def inBlock (a n x : Nat) : Prop := a ≤ x ∧ x < a + n

/-- Frees name blocks of the pool (allocated or already freed). -/
def okOp : Op → Prop
  | .free i j => i < nclass ∧ j < count i
  | _ => True

/-- The byte at `x` after stores, `v` before them. -/
def stored (x : Nat) (v : UInt8) : List Op → UInt8
  | [] => v
  | .write a w :: t => stored x (if a = x then w else v) t
  | _ :: t => stored x v t

end Verif.Mem
