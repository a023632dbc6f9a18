import Verif.Spec.CJsonMem
/-
What it means that a value was created in memory. Used by C123.
-/
namespace Verif.CJsonMem
open Verif.CJson

variable {V : Type}

/-- Either an allocation failed, then the result is NULL and the memory is as before; or none failed, and the result is the document `j` in new blocks, each used once, and nothing else has changed. -/
def Creates (ok : Nat → Bool) (h : H V) (j : J V) (o : Option (Option Nat × H V)) : Prop :=
  (∃ h', o = some (none, h') ∧ h'.cells = h.cells ∧ ∃ k, h.used ≤ k ∧ k < h'.used ∧ ok k = false) ∨
  (∃ q h' T, o = some (some q, h') ∧ Doc h' q j T ∧ (∀ a ∈ T, h.used ≤ a) ∧ (∀ a, a ∉ T → h'.cells a = h.cells a) ∧ ∀ k, h.used ≤ k → k < h'.used → ok k = true)

/-- The value of an item that was created with nothing but a type. -/
inductive Bare : Ty V → J V → Prop
  | null : Bare .null .null
  | bool (b : Bool) : Bare (.bool b) (.bool b)
  | num (v : V) : Bare (.num v) (.num v)
  | array : Bare .array (.arr [])
  | object : Bare .object (.obj [])

end Verif.CJsonMem
