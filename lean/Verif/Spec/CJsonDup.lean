import Verif.Model.CJson
/-
What a user of C strings sees of a document: strings end at the first zero byte. Used by C118.
-/
namespace Verif.CJsonMem
open Verif.CJson

variable {V : Type}

/-- A string up to its first zero byte. -/
def cstr (s : List UInt8) : List UInt8 := s.takeWhile (· ≠ 0)

/-- The document with every string and every name up to its first zero byte. -/
def seen : J V → J V
  | .null => .null
  | .bool b => .bool b
  | .num v => .num v
  | .str s => .str (cstr s)
  | .arr xs => .arr (xs.attach.map fun ⟨x, _⟩ => seen x)
  | .obj xs => .obj (xs.attach.map fun ⟨x, _⟩ => (cstr x.1, seen x.2))
termination_by j => sizeOf j
decreasing_by
  · rename_i h; have := List.sizeOf_lt_of_mem h; simp; omega
  · rename_i h; have := List.sizeOf_lt_of_mem h; rcases x with ⟨a, b⟩; simp at this ⊢; omega

/-- No string and no name has a zero byte in it. -/
inductive NoZero : J V → Prop
  | null : NoZero .null
  | bool (b : Bool) : NoZero (.bool b)
  | num (v : V) : NoZero (.num v)
  | str {s : List UInt8} : 0 ∉ s → NoZero (.str s)
  | arr {xs : List (J V)} : (∀ x ∈ xs, NoZero x) → NoZero (.arr xs)
  | obj {xs : List (List UInt8 × J V)} : (∀ x ∈ xs, 0 ∉ x.1) → (∀ x ∈ xs, NoZero x.2) → NoZero (.obj xs)

end Verif.CJsonMem
