import Verif.Proofs.AhoFree
import Verif.Proofs.KeySize
/-
Property C90: releasing the key matcher.
-/
namespace Verif.Aho
open scoped List

/-- C90, for the keys themselves: the depth-first release of the matcher stays inside its stack of 4096 entries, ends, and frees every node that
the keys made exactly once: the nonempty prefixes of the keys, as the automaton distinguishes them. -/
theorem c90_keys (keys : List (List UInt8)) (hsz : keys.flatten.length ≤ 4096) :
    ∃ out, freeAll (addAll keys) = .ok out ∧ out.Nodup ∧
      ∀ p : List Nat, p.reverse ∈ out ↔ p ≠ [] ∧ ∃ k ∈ keys, p <+: k.map (fun b => if b.toNat < 128 then b.toNat else 0) := by
  obtain ⟨out, h1, h2⟩ := freeAll_ok (addAll_ok keys) (Nat.le_trans (nodes_length keys) hsz)
  refine ⟨out, h1, h2.nodup_iff.mpr (addAll_ok keys).nodup, fun p => ?_⟩
  rw [h2.mem_iff, mem_nodes, List.reverse_reverse]
  simp only [ne_eq, List.reverse_eq_nil_iff]
  rfl

/-- Case: the keys `ab` and `c` make three nodes. -/
example : ∃ out, freeAll (addAll [[97, 98], [99]]) = .ok out ∧ out.Nodup ∧ [98, 97] ∈ out := by
  obtain ⟨out, h1, h2, h3⟩ := c90_keys [[97, 98], [99]] (by decide)
  exact ⟨out, h1, h2, (h3 [97, 98]).2 ⟨by simp, [97, 98], by simp, by decide⟩⟩

/-- C90. Whatever the key file contains and however much of it is read: if the worker got past reading its keys, then at its end the release of
the matcher stays inside its stack, ends, and frees every node that the keys made exactly once. -/
theorem c90_freed_once (strtod : List UInt8 → Nat × Int) (file : Option (List UInt8)) (rd : Nat → Option Nat) (keys : List (List UInt8))
    (h : Config.authKeys strtod file rd = .ok (some keys)) :
    ∃ out, freeAll (addAll keys) = .ok out ∧ out.Nodup ∧
      ∀ p : List Nat, p.reverse ∈ out ↔ p ≠ [] ∧ ∃ k ∈ keys, p <+: k.map (fun b => if b.toNat < 128 then b.toNat else 0) :=
  c90_keys keys (Config.authKeys_size h)

/-- The file `["ab","c"]`: its keys, and the three nodes freed. -/
example : Config.authKeys (fun s => (s.length, 0)) (some "[\"ab\",\"c\"]".toUTF8.toList) (fun _ => some 4096) = .ok (some [[97, 98], [99]]) ∧
    freeAll (addAll [[97, 98], [99]]) = .ok [[99], [97], [98, 97]] := by
  constructor <;> decide +kernel

/-- Three keys sharing prefixes: six nodes, each freed once, children after the nodes that lead to them. -/
example : freeAll (addAll [[97, 98], [97, 99, 100], [120, 255]]) =
    .ok [[120], [0, 120], [97], [99, 97], [100, 99, 97], [98, 97]] := by decide +kernel

/-- Without the bound the stack is overrun: a root with 128 children, each with as many, needs more than 4096 entries. -/
theorem c90_bound_needed {t : Trie} (stack : List Path) (p : Path) (i : Nat) (hi : i :: p ∈ t.nodes) (hs : 4096 ≤ stack.length) :
    pushKids t p [i] stack = .error .overflow := by
  simp [pushKids, hi, push, stackMax, Nat.not_lt.mpr hs]

end Verif.Aho
