/-
The binary heap: src/common/util/bheap.c. Nodes are identified by a number (their address).
-/
namespace Verif.BHeap

/-- `heap_t` and the `heap_node_t`s it points to (src/common/util/bheap.h:9-19): `arr` is `array[]`, `n` is `index`, `key` and
`idx` are the fields of each node. -/
structure Heap where
  n : Nat
  space : Nat
  arr : Nat → Nat
  key : Nat → Int
  idx : Nat → Nat

/-- One entry of a function changed. See src/common/util/bheap.c:30-80. -/
def set {α : Type} (f : Nat → α) (a : Nat) (v : α) : Nat → α := fun x => if x = a then v else f x

/-- `heap->array[i] = x; heap->array[i]->index = i` (src/common/util/bheap.c:40-41, 45-46, 70-71, 77-78). -/
def Heap.put (h : Heap) (i x : Nat) : Heap := { h with arr := set h.arr i x, idx := set h.idx x i }

/-- `heap_create` (src/common/util/bheap.c:8-20); nodes have whatever keys and indices they have. -/
def create (space : Nat) (key : Nat → Int) (idx : Nat → Nat) : Heap := ⟨0, space, fun _ => 0, key, idx⟩

/-- The loop of `heap_add` (src/common/util/bheap.c:39-46). -/
def siftUp (h : Heap) (node i : Nat) : Heap :=
  if hi : i / 2 ≠ 0 ∧ h.key node < h.key (h.arr (i / 2)) then
    siftUp (h.put i (h.arr (i / 2))) node (i / 2)
  else h.put i node
termination_by i
decreasing_by omega

/-- `heap_add` (src/common/util/bheap.c:30-48); `none` is −1. -/
def add (h : Heap) (node : Nat) : Option Heap :=
  if h.n ≥ h.space then none else some (siftUp { h with n := h.n + 1 } node (h.n + 1))

/-- The smaller child (src/common/util/bheap.c:64-67). -/
def childMin (h : Heap) (i : Nat) : Nat :=
  if i * 2 + 1 ≤ h.n then (if h.key (h.arr (i * 2)) < h.key (h.arr (i * 2 + 1)) then i * 2 else i * 2 + 1) else i * 2

theorem childMin_eq (h : Heap) (i : Nat) : childMin h i = i * 2 ∨ (childMin h i = i * 2 + 1 ∧ i * 2 + 1 ≤ h.n) := by
  unfold childMin; split
  · split
    · exact Or.inl rfl
    · rename_i h1 _; exact Or.inr ⟨rfl, h1⟩
  · exact Or.inl rfl

/-- The loop of `heap_del` (src/common/util/bheap.c:63-78); `h.n` has been decremented, `i` is at least 1. -/
def siftDown (h : Heap) (tail i : Nat) : Heap :=
  if _hi : i ≠ 0 ∧ i * 2 ≤ h.n ∧ h.key tail ≥ h.key (h.arr (childMin h i)) then
    siftDown (h.put i (h.arr (childMin h i))) tail (childMin h i)
  else h.put i tail
termination_by h.n - i
decreasing_by
  have h1 : (h.put i (h.arr (childMin h i))).n = h.n := rfl
  rw [h1]
  rcases childMin_eq h i with h2 | ⟨h2, h3⟩ <;> omega

/-- `heap_del` (src/common/util/bheap.c:50-80). The outer `none` is the NULL dereference of `array[0]` when the index is 0;
the inner `none` is −1. -/
def del (h : Heap) (i : Nat) : Option (Option Heap) :=
  if h.space < 1 ∨ h.n < 1 then some none
  else if i > h.n then some none
  else if i = 0 then none
  else some (some (siftDown { h with n := h.n - 1 } (h.arr h.n) i))

/-- `heap_min` (src/common/util/bheap.c:90-96). -/
def minNode (h : Heap) : Option Nat := if h.n < 1 ∨ h.space < 1 then none else some (h.arr 1)

end Verif.BHeap
