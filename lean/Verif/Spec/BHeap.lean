import Verif.Model.BHeap
/-
What a heap contains, and when it is well formed.
-/
namespace Verif.BHeap

/-- The nodes present. -/
def elems (h : Heap) : List Nat := (List.range h.n).map (fun i => h.arr (i + 1))

/-- Every node present knows its position. -/
def Indexed (h : Heap) : Prop := ∀ i, 1 ≤ i → i ≤ h.n → h.idx (h.arr i) = i

/-- Parents have keys no larger than their children's. -/
def Ordered (h : Heap) : Prop := ∀ i, 2 ≤ i → i ≤ h.n → h.key (h.arr (i / 2)) ≤ h.key (h.arr i)

/-- Operations: insert a node, delete a node (by its stored index). -/
inductive Op where
  | add (x : Nat)
  | del (x : Nat)
deriving Repr, DecidableEq

/-- One operation as a caller performs it: a failed insertion changes nothing; `none` is a crash. -/
def step (h : Heap) : Op → Option Heap
  | .add x => some ((add h x).getD h)
  | .del x => (del h (h.idx x)).map (·.getD h)

/-- A run of operations. -/
def run (h : Heap) : List Op → Option Heap
  | [] => some h
  | op :: ops => (step h op).bind (run · ops)

/-- Meaning of a run on the set of nodes present, given the capacity. -/
def specStep (space : Nat) (l : List Nat) : Op → List Nat
  | .add x => if l.length < space then x :: l else l
  | .del x => l.erase x

/-- A caller inserts nodes that are absent and deletes nodes that are present. -/
def legal (l : List Nat) : Op → Prop
  | .add x => x ∉ l
  | .del x => x ∈ l

/-- Every operation is legal where it happens. -/
def LegalRun (space : Nat) : List Nat → List Op → Prop
  | _, [] => True
  | l, op :: ops => legal l op ∧ LegalRun space (specStep space l op) ops

end Verif.BHeap
