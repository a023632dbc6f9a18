import Verif.Model.Queue
/-
What it means for a heap to hold a set of queues.
-/
namespace Verif.Queue

/-- `a`, then the nodes of `xs`, then `b`, linked both ways. -/
def Seg (hp : Heap) : Nat → List Nat → Nat → Prop
  | a, [], b => (hp a).next = some b ∧ (hp b).prev = some a
  | a, x :: xs, b => (hp a).next = some x ∧ (hp x).prev = some a ∧ Seg hp x xs b

/-- Several queues, each a sentinel address with the sequence of its nodes. -/
abbrev Queues := List (Nat × List Nat)

/-- All addresses of the queues. -/
def addrs (w : Queues) : List Nat := (w.map (fun p => p.1 :: p.2)).flatten

/-- The heap holds exactly these queues, on disjoint nodes. -/
structure Holds (hp : Heap) (w : Queues) : Prop where
  seg : ∀ p ∈ w, Seg hp p.1 p.2 p.1
  nodup : (addrs w).Nodup

/-- Queue operations of a client. -/
inductive Op where
  | init (h : Nat)
  | insert (h q : Nat)
  | insertTail (h q : Nat)
  | remove (q : Nat)
deriving Repr, DecidableEq

/-- Meaning of an operation on sequences. -/
def specStep (w : Queues) : Op → Queues
  | .init h => (h, []) :: w
  | .insert h q => w.map (fun p => if p.1 = h then (p.1, q :: p.2) else p)
  | .insertTail h q => w.map (fun p => if p.1 = h then (p.1, p.2 ++ [q]) else p)
  | .remove q => w.map (fun p => (p.1, p.2.filter (· ≠ q)))

/-- When a client may perform an operation: new sentinels and inserted nodes are in no queue, the queue exists, a removed node
is an element of some queue. -/
def Legal (w : Queues) : Op → Prop
  | .init h => h ∉ addrs w
  | .insert h q => q ∉ addrs w ∧ h ∈ w.map Prod.fst
  | .insertTail h q => q ∉ addrs w ∧ h ∈ w.map Prod.fst
  | .remove q => ∃ p ∈ w, q ∈ p.2

/-- A run of operations all of which are legal where they happen. -/
def LegalRun : Queues → List Op → Prop
  | _, [] => True
  | w, op :: ops => Legal w op ∧ LegalRun (specStep w op) ops

/-- One operation on the heap. -/
def heapStep (hp : Heap) : Op → Option Heap
  | .init h => some (init hp h)
  | .insert h q => insert hp h q
  | .insertTail h q => insertTail hp h q
  | .remove q => some (remove hp q)

/-- A run of operations on the heap. -/
def heapRun (hp : Heap) : List Op → Option Heap
  | [] => some hp
  | op :: ops => (heapStep hp op).bind (heapRun · ops)

end Verif.Queue
