/-
The intrusive doubly linked queue: src/common/util/queue.c. Pointers are addresses in a heap.
-/
namespace Verif.Queue

/-- A queue node `queue_t` (src/common/util/queue.h): `prev` and `next`; `none` is NULL. -/
structure Cell where
  prev : Option Nat
  next : Option Nat
deriving Repr, DecidableEq

/-- The heap of queue nodes. See src/common/util/queue.h:10-13. -/
abbrev Heap := Nat → Cell

/-- `*a = c`. See src/common/util/queue.c:3-37. -/
def Heap.set (hp : Heap) (a : Nat) (c : Cell) : Heap := fun x => if x = a then c else hp x

/-- `a->next = v` See src/common/util/queue.c:3-37. -/
def setNext (hp : Heap) (a : Nat) (v : Option Nat) : Heap := hp.set a { hp a with next := v }

/-- `a->prev = v` See src/common/util/queue.c:3-37. -/
def setPrev (hp : Heap) (a : Nat) (v : Option Nat) : Heap := hp.set a { hp a with prev := v }

/-- `queue_init` (src/common/util/queue.c:3-6). -/
def init (hp : Heap) (q : Nat) : Heap := setNext (setPrev hp q (some q)) q (some q)

/-- `queue_insert` (src/common/util/queue.c:8-14); `none` is a NULL dereference. -/
def insert (hp : Heap) (h q : Nat) : Option Heap :=
  let hp := setNext hp q (hp h).next
  let hp := setPrev hp q (some h)
  match (hp h).next with
  | none => none
  | some n =>
    let hp := setPrev hp n (some q)
    some (setNext hp h (some q))

/-- `queue_insert_tail` (src/common/util/queue.c:16-26). -/
def insertTail (hp : Heap) (h q : Nat) : Option Heap :=
  match (hp h).prev with
  | none => none
  | some last =>
    let hp := setNext hp q (hp last).next
    let hp := setPrev hp q (some last)
    match (hp last).next with
    | none => none
    | some n =>
      let hp := setPrev hp n (some q)
      some (setNext hp last (some q))

/-- `queue_remove` (src/common/util/queue.c:28-37). -/
def remove (hp : Heap) (q : Nat) : Heap :=
  let hp := match (hp q).prev with
    | none => hp
    | some p => setNext hp p (hp q).next
  let hp := match (hp q).next with
    | none => hp
    | some n => setPrev hp n (hp q).prev
  let hp := setPrev hp q none
  setNext hp q none

/-- `queue_empty` (src/common/util/queue.c:39-41). -/
def isEmpty (hp : Heap) (h : Nat) : Bool := (hp h).prev == some h

/-- `queue_head` (src/common/util/queue.c:43-45) and `queue_next` (47-49). -/
def next (hp : Heap) (q : Nat) : Option Nat := (hp q).next

/-- `queue_prev` (src/common/util/queue.c:51-53). -/
def prev (hp : Heap) (q : Nat) : Option Nat := (hp q).prev

/-- `queue_tail` (src/common/util/queue.c:55-57): the sentinel, used as end marker when iterating. -/
def tail (h : Nat) : Nat := h

/-- The iteration idiom `for (q = queue_head(h); q != queue_tail(h); q = queue_next(q))` of the callers, written there as a `while` loop
(e.g. src/dns/dns.c:64-80, src/common/event.c:152, src/common/util/ezhash.c:77): the visited nodes. The bound is the number of steps allowed. -/
def walk (hp : Heap) (h : Nat) : Nat → Option Nat → Option (List Nat)
  | _, none => none
  | 0, some _ => none
  | k + 1, some q => if q = tail h then some [] else (walk hp h k (next hp q)).map (q :: ·)

end Verif.Queue
