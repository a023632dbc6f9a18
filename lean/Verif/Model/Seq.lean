/-
The containers `mem_list` and `mem_arr`: src/common/util/list.c, src/common/util/arr.c. Nodes live in pool blocks; an address is a number. What
the pool does is C15-C17: it hands out an address that is not in use, or fails.
-/
namespace Verif.Seq

/-- `mem_list_t` (src/common/util/list.h:10-15) and `mem_arr_part_t` (src/common/util/arr.h:10-14): a link and the data that follows. -/
structure Node (α : Type) where
  next : Option Nat
  data : α

/-- Memory: which blocks hold nodes. See src/common/util/list.h:10-15, src/common/util/arr.h:10-14. -/
abbrev Heap (α : Type) := Nat → Option (Node α)

/-- Memory with one block changed. See src/common/util/list.c:17-36, src/common/util/arr.c:15-29. -/
def Heap.set {α : Type} (h : Heap α) (a : Nat) (n : Option (Node α)) : Heap α := fun x => if x = a then n else h x

/-- `p->next = q` (src/common/util/list.c:33, src/common/util/arr.c:24); `none`: not a node. -/
def link {α : Type} (h : Heap α) (p q : Nat) : Option (Heap α) :=
  match h p with
  | none => none
  | some n => some (h.set p (some { n with next := some q }))

/-! ### list.c -/

/-- `while(p->next) p = p->next` (src/common/util/list.c:30-32), at most `fuel` steps (`none` when they do not suffice or a link is bad). -/
def lastOf {α : Type} (h : Heap α) : (fuel : Nat) → Nat → Option Nat
  | 0, _ => none
  | f + 1, p =>
    match h p with
    | none => none
    | some n =>
      match n.next with
      | none => some p
      | some q => lastOf h f q

/-- `mem_list_push` (src/common/util/list.c:17-36) with the block `a` the pool returned; the data is the string up to its NUL (19, 24). -/
def listPush (h : Heap (List UInt8)) (head : Option Nat) (a : Nat) (s : List UInt8) (fuel : Nat) : Option (Heap (List UInt8) × Option Nat) :=
  let h1 := h.set a (some ⟨none, s.takeWhile (· ≠ 0)⟩)
  match head with
  | none => some (h1, some a)
  | some p =>
    match lastOf h1 fuel p with
    | none => none
    | some q => (link h1 q a).map fun h2 => (h2, head)

/-- Following the links, as a user of the list does (e.g. src/common/util/list.c:9-13): the addresses in order. -/
def walk {α : Type} (h : Heap α) : (fuel : Nat) → Option Nat → Option (List Nat)
  | _, none => some []
  | 0, some _ => none
  | f + 1, some p =>
    match h p with
    | none => none
    | some n => (walk h f n.next).map (p :: ·)

/-- `mem_list_free` (src/common/util/list.c:4-15) and the loop of `mem_arr_free` (src/common/util/arr.c:35-40): the blocks given back, in order; `none`:
a block is used after it was given back. The link is read before the block is released. -/
def freeAll {α : Type} (h : Heap α) : (fuel : Nat) → Option Nat → Option (Heap α × List Nat)
  | _, none => some (h, [])
  | 0, some _ => none
  | f + 1, some p =>
    match h p with
    | none => none
    | some n => (freeAll (h.set p none) f n.next).map fun r => (r.1, p :: r.2)

/-! ### arr.c -/

/-- `mem_arr_t` (src/common/util/arr.h:15-21); `elem_size` only determines the size of the blocks. -/
structure Arr where
  num : Nat := 0
  head : Option Nat := none
  last : Option Nat := none

/-- `mem_arr_push` (src/common/util/arr.c:15-29) with the block `a` the pool returned, followed by the caller storing `v` at the returned pointer. The
block is zeroed, so its link is NULL. -/
def arrPush {α : Type} (h : Heap α) (l : Arr) (a : Nat) (v : α) : Option (Heap α × Arr) :=
  let h1 := h.set a (some ⟨none, v⟩)
  if l.num = 0 then some (h1, ⟨1, some a, some a⟩)
  else
    match l.last with
    | none => none
    | some q => (link h1 q a).map fun h2 => (h2, ⟨l.num + 1, l.head, some a⟩)

/-- `while(i < index) head = head->next` (src/common/util/arr.c:54-57) with `k = index - i` steps left; the outer `none`: NULL is dereferenced. -/
def advance {α : Type} (h : Heap α) : (k : Nat) → Option Nat → Option (Option α)
  | 0, p =>
    match p with
    | none => none
    | some a => (h a).map fun n => some n.data
  | k + 1, p =>
    match p with
    | none => none
    | some a =>
      match h a with
      | none => none
      | some n => advance h k n.next

/-- `mem_arr_get` (src/common/util/arr.c:45-59): `some none` is NULL. -/
def arrGet {α : Type} (h : Heap α) (l : Arr) (index : Int) : Option (Option α) :=
  if index < 1 ∨ index > l.num then some none else advance h (index.toNat - 1) l.head

/-- A history of pushes: `none` when the pool fails (src/common/util/arr.c:18), else the block it returned and the value stored. -/
def arrRun {α : Type} (h : Heap α) (l : Arr) : List (Option (Nat × α)) → Option (Heap α × Arr)
  | [] => some (h, l)
  | none :: ps => arrRun h l ps
  | some (a, v) :: ps =>
    match arrPush h l a v with
    | none => none
    | some (h', l') => arrRun h' l' ps

/-- A history of `mem_list_push` calls; `none`: the pool failed (src/common/util/list.c:21). `fuel` bounds the walk to the end. -/
def listRun (fuel : Nat) (h : Heap (List UInt8)) (head : Option Nat) : List (Option (Nat × List UInt8)) → Option (Heap (List UInt8) × Option Nat)
  | [] => some (h, head)
  | none :: ps => listRun fuel h head ps
  | some (a, s) :: ps =>
    match listPush h head a s fuel with
    | none => none
    | some (h', hd') => listRun fuel h' hd' ps

end Verif.Seq
