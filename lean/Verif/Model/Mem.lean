/-
The memory pool: src/common/mem.c (the default build, MEM_BY_SYSCALL undefined).

The two queues of a size class are modelled as sequences of object indices; property C18 (Verif/Props/Queue.lean) is the
theorem that the pointer queues behave like that. Locking is modelled only by whether the lock is left held.
-/
namespace Verif.Mem

/-- Number of size classes (src/common/mem.c:17). -/
def nclass : Nat := 6

/-- Block size of a class (src/common/mem.c:92-105). -/
def space : Nat → Nat
  | 0 => 512
  | 1 => 1024
  | 2 => 2048
  | 3 => 4096
  | 4 => 8192
  | 5 => 16384
  | _ => 0

/-- Number of objects of a class (src/common/mem.c:18, 91-94). -/
def count : Nat → Nat
  | 0 => 2048
  | _ => 1024

/-- `sizeof(mem_obj_t)` (src/common/mem.c:24-29): two pointers and two ints. -/
def hdr : Nat := 24

/-- Bytes per object (src/common/mem.c:106, 118). -/
def stride (i : Nat) : Nat := hdr + space i

/-- Pool state (src/common/mem.c:31-36, 46): the address of each class's area, the free and the used objects of each class in
queue order, memory content, and whether the lock is held by a returned call. -/
structure St where
  base : Nat → Nat
  usable : Nat → List Nat
  inuse : Nat → List Nat
  mem : Nat → UInt8
  locked : Bool

/-- Address handed to the user for object `j` of class `i` (`obj->addr`, src/common/mem.c:28, 113-119). -/
def St.addr (s : St) (i j : Nat) : Nat := s.base i + j * stride i + hdr

/-- `mem_pool_init` (src/common/mem.c:82-122); `base` are the results of `malloc`, assumed to succeed. -/
def init (base : Nat → Nat) : St where
  base := base
  usable := fun i => List.range (count i)
  inuse := fun _ => []
  mem := fun _ => 0
  locked := false

/-- Choice of the size class (src/common/mem.c:146-168). -/
def pick (size : Int) : Option Nat :=
  if size ≤ 512 then some 0
  else if size ≤ 1024 then some 1
  else if size ≤ 2048 then some 2
  else if size ≤ 4096 then some 3
  else if size ≤ 8192 then some 4
  else if size ≤ 16384 then some 5
  else none

/-- Replace one class's queue. See src/common/mem.c:31-36. -/
def upd (f : Nat → List Nat) (i : Nat) (l : List Nat) : Nat → List Nat := fun k => if k = i then l else f k

/-- `memset(a, 0, n)` See src/common/mem.c:175. -/
def zero (mem : Nat → UInt8) (a n : Nat) : Nat → UInt8 := fun x => if a ≤ x ∧ x < a + n then 0 else mem x

/-- Result of a call: a block, NULL, or plain return. See src/common/mem.c:124-178. -/
inductive Ret where
  | ptr (i j : Nat)
  | null
  | done
deriving Repr, DecidableEq

/-- Outcome of a call. `corrupt` is the case where the list sentinel is taken as an object: it is unlinked, put on the
used queue, and the bytes after it are overwritten. See src/common/mem.c:124-178. -/
inductive Outcome where
  | next (r : Ret) (s : St)
  | assertFail
  | hang
  | corrupt

/-- `mem_pool_alloc` (src/common/mem.c:134-178). -/
def alloc (s : St) (size : Int) : Outcome :=
  if size ≤ 0 then .assertFail
  else if s.locked then .hang
  else if s.usable 0 = [] then .next .null s
  else match pick size with
    | none => .next .null s
    | some i => match s.usable i with
      | [] => .corrupt
      | j :: rest =>
        .next (.ptr i j)
          { s with
            usable := upd s.usable i rest
            inuse := upd s.inuse i (s.inuse i ++ [j])
            mem := zero s.mem (s.addr i j) (space i) }

/-- `mem_pool_free` (src/common/mem.c:124-132) of object `j` of class `i`, whichever of the two queues it is in. -/
def free (s : St) (i j : Nat) : Outcome :=
  if s.locked then .hang
  else .next .done
    { s with
      usable := upd s.usable i ((s.usable i).erase j ++ [j])
      inuse := upd s.inuse i ((s.inuse i).erase j) }

/-- `mem_pool_free` of a pointer that is not preceded by the magic number (src/common/mem.c:127): returns with the lock held. -/
def freeForeign (s : St) : Outcome :=
  if s.locked then .hang else .next .null { s with locked := true }

/-- What a program does with the pool. See src/common/mem.c:124-178. -/
inductive Op where
  | alloc (size : Int)
  | free (i j : Nat)
  | freeForeign
  | write (a : Nat) (v : UInt8)
deriving Repr, DecidableEq

/-- One action; `write` is the program storing a byte inside a block it holds. Object headers are not part of `mem`: that such stores
never reach a header is theorem `c15_headers_apart`. See src/common/mem.c:124-178. -/
def step (s : St) : Op → Outcome
  | .alloc n => alloc s n
  | .free i j => free s i j
  | .freeForeign => freeForeign s
  | .write a v => .next .done { s with mem := fun x => if x = a then v else s.mem x }

/-- A run: the results in order and the final state; `none` if the process aborted, hung or corrupted the pool. See src/common/mem.c:124-178. -/
def run (s : St) : List Op → Option (List Ret × St)
  | [] => some ([], s)
  | op :: ops => match step s op with
    | .next r s' => (run s' ops).map (fun p => (r :: p.1, p.2))
    | _ => none

end Verif.Mem
