/-
The ring buffer: src/common/ringbuffer.c. The lock is not modelled: every call holds it from beginning to end. Pointers into the buffer are
offsets from `start`; `int` is unbounded. Copies that leave the buffer are a separate outcome.
-/
namespace Verif.Ring

/-- `ringbuffer_t` (src/common/ringbuffer.h:9-19): `mem` is `data[0 .. space)`, so `start` is 0 and `end` is `space`. -/
structure R where
  mem : List UInt8
  pos : Nat := 0
  last : Nat := 0
  datan : Int := 0
deriving DecidableEq, Repr

/-- `rb->space` (src/common/ringbuffer.c:14): the size given at creation. -/
def R.space (r : R) : Nat := r.mem.length

/-- `ringbuffer_alloc` (src/common/ringbuffer.c:7-21); the pool hands out zeroed memory (C15). -/
def alloc (size : Nat) : R := ⟨List.replicate size 0, 0, 0, 0⟩

/-- `memcpy` into the buffer (src/common/ringbuffer.c:59, 64, 70, 77); `none`: outside the buffer. -/
def store (m : List UInt8) (o : Nat) (d : List UInt8) : Option (List UInt8) :=
  if o + d.length ≤ m.length then some (m.take o ++ d ++ m.drop (o + d.length)) else none

/-- `memcpy` out of the buffer (src/common/ringbuffer.c:97, 105, 113, 120); `none`: outside the buffer. -/
def load (m : List UInt8) (o n : Nat) : Option (List UInt8) :=
  if o + n ≤ m.length then some ((m.drop o).take n) else none

/-- What a call does: −1, 0 with the new state (and the bytes handed out), or an access outside the buffer. See src/common/ringbuffer.c:40-129. -/
inductive Res where
  | fail
  | ok (r : R) (out : List UInt8)
  | oob
deriving DecidableEq, Repr

/-- Lines 55-73 of `ringbuffer_push` (src/common/ringbuffer.c): `pos <= last`. A negative `tailn` (last beyond the end) is passed to `memcpy`. -/
def pushHigh (r : R) (d : List UInt8) : Res :=
  if r.last > r.space then .oob
  else if r.space - r.last ≥ d.length then
    match store r.mem r.last d with
    | none => .oob
    | some m => .ok { r with mem := m, last := r.last + d.length, datan := r.datan + d.length } []
  else
    match store r.mem r.last (d.take (r.space - r.last)) with
    | none => .oob
    | some m1 =>
      match store m1 0 (d.drop (r.space - r.last)) with
      | none => .oob
      | some m2 =>
        -- `last` returns to the start only `if(tailn)` (lines 63-68)
        .ok { r with
          mem := m2
          last := (if r.space - r.last ≠ 0 then 0 else r.last) + (d.length - (r.space - r.last))
          datan := r.datan + d.length } []

/-- Lines 74-80 of `ringbuffer_push` (src/common/ringbuffer.c): `last < pos`. The fields advance by the free space, not by the data. -/
def pushLow (r : R) (d : List UInt8) : Res :=
  match store r.mem r.last d with
  | none => .oob
  | some m => .ok { r with mem := m, last := r.last + (r.pos - r.last), datan := r.datan + (r.pos - r.last : Nat) } []

/-- `ringbuffer_push` (src/common/ringbuffer.c:40-83). -/
def push (r : R) (d : List UInt8) : Res :=
  if r.datan = r.space then .fail
  else if (d.length : Int) > r.space - r.datan then .fail
  else if r.pos ≤ r.last then pushHigh r d
  else pushLow r d

/-- `(datan >= k ? k : datan)` (src/common/ringbuffer.c:96, 119). -/
def least (n k : Nat) : Nat := if n ≥ k then k else n

/-- Lines 94-100 of `ringbuffer_pull` (src/common/ringbuffer.c): `pos < last`. -/
def pullHigh (r : R) (n : Nat) : Res :=
  match load r.mem r.pos (least n (r.last - r.pos)) with
  | none => .oob
  | some o => .ok { r with pos := r.pos + least n (r.last - r.pos), datan := r.datan - (least n (r.last - r.pos) : Nat) } o

/-- Lines 101-126 of `ringbuffer_pull` (src/common/ringbuffer.c): `last <= pos`. A negative `tailn` is passed to `memcpy`. -/
def pullLow (r : R) (n : Nat) : Res :=
  if r.pos > r.space then .oob
  else if r.space - r.pos ≥ n then
    match load r.mem r.pos n with
    | none => .oob
    | some o => .ok { r with pos := r.pos + n, datan := r.datan - n } o
  else
    match load r.mem r.pos (r.space - r.pos) with
    | none => .oob
    | some o1 =>
      match load r.mem 0 (least (n - (r.space - r.pos)) r.last) with
      | none => .oob
      | some o2 =>
        -- `pos` returns to the start only `if(tailn)` (lines 112-117)
        .ok { r with
          pos := (if r.space - r.pos ≠ 0 then 0 else r.pos) + least (n - (r.space - r.pos)) r.last
          datan := r.datan - (r.space - r.pos : Nat) - (least (n - (r.space - r.pos)) r.last : Nat) } (o1 ++ o2)

/-- `ringbuffer_pull` (src/common/ringbuffer.c:85-129) with a buffer of at least `n` bytes; the bytes written are the second component. -/
def pull (r : R) (n : Nat) : Res :=
  if r.datan = 0 then .fail
  else if r.pos < r.last then pullHigh r n
  else pullLow r n

/-- A call made by the user. See src/common/ringbuffer.c:40-129. -/
inductive Op where
  | push (d : List UInt8)
  | pull (n : Nat)
deriving DecidableEq, Repr

/-- One call. See src/common/ringbuffer.c:40-129. -/
def step (r : R) : Op → Res
  | .push d => push r d
  | .pull n => pull r n

/-- What the user sees of a call: refused, done with these bytes, or undefined. See src/common/ringbuffer.c:40-129. -/
inductive Seen where
  | fail
  | ok (out : List UInt8)
  | oob
deriving DecidableEq, Repr

/-- A sequence of calls; nothing is defined after an access outside the buffer. See src/common/ringbuffer.c:40-129. -/
def run (r : R) : List Op → List Seen
  | [] => []
  | o :: os =>
    match step r o with
    | .fail => .fail :: run r os
    | .ok r' out => .ok out :: run r' os
    | .oob => [.oob]

end Verif.Ring
