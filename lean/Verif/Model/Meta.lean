/-
Growable-window buffers: src/common/meta.c, src/common/meta.h.
-/
namespace Verif.Meta

/-- `meta_t` (src/common/meta.h:10-18). `data` is the buffer content; `start` is offset 0 and `end` is `data.length`, so only `pos`
and `last` are kept. -/
structure Buf where
  data : List UInt8
  pos : Nat
  last : Nat
deriving Repr, DecidableEq

/-- `meta_getfree` (src/common/meta.h:20): signed pointer difference. -/
def getfree (m : Buf) : Int := (m.data.length : Int) - m.last

/-- `meta_getlen` (src/common/meta.h:23). -/
def getlen (m : Buf) : Int := (m.last : Int) - m.pos

/-- `meta_clr` (src/common/meta.h:21). -/
def clr (m : Buf) : Buf := { m with pos := 0, last := 0 }

/-- `sizeof(meta_t)`: five pointers. See src/common/meta.h:10-18. -/
def hdr : Nat := 40

/-- `meta_alloc` (src/common/meta.c:3-13), given whether the pool had a block: the block is zeroed by the pool (property C15). -/
def alloc (poolOk : Bool) (n : Nat) : Option Buf :=
  if poolOk then some ⟨List.replicate n 0, 0, 0⟩ else none

/-- Overwrite `bs.length` bytes at offset `a`: `memcpy`. Outside the buffer this is undefined; `none` marks it. See src/common/meta.c:38-60. -/
def store (d : List UInt8) (a : Nat) (bs : List UInt8) : Option (List UInt8) :=
  if a + bs.length ≤ d.length then some (d.take a ++ bs ++ d.drop (a + bs.length)) else none

/-- Result of a call that may fail cleanly or overrun memory. See src/common/meta.c:3-60. -/
inductive R (α : Type) where
  | ok (a : α)
  | fail
  | overrun
deriving Repr, DecidableEq

/-- `meta_pdata` (src/common/meta.c:38-43) with `datan` the length of the data. -/
def pdata (m : Buf) (bs : List UInt8) : R Buf :=
  if getfree m ≥ bs.length then
    match store m.data m.last bs with
    | some d => .ok { m with data := d, last := m.last + bs.length }
    | none => .overrun
  else .fail

/-- Bytes between `pos` and `last`: what `meta_getlen` bytes at `pos` read. See src/common/meta.h:23. -/
def window (m : Buf) : List UInt8 := (m.data.take m.last).drop m.pos

/-- `meta_getlens` (src/common/meta.c:27-36) over a chain. -/
def getlens : List Buf → Int
  | [] => 0
  | m :: ms => getlen m + getlens ms

/-- The copy loop of `meta_dump` (src/common/meta.c:54-58). -/
def dumpLoop (d : Buf) : List Buf → R Buf
  | [] => .ok d
  | m :: ms => match store d.data d.last (window m) with
    | some data => dumpLoop { d with data := data, last := d.last + (window m).length } ms
    | none => .overrun

/-- `meta_dump` (src/common/meta.c:45-60); the chain is not empty. A chain of one is returned as it is. -/
def dump (poolOk : Bool) (m : Buf) (ms : List Buf) : R Buf :=
  if ms = [] then .ok m
  else match alloc poolOk (getlens (m :: ms)).toNat with
    | none => .fail
    | some d => dumpLoop d (m :: ms)

/-- What the rest of the program does with a buffer: append through `meta_pdata`, receive into the free space (`recv(last, getfree)`,
then `last += n`; src/common/net_send.c and its callers), consume from the front (`pos += n`), clear. -/
inductive Op where
  | append (bs : List UInt8)
  | recv (bs : List UInt8)
  | consume (n : Nat)
  | clear
deriving Repr, DecidableEq

/-- One operation. The kernel never delivers more than the free space, and consumers never take more than the length. See src/common/meta.c:3-60. -/
def step (m : Buf) : Op → R Buf
  | .append bs => match pdata m bs with
    | .fail => .ok m
    | r => r
  | .recv bs => match store m.data m.last (bs.take (getfree m).toNat) with
    | some d => .ok { m with data := d, last := m.last + (bs.take (getfree m).toNat).length }
    | none => .overrun
  | .consume n => .ok { m with pos := m.pos + min n (getlen m).toNat }
  | .clear => .ok (clr m)

/-- A run. See src/common/meta.c:3-60. -/
def run (m : Buf) : List Op → R Buf
  | [] => .ok m
  | op :: ops => match step m op with
    | .ok m' => run m' ops
    | r => r

end Verif.Meta
