import Verif.Model.BHeap
/-
Timers: src/common/timer.c over the binary heap. A timer is identified with its heap node.
-/
namespace Verif.Timer
open Verif.BHeap (Heap)

/-- Heap, `f_timeset` of every timer (src/common/timer.h:12), and the cached clock `time_msec` (src/common/sys_time.c:5, 14). The
`f_timeout` flag, callback and data are write-only here and left out. -/
structure St where
  heap : Heap
  set : Nat → Bool
  now : Int

/-- `timer_init` (src/common/timer.c:58-61): the heap has room for `MAX_NET_CON * 2` timers (src/common/net.h:11). -/
def space : Nat := 1536

/-- Initial state: nothing armed. See src/common/timer.c:58-61. -/
def init (now : Int) : St := ⟨BHeap.create space (fun _ => 0) (fun _ => 0), fun _ => false, now⟩

/-- `tm_del` (src/common/timer.c:5-11); `none` is a crash. A failed `heap_del` only returns −1. -/
def tmDel (s : St) (t : Nat) : Option St :=
  if s.set t then
    (BHeap.del s.heap (s.heap.idx t)).map fun r =>
      { s with heap := r.getD s.heap, set := BHeap.set s.set t false }
  else some s

/-- `tm_add` (src/common/timer.c:13-24); when the heap is full the timer stays marked as set. -/
def tmAdd (s : St) (t : Nat) (delay : Int) : Option St :=
  (tmDel s t).map fun s =>
    let h := { s.heap with key := BHeap.set s.heap.key t (s.now + delay) }
    { s with heap := (BHeap.add h t).getD h, set := BHeap.set s.set t true }

/-- What a callback, or any other code, does to timers. See src/common/timer.c:5-24. -/
inductive Act where
  | add (t : Nat) (delay : Int)
  | del (t : Nat)
deriving Repr, DecidableEq

/-- Observable events: a timer armed with a deadline, cancelled, or its callback run at a time. See src/common/timer.c:5-56. -/
inductive Ev where
  | arm (t : Nat) (deadline : Int)
  | cancel (t : Nat)
  | fire (t : Nat) (time : Int)
deriving Repr, DecidableEq

/-- One call of `tm_add` or `tm_del`. See src/common/timer.c:5-24. -/
def act (s : St) : Act → Option (List Ev × St)
  | .add t d => (tmAdd s t d).map fun s' => ([.arm t (s.now + d)], s')
  | .del t => (tmDel s t).map fun s' => ([.cancel t], s')

/-- A sequence of calls. See src/common/timer.c:5-24. -/
def acts (s : St) : List Act → Option (List Ev × St)
  | [] => some ([], s)
  | a :: as => (act s a).bind fun (e, s1) => (acts s1 as).map fun (es, s2) => (e ++ es, s2)

/-- `timer_expire` (src/common/timer.c:35-56) when the callbacks do nothing to timers. The result is the event trace, the reported
wait and the state; `none` is a crash or an endless loop (the due timer is not removed from the heap). The clock is the cached one, so it
does not move during a pass; the conversion of the wait to `int` is left out. -/
def expireQuiet (s : St) : Option (List Ev × Int × St) :=
  match BHeap.minNode s.heap with
  | none => some ([], 200, s)
  | some m =>
    if s.heap.key m > s.now then some ([], s.heap.key m - s.now, s)
    else match tmDel s m with
      | none => none
      | some s1 =>
        if s1.heap.n < s.heap.n then
          (expireQuiet s1).map fun (es', w, s3) => (.fire m s.now :: es', w, s3)
        else none
termination_by s.heap.n

/-- `timer_expire` (src/common/timer.c:35-56). `cbs` lists what the callbacks do, in the order they run (nothing once the list is
used up). -/
def expire (s : St) : List (List Act) → Option (List Ev × Int × St)
  | [] => expireQuiet s
  | cb :: rest =>
    match BHeap.minNode s.heap with
    | none => some ([], 200, s)
    | some m =>
      if s.heap.key m > s.now then some ([], s.heap.key m - s.now, s)
      else match tmDel s m with
        | none => none
        | some s1 => (acts s1 cb).bind fun (es, s2) =>
            (expire s2 rest).map fun (es', w, s3) => (.fire m s.now :: es ++ es', w, s3)

/-- What happens in the worker loop (src/common/process.c:49-65): code arms and cancels timers, the clock is refreshed (from the
wall clock, so to any value), an expiry pass is made. -/
inductive Op where
  | act (a : Act)
  | clock (now : Int)
  | expire (cbs : List (List Act))

/-- One step of the loop. See src/common/timer.c:5-56. -/
def step (s : St) : Op → Option (List Ev × St)
  | .act a => act s a
  | .clock n => some ([], { s with now := n })
  | .expire cbs => (expire s cbs).map fun (es, _, s') => (es, s')

/-- A whole history. See src/common/timer.c:5-56. -/
def run (s : St) : List Op → Option (List Ev × St)
  | [] => some ([], s)
  | op :: ops => (step s op).bind fun (e, s1) => (run s1 ops).map fun (es, s2) => (e ++ es, s2)

end Verif.Timer
