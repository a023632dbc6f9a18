import Verif.Model.Event
/-
The event loop of the build without epoll (README: MACOS; src/common/macro.h:9-11): `ev_select_opt` and `ev_select_loop`
(src/common/event.c:104-198) with the descriptors of the kernel, connections being opened and closed, and the dispatch of
src/common/event.c:204-232 as in `Event`.
-/
namespace Verif.Select
open Verif Verif.Event

/-- The state: the events (`Event.St`), the queue of live events (src/common/event.c:5), the descriptor and the cached interest of each event
(src/common/event.h:23-24), the two sets (src/common/event.c:13-14), the descriptors that are open, and whether `FD_SET` was used with a number that
does not fit into a set of 1024 bits (undefined behaviour). `stale` is a ghost: a connection was closed while it was in a set. -/
structure St where
  ev : Event.St
  queue : List Nat
  fd : Nat → Nat
  opt : Nat → Mask
  rfds : Nat → Bool
  wfds : Nat → Bool
  opened : Nat → Bool
  overrun : Bool
  stale : Bool

/-- `ev_init` (src/common/event.c:92-96, 255-276): no events. `opened` are the descriptors that are open for other purposes. -/
def init (opened : Nat → Bool) : St :=
  ⟨⟨fun _ => none, 0, fun _ => {}, fun _ => false, fun _ => 0⟩, [], fun _ => 0, fun _ => Mask.none, fun _ => false, fun _ => false, opened, false, false⟩

/-- What code does: take a new connection with a descriptor of the kernel, close one, or change its interest. See src/common/net.c:150-185,
246-256, src/common/event.c:200-202. -/
inductive Act where
  | open (id fd : Nat)
  | close (id : Nat)
  | opt (id : Nat) (want : Mask)
deriving Repr, DecidableEq

/-- `net_alloc` with a new descriptor (src/common/net.c:249-256, src/common/event.c:234-240): the event is put at the end of the queue. -/
def openConn (s : St) (id fd : Nat) : St :=
  { s with ev := Event.alloc s.ev id, queue := s.queue ++ [id], fd := upd s.fd id fd, opt := upd s.opt id Mask.none, opened := upd s.opened fd true }

/-- `net_free_direct` (src/common/net.c:175-185, src/common/event.c:242-253): the descriptor is closed and the event taken from the queue. The sets are
left as they are. -/
def closeConn (s : St) (id : Nat) : St :=
  { s with ev := Event.free s.ev id, queue := s.queue.filter (· != id), opened := upd s.opened (s.fd id) false,
           stale := s.stale || decide (s.opt id ≠ Mask.none) }

/-- `ev_select_opt` (src/common/event.c:104-130; `selectOpt`). `FD_SET` and `FD_CLR` of numbers above 1023 write beyond the set. -/
def setOpt (s : St) (id : Nat) (want : Mask) : St :=
  let r := selectOpt ⟨s.opt id, s.rfds (s.fd id), s.wfds (s.fd id)⟩ want
  { s with
    opt := upd s.opt id r.opt
    rfds := upd s.rfds (s.fd id) r.rfds
    wfds := upd s.wfds (s.fd id) r.wfds
    overrun := s.overrun || (decide (s.opt id ≠ want) && decide (1024 ≤ s.fd id)) }

/-- One action. Code keeps to connections that exist, and the kernel gives descriptors that are not open; anything else does not occur and is a
no-op. See src/common/net.c:150-256. -/
def act (s : St) : Act → St
  | .open id fd => if s.ev.alive id || s.opened fd then s else openConn s id fd
  | .close id => if s.ev.alive id then closeConn s id else s
  | .opt id want => if s.ev.alive id then setOpt s id want else s

/-- `fdmax + 1` (src/common/event.c:134-161). -/
def nfds (s : St) : Nat := s.queue.foldl (fun m id => max m (s.fd id + 1)) 0

/-- Whether `select` fails with `EBADF`: a descriptor below the limit is in a set but not open (src/common/event.c:165). -/
def badf (s : St) : Bool := (List.range (nfds s)).any fun f => (s.rfds f || s.wfds f) && !s.opened f

/-- What the loop finds in the sets for the events of the queue (src/common/event.c:178-195), with what the kernel says about each descriptor:
readable, writable. -/
def scan (s : St) (ready : Nat → Bool × Bool) : List (Nat × Bool × Bool) :=
  s.queue.map fun id => (id, s.rfds (s.fd id) && (ready (s.fd id)).1, s.wfds (s.fd id) && (ready (s.fd id)).2)

/-- The number `select` returns if it does not fail: the bits left in the sets (src/common/event.c:165). -/
def found (s : St) (ready : Nat → Bool × Bool) : Nat :=
  ((List.range (nfds s)).map fun f => (if s.rfds f && (ready f).1 then 1 else 0) + (if s.wfds f && (ready f).2 then 1 else 0)).sum

/-- What `ev_select_loop` looks at (src/common/event.c:165-196): nothing if `select` fails, is interrupted by a signal or times out; otherwise the whole
queue (`actn` is never changed, so the scan does not stop early). -/
def reported (s : St) (ready : Nat → Bool × Bool) (intr : Bool) : List (Nat × Bool × Bool) :=
  if badf s || intr then [] else if found s ready = 0 then [] else scan s ready

/-- The dispatch (src/common/event.c:213-230), as `Event.loop`; the handlers may also open connections and change interests. -/
def loop (h : Nat → List Act) : Nat → Nat → St → St × List Call
  | 0, _, s => (s, [])
  | k + 1, i, s =>
    match body s.ev i with
    | (e, none) => loop h k (i + 1) { s with ev := e }
    | (e, some c) =>
      let r := loop h k (i + 1) ((h i).foldl act { s with ev := e })
      (r.1, c :: r.2)

/-- `ev_loop` (src/common/event.c:204-232). -/
def batch (h : Nat → List Act) (s : St) (ready : Nat → Bool × Bool) (intr : Bool) : St × List Call :=
  let e := collect s.ev (reported s ready intr)
  loop h e.evn 0 { s with ev := e }

/-- What happens in the worker loop (src/common/process.c:56-63): timer callbacks act, then one turn of `ev_loop`. -/
inductive Op where
  | act (a : Act)
  | turn (h : Nat → List Act) (ready : Nat → Bool × Bool) (intr : Bool)

/-- One of these (src/common/process.c:56-63). -/
def step (s : St) : Op → St
  | .act a => act s a
  | .turn h ready intr => (batch h s ready intr).1

/-- A history (src/common/process.c:56-63). -/
def run (s : St) (ops : List Op) : St := ops.foldl step s

end Verif.Select
