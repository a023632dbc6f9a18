import Verif.Model.Mem
import Verif.Model.Timer
/-
Connections, the pool blocks they occupy and their timers, together: `net_alloc` and `net_free_direct` (src/common/net.c) over the pool
(src/common/mem.c) and the timer heap (src/common/timer.c).

Every timer is a field of a pool block: of the `ev_t` of a connection (src/common/event.h:20-33) or of the one `dns_ctx_t`
(src/dns/dns.c:12-15). A timer is named by the number of that block in class 0, the class of blocks of at most 512 bytes.
-/
namespace Verif.Conns

/-- What can be observed: a block with a timer in it taken or given back, something done to a timer, and `tm_add` returning −1. See
src/common/net.c:175-256 and src/common/timer.c:5-56. -/
inductive Ev where
  | opened (t : Nat)
  | freed (t : Nat)
  | tm (e : Timer.Ev)
  | refused (t : Nat)
deriving Repr, DecidableEq

/-- How the process may end: the assertion of the pool (src/common/mem.c:135), the pool handing out its own list head (C16), the pool
lock found held, or a NULL dereference or endless loop in the timer code. -/
inductive Stop where
  | assertFail
  | exhausted
  | hang
  | crash
deriving Repr, DecidableEq

/-- The pool, the timers, the live connections as pairs of the blocks of `con_t` and `ev_t`, the block of `dns_ctx`, and the blocks other
code holds (class and number); what happened so far, and whether the process ended. See src/common/net.c:249-256, src/dns/dns.c:370-377. -/
structure St where
  pool : Mem.St
  tm : Timer.St
  conns : List (Nat × Nat)
  dns : Option Nat
  others : List (Nat × Nat)
  log : List Ev
  stop : Option Stop

/-- `mem_pool_init` and `timer_init` (src/common/mem.c:82-122, src/common/timer.c:58-61). -/
def init (base : Nat → Nat) (now : Int) : St := ⟨Mem.init base, Timer.init now, [], none, [], [], none⟩

/-- A pool call that did not return (src/common/mem.c:124-178). -/
def poolStop (s : St) : Mem.Outcome → St
  | .assertFail => { s with stop := some .assertFail }
  | .hang => { s with stop := some .hang }
  | _ => { s with stop := some .exhausted }

/-- The timer fields of a block just handed out: `mem_pool_alloc` clears it (src/common/mem.c:175). -/
def zeroTimer (tm : Timer.St) (t : Nat) : Timer.St :=
  { tm with
    set := BHeap.set tm.set t false
    heap := { tm.heap with key := BHeap.set tm.heap.key t 0, idx := BHeap.set tm.heap.idx t 0 } }

/-- `net_alloc` (src/common/net.c:249-256) with `ev_alloc` (src/common/event.c:234-240): 96 bytes for `con_t` (src/common/net.h:19-34),
104 for `ev_t` (src/common/event.h:20-33); the first block is given back when there is no second. -/
def openConn (s : St) : St :=
  match Mem.alloc s.pool 96 with
  | .next (.ptr 0 c) p1 => match Mem.alloc p1 104 with
    | .next (.ptr 0 e) p2 =>
      { s with pool := p2, tm := zeroTimer s.tm e, conns := s.conns ++ [(c, e)], log := s.log ++ [.opened e] }
    | .next _ p2 => match Mem.free p2 0 c with
      | .next _ p3 => { s with pool := p3 }
      | o => poolStop s o
    | o => poolStop s o
  | .next _ p1 => { s with pool := p1 }
  | o => poolStop s o

/-- `EZ_TMDEL` (src/common/timer.h:29, src/common/timer.c:5-11). -/
def disarm (s : St) (t : Nat) : St :=
  match Timer.tmDel s.tm t with
  | none => { s with stop := some .crash }
  | some tm => { s with tm := tm, log := s.log ++ [.tm (.cancel t)] }

/-- `tm_add` (src/common/timer.c:13-24), with its return value: −1 when `heap_add` finds the heap full. -/
def arm (s : St) (t : Nat) (d : Int) : St :=
  match Timer.tmDel s.tm t, Timer.tmAdd s.tm t d with
  | some tm1, some tm =>
    let full := (BHeap.add { tm1.heap with key := BHeap.set tm1.heap.key t (tm1.now + d) } t).isNone
    { s with tm := tm, log := s.log ++ .tm (.arm t (s.tm.now + d)) :: (if full then [.refused t] else []) }
  | _, _ => { s with stop := some .crash }

/-- Giving a block back (src/common/mem.c:124-132). -/
def giveBack (s : St) (b : Nat × Nat) : St :=
  match Mem.free s.pool b.1 b.2 with
  | .next _ p => { s with pool := p }
  | o => poolStop s o

/-- `net_free_direct` (src/common/net.c:175-208) of the `k`-th connection: the timer is cancelled, then the two blocks are given back. What
else the connection owns is given back by `otherFree`. -/
def closeConn (s : St) (k : Nat) : St :=
  match s.conns[k]? with
  | none => s
  | some (c, e) =>
    let s1 := disarm s e
    if s1.stop.isSome then s1
    else
      let s2 := giveBack { s1 with log := s1.log ++ [.freed e] } (0, e)
      if s2.stop.isSome then s2
      else giveBack { s2 with conns := s.conns.eraseIdx k } (0, c)

/-- `dns_init` (src/dns/dns.c:370-377): 48 bytes for `dns_ctx_t`, then the timer is armed for 30 seconds. Taking the blocks of the cache
table is left to `other`. -/
def dnsInit (s : St) : St :=
  match s.dns with
  | some _ => s
  | none => match Mem.alloc s.pool 48 with
    | .next (.ptr 0 e) p =>
      arm { s with pool := p, tm := zeroTimer s.tm e, dns := some e, log := s.log ++ [.opened e] } e 30000
    | .next _ p => { s with pool := p }
    | o => poolStop s o

/-- `mem_pool_alloc` by any other code (src/common/mem.c:134-178). -/
def other (s : St) (size : Int) : St :=
  match Mem.alloc s.pool size with
  | .next (.ptr i j) p => { s with pool := p, others := s.others ++ [(i, j)] }
  | .next _ p => { s with pool := p }
  | o => poolStop s o

/-- What code does between two visits to the event loop. The numbers choose among the live connections, or the blocks held; one that is
too large stands for nothing (code is taken to keep to connections and blocks it holds). See src/common/net.c:175-256,
src/common/timer.h:28-29, src/dns/dns.c:85. -/
inductive Act where
  | open
  | close (k : Nat)
  | arm (k : Nat) (d : Int)
  | disarm (k : Nat)
  | dnsInit
  | dnsArm
  | other (size : Int)
  | otherFree (k : Nat)
deriving Repr, DecidableEq

/-- One such action. `dnsArm` is the end of `dns_rec_chk` (src/dns/dns.c:85). See also src/common/net.c:175-256. -/
def act (s : St) (a : Act) : St :=
  if s.stop.isSome then s else match a with
  | .open => openConn s
  | .close k => closeConn s k
  | .arm k d => match s.conns[k]? with
    | none => s
    | some (_, e) => arm s e d
  | .disarm k => match s.conns[k]? with
    | none => s
    | some (_, e) => disarm s e
  | .dnsInit => dnsInit s
  | .dnsArm => match s.dns with
    | none => s
    | some e => arm s e 30000
  | .other n => other s n
  | .otherFree k => match s.others[k]? with
    | none => s
    | some b => giveBack { s with others := s.others.eraseIdx k } b

/-- Several actions, as one callback performs them (src/common/timer.c:52-53). -/
def acts (s : St) (as : List Act) : St := as.foldl act s

/-- `timer_expire` (src/common/timer.c:35-56); `cbs` lists what the callbacks do, in the order they run, nothing once the list is used
up. -/
def expire (s : St) : List (List Act) → St
  | [] => if s.stop.isSome then s else match Timer.expireQuiet s.tm with
    | none => { s with stop := some .crash }
    | some (es, _, tm) => { s with tm := tm, log := s.log ++ es.map .tm }
  | cb :: rest =>
    if s.stop.isSome then s else match BHeap.minNode s.tm.heap with
    | none => s
    | some m =>
      if s.tm.heap.key m > s.tm.now then s
      else match Timer.tmDel s.tm m with
        | none => { s with stop := some .crash }
        | some tm => expire (acts { s with tm := tm, log := s.log ++ [.tm (.fire m s.tm.now)] } cb) rest

/-- What happens in the worker loop (src/common/process.c:49-65): code runs, the clock is refreshed, an expiry pass is made. -/
inductive Op where
  | act (a : Act)
  | clock (now : Int)
  | expire (cbs : List (List Act))
deriving Repr, DecidableEq

/-- One step of the loop (src/common/process.c:49-65). -/
def step (s : St) (op : Op) : St :=
  if s.stop.isSome then s else match op with
  | .act a => act s a
  | .clock n => { s with tm := { s.tm with now := n } }
  | .expire cbs => expire s cbs

/-- A whole history (src/common/process.c:49-65). -/
def run (s : St) (ops : List Op) : St := ops.foldl step s

end Verif.Conns
