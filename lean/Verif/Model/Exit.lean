import Verif.Model.Start
import Verif.Model.AhoFree
/-
Stopping: what a worker does between leaving its loop and the end of `main`: `modules_pocess_exit` (src/common/modules.c:64-76) and
`modules_core_exit` (src/common/modules.c:39-45, src/main.c:125).
-/
namespace Verif.Exit
open Verif

/-- The objects a worker has: the pool; the TLS context; the timer heap; for each listening socket its connection and event; the event context and
the array for `epoll_wait`; the tunnel context and the key matcher; the web context with the two tables in it; the resolver's context and its
table; the log; the process context and the shared memory. See src/common/modules.c:31-62. -/
inductive Obj where
  | pool | ssl | heap | con (i : Nat) | ev (i : Nat) | event | epev | tunnel | matcher | web | mime | api | dns | hash | log | proc | shm
deriving Repr, DecidableEq

/-- Its descriptors: those of the listening sockets, of epoll and of the two log files. See src/common/listen.c:32, src/common/event.c:26,
src/common/log.c:92-95. -/
inductive Fd where
  | listen (i : Nat) | epoll | logMain | logAccess
deriving Repr, DecidableEq

/-- A worker: the entries of the table of listening sockets that are in use (src/common/listen.c:8); which objects were allocated, which of their pointers
were set to NULL since and which were released, in order; which descriptors were open, and the `close` calls made since, with their success; and for each
established connection what the program has accepted for it and not yet sent. See src/common/modules.c:31-76. -/
structure World where
  used : List Nat
  made : Obj → Bool
  cleared : List Obj
  freed : List Obj
  start : Fd → Bool
  closed : List (Fd × Bool)
  unsent : List (List UInt8)

/-- The pointer to the object is not NULL (src/common/modules.c:64-76). -/
def World.ptr (w : World) (o : Obj) : Bool := w.made o && !w.cleared.contains o

/-- The object is allocated (src/common/modules.c:64-76). -/
def World.live (w : World) (o : Obj) : Bool := w.made o && !w.freed.contains o

/-- The descriptor is open (src/common/modules.c:64-76). -/
def World.opened (w : World) (d : Fd) : Bool := w.start d && !(w.closed.map (·.1)).contains d

/-- What goes wrong: a NULL pointer is dereferenced, memory is used that is not allocated, or the release of the key matcher fails.
See src/common/modules.c:64-76. -/
inductive Fault where
  | null (o : Obj)
  | dead (o : Obj)
  | matcher
deriving Repr, DecidableEq

/-- `free` and `mem_pool_free` (src/common/mem.c:124-132) of an allocated object. -/
def free (o : Obj) (w : World) : Except Fault World :=
  if w.live o then .ok { w with freed := w.freed ++ [o] } else .error (.dead o)

/-- Memory is looked at (src/common/modules.c:64-76). -/
def touch (o : Obj) (w : World) : Except Fault World := if w.live o then .ok w else .error (.dead o)

/-- `mem_pool_free` of an object of the pool (src/common/mem.c:124-132): it is part of the pool. -/
def freeP (o : Obj) (w : World) : Except Fault World := do
  let w ← touch .pool w
  free o w

/-- `close` (src/common/net.c:178, src/common/listen.c:84, src/common/event.c:33, src/common/log.c:115-118). -/
def close (d : Fd) (w : World) : World := { w with closed := w.closed ++ [(d, w.opened d)] }

/-- A pointer is set to NULL (src/common/ssl.c:422, src/common/event.c:307, src/dns/dns.c:384). -/
def clear (o : Obj) (w : World) : World := { w with cleared := w.cleared ++ [o] }

/-- `ssl_end` (src/common/ssl.c:409-425); the two OpenSSL contexts are OpenSSL's. -/
def sslEnd (w : World) : Except Fault World :=
  if w.ptr .ssl then (freeP .ssl w).map (clear .ssl) else .ok w

/-- `timer_end` (src/common/timer.c:63-67): the pointer stays. -/
def timerEnd (w : World) : Except Fault World := if w.ptr .heap then free .heap w else .ok w

/-- `net_free` of a listening socket (src/common/event.c:299, src/common/net.c:175-242): it has no TLS, its timer is never armed (src/common/event.c:283-288),
and its data has no destructor. -/
def freeListener (w : World) (i : Nat) : Except Fault World :=
  if !w.ptr (.con i) then .error (.null (.con i)) else do
    let w ← touch (.con i) w
    let w := close (.listen i) w
    let w ← freeP (.ev i) w
    freeP (.con i) w

/-- `ev_exit` with `ev_epoll_end` (src/common/event.c:295-310, 31-38). `epfd` is 0 or above, or −1 if `epoll_create1` failed, and closed in any case. -/
def evExit (w : World) : Except Fault World := do
  let w ← w.used.foldlM freeListener w
  if w.ptr .event then do
    let w ← touch .event w
    let w := close .epoll w
    let w ← freeP .epev w
    let w ← freeP .event w
    return clear .event w
  else return w

/-- `tls_tunnel_s_exit` (src/app/tls_tunnel_s.c:391-400); `nodes` is the trie of the matcher. -/
def tunnelExit (trie : Aho.Trie) (w : World) : Except Fault World :=
  if w.ptr .tunnel then do
    let w ← touch .tunnel w
    let w ← if w.ptr .matcher then
        match Aho.freeAll trie with
        | .error _ => .error .matcher
        | .ok _ => free .matcher w
      else .ok w
    let w ← freeP .tunnel w
    return clear .tunnel w
  else .ok w

/-- `webser_end` (src/app/webser.c:638-652): the pointer stays. -/
def webEnd (w : World) : Except Fault World :=
  if w.ptr .web then do
    let w ← touch .web w
    let w ← if w.ptr .mime then (freeP .mime w).map (clear .mime) else .ok w
    let w ← if w.ptr .api then (freeP .api w).map (clear .api) else .ok w
    freeP .web w
  else .ok w

/-- `dns_end` (src/dns/dns.c:379-387). -/
def dnsEnd (w : World) : Except Fault World :=
  if w.ptr .dns then do
    let w ← touch .dns w
    let w ← if w.ptr .hash then (freeP .hash w).map (clear .hash) else .ok w
    let w ← freeP .dns w
    return clear .dns w
  else .ok w

/-- `mem_pool_deinit` (src/common/mem.c:69-80). -/
def poolEnd (w : World) : Except Fault World := if w.ptr .pool then free .pool w else .ok w

/-- `modules_pocess_exit` (src/common/modules.c:64-76). -/
def workerExit (trie : Aho.Trie) (w : World) : Except Fault World := do
  let w ← sslEnd w
  let w ← timerEnd w
  let w ← evExit w
  let w ← tunnelExit trie w
  let w ← webEnd w
  let w ← dnsEnd w
  poolEnd w

/-- `log_end` (src/common/log.c:112-123). -/
def logEnd (w : World) : Except Fault World :=
  if w.ptr .log then do
    let w ← touch .log w
    let w := close .logAccess (close .logMain w)
    return clear .log (← free .log w)
  else .ok w

/-- `process_end` (src/common/process.c:238-247): the pointer stays. -/
def processEnd (w : World) : Except Fault World :=
  if w.ptr .proc then do
    let w ← touch .proc w
    let w ← if w.ptr .shm then free .shm w else .ok w
    free .proc w
  else .ok w

/-- `listen_end` (src/common/listen.c:79-88). -/
def listenEnd (w : World) : World := w.used.foldl (fun w i => close (.listen i) w) w

/-- `modules_core_exit` (src/common/modules.c:39-45). -/
def coreExit (w : World) : Except Fault World := do
  let w ← logEnd w
  let w ← processEnd w
  return listenEnd w

/-- The end of a worker (src/common/process.c:64, 72-74, 102-103, src/main.c:124-126). -/
def exit (trie : Aho.Trie) (w : World) : Except Fault World := do
  let w ← workerExit trie w
  coreExit w

/-- What there is after the initialisation that left the contexts `g` (`Start.workerInit`): `pool` tells whether there is a pool; the contexts that are
always created if there is one are those of TLS, of the tunnel and of the sockets. See src/common/modules.c:50-62, src/common/event.c:255-293,
src/app/tls_tunnel_s.c:383-389, src/app/webser.c:608-636, src/dns/dns.c:370-377. -/
def has (used : List Nat) (pool : Bool) (g : Start.G) : Obj → Bool
  | .pool => pool
  | .ssl => pool
  | .heap => g.heap
  | .con i => pool && used.contains i
  | .ev i => pool && used.contains i
  | .event => g.ev
  | .epev => g.ev
  | .tunnel => pool
  | .matcher => g.ac.isSome
  | .web => g.web
  | .mime => g.web
  | .api => g.web
  | .dns => g.dns
  | .hash => g.dns
  | .log => true
  | .proc => true
  | .shm => true

/-- The worker at that time (src/common/modules.c:31-62). -/
def world (used : List Nat) (pool : Bool) (g : Start.G) (unsent : List (List UInt8)) : World where
  used := used
  made := has used pool g
  cleared := []
  freed := []
  start := fun d => match d with
    | .listen i => used.contains i
    | .epoll => g.epoll
    | .logMain => true
    | .logAccess => true
  closed := []
  unsent := unsent

/-- A worker that is stopped: initialised in environment `e` and left at once or after any time (src/common/process.c:55-65). `none` is a crash
of the initialisation. -/
def stopped (e : Start.WEnv) (used : List Nat) (unsent : List (List UInt8)) : Option (Except Fault World) :=
  match Start.workerInit e with
  | none => none
  | some (g, _) => some (exit ((g.ac.map (·.trie)).getD Aho.empty) (world used e.pool g unsent))

/-- The master leaves its loop and does `modules_core_exit` only (src/main.c:124-125); it has no pool and none of the contexts. -/
def masterStopped (used : List Nat) : Except Fault World := coreExit (world used false {} [])

end Verif.Exit
