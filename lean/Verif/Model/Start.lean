import Verif.Model.Auth
/-
Starting: `main` (src/main.c:97-128) from the configuration on, the initialisation of a worker (src/common/modules.c:50-62) and what a worker
that runs (src/common/process.c:49-65) does when it needs something that was not initialised.
-/
namespace Verif.Start
open Verif

/-! ### `main` -/

/-- Results of the calls `main` makes (src/main.c:5-43, 119-122), `true` for success: whether the configuration asks for a daemon; `fork`,
`setsid`, `open` of the null device and the two `dup2`; creating the PID file and writing it; the three core modules
(src/common/modules.c:31-37). -/
structure Env where
  daemon : Bool
  fork : Bool
  setsid : Bool
  null : Bool
  dup0 : Bool
  dup1 : Bool
  pidOpen : Bool
  pidWrite : Bool
  log : Bool
  proc : Bool
  listen : Bool
deriving Repr, DecidableEq

/-- The process that was started, or the child it forked (src/main.c:10-26). -/
inductive Who where
  | starter
  | child
deriving Repr, DecidableEq

/-- What the PID file holds afterwards: what it held before, nothing (`O_TRUNC`, src/main.c:36, or part of a number), the number of a
process, or it is removed. -/
inductive File where
  | old
  | broken
  | pid (w : Who)
  | removed
deriving Repr, DecidableEq

/-- Which process goes on to run the program (src/main.c:124), the PID file at that time or at the end, and the exit status the user sees
if the started process has ended. -/
structure Result where
  runs : Option Who
  file : File
  status : Option Int
deriving Repr, DecidableEq

/-- `main` after daemonising (src/main.c:121-124), in process `w`. `config_init` never fails (src/common/config.c:109-143). -/
def mainRest (e : Env) (w : Who) : Result :=
  if !e.pidOpen then ⟨none, .old, some (-1)⟩
  else if !e.pidWrite then ⟨none, .broken, some (-1)⟩
  else if !e.log then ⟨none, .removed, some (-1)⟩
  else if !e.proc then ⟨none, .removed, some (-1)⟩
  else if !e.listen then ⟨none, .removed, some (-1)⟩
  else ⟨some w, .pid w, none⟩

/-- `proc_daemon` (src/main.c:5-28) and the rest of `main` (src/main.c:120-124). The started process exits with status 0 as soon as `fork` has
succeeded (src/main.c:25), whatever the child does. -/
def main (e : Env) : Result :=
  if !e.daemon then mainRest e .starter
  else if !e.fork then ⟨none, .old, some (-1)⟩
  else
    let child :=
      if !e.setsid then ⟨none, .old, some (-1)⟩
      else if !e.null then ⟨none, .old, some (-1)⟩
      else if !e.dup0 then ⟨none, .old, some (-1)⟩
      else if !e.dup1 then ⟨none, .old, some (-1)⟩
      else mainRest e .child
    { child with status := some 0 }

/-! ### Workers -/

/-- What initialising a worker depends on: tunnel server mode (`s5_mode > TLS_TUNNEL_C`), the memory of the pool, of the timer heap and of the
key matcher, `epoll_create1`, opening and reading the key file, and the keys in it. See src/common/modules.c:50-62, src/common/mem.c:86, 107,
src/common/timer.c:59, src/common/event.c:26, src/app/tls_tunnel_s.c:355-389. -/
structure WEnv where
  server : Bool
  pool : Bool
  heap : Bool
  epoll : Bool
  matcher : Bool
  keyOpen : Bool
  keyRead : Bool
  keys : List (List UInt8)
deriving Repr, DecidableEq

/-- The contexts of a worker: which pointers are not NULL (`g_heap` src/common/timer.c:3, `g_event_ctx` src/common/event.c:18, `g_web_ctx`
src/app/webser.c:13, `dns_ctx` src/dns/dns.c:16), whether there is a usable `epfd` (src/common/event.c:10), and the key matcher
(`g_ses_ctx->ac`, src/app/tls_tunnel_s.c:10-13). -/
structure G where
  heap : Bool := false
  ev : Bool := false
  epoll : Bool := false
  ac : Option Auth.Matcher := none
  web : Bool := false
  dns : Bool := false
deriving Repr, DecidableEq

/-- `tls_tunnel_s_init` (src/app/tls_tunnel_s.c:366-389): the context and whether 0 was returned; `none` is a crash while compiling. The context
itself always fits into the fresh pool. -/
def tunnelInit (e : WEnv) (g : G) : Option (G × Bool) :=
  if !e.server then some (g, true)
  else if !e.matcher then some (g, false)
  else if !e.keyOpen || !e.keyRead then some ({ g with ac := some ⟨Aho.empty, [], []⟩ }, false)
  else match Auth.load e.keys with
    | .error _ => none
    | .ok m => some ({ g with ac := some m }, true)

/-- `modules_process_init` (src/common/modules.c:50-62); `none` is a crash. `timer_init` and `ev_init` do not report failures of the heap and of
`epoll_create1` (src/common/timer.c:58-61, src/common/event.c:273-274); `dns_init` arms a timer (src/dns/dns.c:375), which needs the heap.
Requests to the fresh pool succeed. -/
def workerInit (e : WEnv) : Option (G × Bool) :=
  if !e.pool then some ({}, false)
  else
    match tunnelInit e { heap := e.heap, ev := true, epoll := e.epoll } with
    | none => none
    | some (g, false) => some (g, false)
    | some (g, true) =>
      if g.heap then some ({ g with web := true, dns := true }, true) else none

/-- What comes in: a web request, a client presenting a key, a tunnelled request for a host name, or nothing. See src/app/webser.c:20,
src/app/tls_tunnel_s.c:254, src/dns/dns.c:49. -/
inductive Job where
  | idle
  | web
  | key (text : List UInt8)
  | name
deriving Repr, DecidableEq

/-- What becomes of it: it is handled (for a key: whether it was admitted), never noticed, or the worker dereferences NULL. See
src/common/process.c:49-65. -/
inductive Fate where
  | handled
  | verdict (admitted : Bool)
  | ignored
  | crash
deriving Repr, DecidableEq

/-- A job in the worker loop (src/common/process.c:55-63): the result of the initialisation is not looked at; `timer_expire` needs the heap
(src/common/util/bheap.c:92), `ev_loop` the event context (src/common/event.c:209), a web request `g_web_ctx` (src/app/webser.c:20), a key the
matcher (src/common/aho_corasick.c:96; the members of the matcher context are read), a name `dns_ctx` (src/dns/dns.c:49). -/
def work (g : G) (j : Job) : Fate :=
  if !g.heap then .crash
  else if !g.ev then .crash
  else if !g.epoll then .ignored
  else match j with
    | .idle => .handled
    | .web => if g.web then .handled else .crash
    | .key t => match g.ac with
      | none => if t.isEmpty then .verdict false else .crash
      | some m => match Aho.find m.trie m.fails m.cur t with
        | .error _ => .crash
        | .ok (.match_, _) => .verdict true
        | .ok (.noMatch, _) => .verdict false
    | .name => if g.dns then .handled else .crash

/-- A new worker and its first job (src/common/process.c:49-65). -/
def worker (e : WEnv) (j : Job) : Fate :=
  match workerInit e with
  | none => .crash
  | some (g, _) => work g j

end Verif.Start
