/-
Taking new connections: `net_accept` (src/common/net.c:127-173) and the first timer of a connection.
-/
namespace Verif.Accept

/-- What `accept` does with a connection at the front of the kernel's queue (src/common/net.c:137): `taken`; `gone`: the connection was
aborted and leaves the queue with an error (`ECONNABORTED`, `EPROTO`); `refused`: an error that leaves the queue as it is (`EINTR`,
`EMFILE`, `ENFILE`, `ENOMEM`, …). With an empty queue it returns `EAGAIN`. -/
inductive Acc where
  | taken
  | gone
  | refused
deriving Repr, DecidableEq

/-- The results of the calls made for one connection: `accept`, `net_alloc` (src/common/net.c:150) and the socket options
(src/common/net.c:154-157). -/
structure Call where
  acc : Acc
  alloc : Bool
  opts : Bool
deriving Repr, DecidableEq

/-- The kernel's queue of the listening socket and whether epoll is going to report it (environment: the socket is registered
edge-triggered, src/common/event.c:49, 288, so a report is made only after a connection has arrived), and what became of the connections:
with a handler (src/common/net.c:164), or closed by the server or aborted by the peer. -/
structure St where
  pending : List Nat
  edge : Bool
  served : List Nat
  dropped : List Nat
deriving Repr, DecidableEq

/-- The loop of `net_accept` (src/common/net.c:135-171). Calls after the end of the list succeed. Simplification: the result of `ev_opt`
(168), which the code ignores, is success. -/
def acceptLoop (s : St) (calls : List Call) : St :=
  match _h : s.pending with
  | [] => s
  | c :: t =>
    match calls with
    | [] => acceptLoop { s with pending := t, served := s.served ++ [c] } []
    | k :: ks =>
      match k.acc with
      | .gone => { s with pending := t, dropped := s.dropped ++ [c] }
      | .refused => s
      | .taken =>
        if k.alloc && k.opts then acceptLoop { s with pending := t, served := s.served ++ [c] } ks
        else { s with pending := t, dropped := s.dropped ++ [c] }
termination_by s.pending.length
decreasing_by all_goals simp [_h]

/-- A connection arrives at the listening socket, or the worker makes a turn (src/common/process.c:56-63, src/common/event.c:204-232). -/
inductive Ev where
  | arrive (c : Nat)
  | turn (calls : List Call)
deriving Repr, DecidableEq

/-- One of them. In a turn `net_accept` runs if epoll reports the socket. See src/common/event.c:204-232. -/
def step (s : St) : Ev → St
  | .arrive c => { s with pending := s.pending ++ [c], edge := true }
  | .turn calls => if s.edge then acceptLoop { s with edge := false } calls else s

/-- A whole history. See src/common/process.c:56-63. -/
def run (s : St) (es : List Ev) : St := es.foldl step s

/-- The worker's state when it starts (src/common/event.c:279-290). -/
def init : St := ⟨[], false, [], []⟩

/-! ### The first timer -/

/-- A new connection: the deadline of its timer, whether its handler has been called, whether it was closed. See src/common/net.c:150-170. -/
structure Conn where
  deadline : Option Nat
  handled : Bool
  closed : Bool
deriving Repr, DecidableEq

/-- The state after `net_accept` took the connection at `now` (src/common/net.c:170). -/
def fresh (now : Nat) : Conn := ⟨some (now + 5), false, false⟩

/-- What can happen to it: an expiry pass of the worker, or its socket is reported readable. See src/common/timer.c:35-56, src/common/event.c:213-230. -/
inductive CEv where
  | pass
  | data
deriving Repr, DecidableEq

/-- One of them at a time. An expired timer runs `net_exp` (src/common/net.c:244-247); every handler of new connections first deletes the timer
(src/app/tls_tunnel_s.c:301, src/app/tls_tunnel_c.c:153, src/app/webser.c:509, 551). What the handlers do then is left out. -/
def cstep (c : Conn) (e : Nat × CEv) : Conn :=
  if c.closed then c
  else match e.2 with
    | .pass => if c.deadline.any (· ≤ e.1) then { c with closed := true, deadline := none } else c
    | .data => if c.handled then c else { c with handled := true, deadline := none }

/-- A whole history. See src/common/process.c:56-63. -/
def crun (c : Conn) (es : List (Nat × CEv)) : Conn := es.foldl cstep c

end Verif.Accept
