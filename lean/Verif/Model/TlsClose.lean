import Verif.Model.Event
/-
How a TLS connection is given up: `net_free`, `net_free_direct` (src/common/net.c:175-242), `ssl_shutdown`, `ssl_shutdown_cb`, `ssl_cexp`
(src/common/ssl.c:37-99). Times are milliseconds of the cached clock. `SSL_shutdown` is represented by what it does to the connection: it sends a closing
message, and once that is sent waits for the one of the peer; whether writing and reading are possible is up to the environment at each call.
Simplification: which events `epoll` reports is up to the environment; memory is the one of the connection as a whole.
-/
namespace Verif.TlsClose
open Verif.Event (Mask Mask.none)

/-- What a write of the closing message meets in a call of `SSL_shutdown`: it is taken, the socket is full, an error. See src/common/ssl.c:71-80. -/
inductive Tx where
  | ok | full | err
deriving Repr, DecidableEq

/-- What a read meets in a call of `SSL_shutdown`: the closing message of the peer, not enough for one, something that must be answered while the socket is full,
an error. See src/common/ssl.c:71-80. -/
inductive Rd where
  | bye | none | full | err
deriving Repr, DecidableEq

/-- The environment of one call. See src/common/ssl.c:71. -/
structure Call where
  tx : Tx
  rd : Rd
deriving Repr, DecidableEq

/-- Result of `SSL_shutdown` with `SSL_get_error`: 1, 0, waiting to read, waiting to write, any other error. See src/common/ssl.c:71-80. -/
inductive Rc where
  | one | zero | wantR | wantW | fail
deriving Repr, DecidableEq

/-- Whether the closing message has been sent, and the one of the peer has been received. See src/common/ssl.c:71-80. -/
structure Obj where
  sent : Bool
  got : Bool
deriving Repr, DecidableEq

/-- `SSL_shutdown` as documented by OpenSSL (called in src/common/ssl.c:71): the first part sends, the second part waits for the peer. -/
def sslShutdown (o : Obj) (x : Call) : Obj × Rc :=
  if o.sent = false then
    match x.tx with
    | .ok => ({ o with sent := true }, if o.got then .one else .zero)
    | .full => (o, .wantW)
    | .err => (o, .fail)
  else if o.got then (o, .one)
  else
    match x.rd with
    | .bye => ({ o with got := true }, .one)
    | .none => (o, .wantR)
    | .full => (o, .wantW)
    | .err => (o, .fail)

/-- Callbacks: of the application, `ssl_shutdown_cb`. See src/common/ssl.c:44, 82-92. -/
inductive Cb where
  | app (n : Nat)
  | shut
deriving Repr, DecidableEq

/-- What the timer calls: a function of the application, `net_free_direct` (src/common/net.c:233), `ssl_cexp` (src/common/ssl.c:47). -/
inductive Tm where
  | app (n : Nat)
  | direct
  | cexp
deriving Repr, DecidableEq

/-- The connection: `SSL_in_init`, `f_err`, `f_closed` (src/common/ssl.h:26-28), the TLS object, callbacks and interest (src/common/event.h:20-33), the timer with its
deadline; how often it was released (src/common/net.c:206), and how often a callback of the application was called after it was given up. -/
structure C where
  init : Bool
  ferr : Bool
  fclosed : Bool
  obj : Obj
  rcb : Option Cb
  wcb : Option Cb
  opt : Mask
  timer : Option (Nat × Tm)
  freed : Nat
  calls : Nat
deriving Repr, DecidableEq

/-- `NET_TMOUT` (src/common/net.h:13), in milliseconds. -/
def netTmout : Nat := 5

/-- `SSL_TMOUT` (src/common/ssl.h:9), in milliseconds. -/
def sslTmout : Nat := 5000

/-- Result of `ssl_shutdown`: 0, -11, -1. See src/common/ssl.c:58-99. -/
inductive Ret where
  | done | again | fail
deriving Repr, DecidableEq

/-- `ssl_shutdown` when it has to wait (src/common/ssl.c:80-95): both callbacks are cleared, then the one that is needed is set. -/
def waitFor (c : C) (write : Bool) : C :=
  if write then { c with rcb := none, wcb := some .shut, opt := ⟨false, true⟩ }
  else { c with rcb := some .shut, wcb := none, opt := ⟨true, false⟩ }

/-- `ssl_shutdown` (src/common/ssl.c:58-99). The loop makes a second call after 0 and also after an error; 0 from the second call counts as an error. -/
def shutdown (c : C) (x y : Call) : C × Ret :=
  if c.init then ({ c with fclosed := true }, .done)
  else
    let (o, rc) := sslShutdown c.obj x
    let c := { c with obj := o }
    match rc with
    | .one => ({ c with fclosed := true }, .done)
    | .wantR => (waitFor c false, .again)
    | .wantW => (waitFor c true, .again)
    | .zero | .fail =>
      let (o, rc) := sslShutdown c.obj y
      let c := { c with obj := o }
      match rc with
      | .one => ({ c with fclosed := true }, .done)
      | .wantR => (waitFor c false, .again)
      | .wantW => (waitFor c true, .again)
      | .zero | .fail => (c, .fail)

/-- `net_free_direct` (src/common/net.c:175-208): the socket is closed, timer and event go, then everything else. -/
def netFreeDirect (c : C) : C :=
  { c with timer := none, rcb := none, wcb := none, opt := Mask.none, freed := c.freed + 1 }

/-- `net_free` of a TLS connection (src/common/net.c:225-239) at time `t`. -/
def netFree (c : C) (t : Nat) (x y : Call) : C :=
  if c.ferr || c.fclosed then netFreeDirect c
  else
    match shutdown c x y with
    | (c, .again) => { c with timer := some (t + netTmout, .direct) }
    | (c, _) => netFreeDirect c

/-- `ssl_shutdown_cb` (src/common/ssl.c:44-56) at time `t`. -/
def shutdownCb (c : C) (t : Nat) (x y : Call) : C :=
  match shutdown c x y with
  | (c, .again) => { c with timer := some (t + sslTmout, .cexp) }
  | (c, _) => netFreeDirect { c with timer := none }

/-- `ssl_cexp` (src/common/ssl.c:37-42). -/
def cexp (c : C) (t : Nat) (x y : Call) : C := netFree { c with ferr := true } t x y

/-- A callback is called by the event loop (src/common/event.c:219-228). -/
def callCb (c : C) (cb : Option Cb) (t : Nat) (x y : Call) : C :=
  match cb with
  | none => c
  | some (.app _) => { c with calls := c.calls + 1 }
  | some .shut => shutdownCb c t x y

/-- What can happen to a connection that was given up: its events are reported, timers are looked at, it is given up once more (as by
src/app/webser.c:330-333). `x`, `y`: the environment of the calls of `SSL_shutdown`. See src/common/event.c:204-232. -/
inductive Ev where
  | r (x y : Call)
  | w (x y : Call)
  | again (x y : Call)
  | pass
deriving Repr, DecidableEq

/-- One of them at time `t`. Only what happens before the connection is released is considered; afterwards only its timer could release it again. See
src/common/event.c:204-232, src/common/timer.c:35-56. -/
def step (c : C) (e : Nat × Ev) : C :=
  match e.2 with
  | .r x y => if c.freed = 0 then callCb c c.rcb e.1 x y else c
  | .w x y => if c.freed = 0 then callCb c c.wcb e.1 x y else c
  | .again x y => if c.freed = 0 then netFree c e.1 x y else c
  | .pass =>
    match c.timer with
    | some (d, f) =>
      if d ≤ e.1 then
        match f with
        | .direct => netFreeDirect { c with timer := none }
        | .cexp => cexp { c with timer := none } e.1 ⟨.err, .err⟩ ⟨.err, .err⟩
        | .app _ => { c with timer := none, calls := c.calls + 1 }
      else c
    | none => c

/-- A whole history. See src/common/process.c:56-63. -/
def run (c : C) (es : List (Nat × Ev)) : C := es.foldl step c

end Verif.TlsClose
