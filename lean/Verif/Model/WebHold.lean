import Verif.Model.WebConn
/-
How long a connection of the web server can stand: the machine of `Model/WebConn` with the timer that its handlers set when they have to wait. src/app/webser.c:82-106, 142-260, 417-436.
Times are milliseconds of the cached clock. Timers as they should work (C21, C22). From the end of the handshake on.
-/
namespace Verif.WebHold
open Verif Verif.WebConn

/-- A connection and the deadline of its timer, if it is set (`c->ev->timer`). See src/common/timer.h:11-20. -/
structure X where
  c : C
  timer : Option Nat

/-- The connection has not been closed, and the worker works. See src/app/webser.c:82-86. -/
def live (c : C) : Bool :=
  match c.ph with
  | .gone _ => false
  | _ => true

/-- While a response is sent, an event calls a handler that sets the timer when it ends by waiting: one of those that send (src/app/webser.c:146-151, 173-178, 235-240), directly or by
`ssl_write_cb` (src/common/ssl.c:228). `webser_try_read` (callback 0, src/app/webser.c:88-106) does not touch the timer, and without a callback nothing is called
(src/common/event.c:219-228). -/
def calledW (w : WebSend.W) : WebSend.Ev → Bool
  | .r => decide (w.t.rcb ≠ none ∧ w.t.rcb ≠ some (.app 0))
  | .w => w.t.wcb.isSome
  | .timeout => false

/-- The same for every phase; `webser_req_proc` sets the timer when it waits (src/app/webser.c:420-425), called directly or by `ssl_read_cb` (src/common/ssl.c:182). -/
def called (c : C) (e : Ev) : Bool :=
  match e, c.ph with
  | .r, .req _ => c.t.rcb.isSome
  | .w, .req _ => c.t.wcb.isSome
  | .r, .rsp w _ => calledW w .r
  | .w, .rsp w _ => calledW w .w
  | _, _ => false

/-- An event of the connection at time `t`: `WEB_TMOUT` (src/app/webser.h:9, src/app/webser.c:149, 176, 238, 423) from now on if a handler has to wait; the timer goes with the connection
(src/common/net.c:96-125). -/
def event (k : Nat) (home index : List UInt8) (E : Nat → Env) (x : X) (t : Nat) (e : Ev) : Option X :=
  (step k home index E x.c e).map fun c => ⟨c, if live c then if called x.c e then some (t + 5 * 1000) else x.timer else none⟩

/-- What happens: a record arrives, the connection is reported readable or writable, the timers are looked at (src/common/timer.c:35-56). See src/common/process.c:56-63. -/
inductive Act where
  | arrive (b : UInt8) (bs : List UInt8)
  | r
  | w
  | pass
deriving Repr, DecidableEq

/-- One of them. See src/common/process.c:56-63, src/common/timer.c:35-56. -/
def act (k : Nat) (home index : List UInt8) (E : Nat → Env) (x : X) (v : Nat × Act) : Option X :=
  match v.2 with
  | .arrive b bs => event k home index E x v.1 (.arrive b bs)
  | .r => event k home index E x v.1 .r
  | .w => event k home index E x v.1 .w
  | .pass =>
    match x.timer with
    | some d => if d ≤ v.1 then event k home index E x v.1 .timeout else some x
    | none => some x

/-- A whole history. See src/common/process.c:56-63. -/
def run (k : Nat) (home index : List UInt8) (E : Nat → Env) (x : X) : List (Nat × Act) → Option X
  | [] => some x
  | v :: vs => (act k home index E x v).bind fun x' => run k home index E x' vs

/-- The connection when `webser_start` is called at time `t` (src/app/webser.c:438-463). -/
def start (k : Nat) (home index : List UInt8) (E : Nat → Env) (t0 : Ssl.S) (sock : List (UInt8 × List UInt8)) (t : Nat) : X :=
  ⟨WebConn.start k home index E t0 sock, if live (WebConn.start k home index E t0 sock) then some (t + 5 * 1000) else none⟩

/-! ### Connections without TLS while a response is sent -/

/-- A connection that sends a response, and the deadline of its timer. See src/common/timer.h:11-20. -/
structure Y where
  w : WebSend.W
  timer : Option Nat

/-- An event of it at time `t` (src/app/webser.c:88-106, 142-260). -/
def eventW (y : Y) (t : Nat) (e : WebSend.Ev) : Option Y :=
  (WebSend.step y.w e).map fun w => ⟨w, if w.fin.isNone then if calledW y.w e then some (t + 5 * 1000) else y.timer else none⟩

/-- What happens to it: it is reported readable or writable, or the timers are looked at. See src/common/process.c:56-63. -/
inductive ActW where
  | r
  | w
  | pass
deriving Repr, DecidableEq

/-- One of them. See src/common/process.c:56-63, src/common/timer.c:35-56. -/
def actW (y : Y) (v : Nat × ActW) : Option Y :=
  match v.2 with
  | .r => eventW y v.1 .r
  | .w => eventW y v.1 .w
  | .pass =>
    match y.timer with
    | some d => if d ≤ v.1 then eventW y v.1 .timeout else some y
    | none => some y

/-- A history until the response is over. See src/common/process.c:56-63. -/
def runW (y : Y) : List (Nat × ActW) → Option Y
  | [] => some y
  | v :: vs => (actW y v).bind fun y' => runW y' vs

/-- The end of `webser_rsp` at time `t` (src/app/webser.c:335-337). -/
def startW (tls : Bool) (t0 : Ssl.S) (hdr : List (List UInt8)) (body : WebSend.Body) (mem : Bool) (rd : List Nat) (dst : List TlsRelay.Wr) (peek : List WebSend.Peek) (t : Nat) : Y :=
  ⟨WebSend.start tls t0 hdr body mem rd dst peek, if (WebSend.start tls t0 hdr body mem rd dst peek).fin.isNone then some (t + 5 * 1000) else none⟩

end Verif.WebHold
