import Verif.Model.Tunnel
/-
The idle timers of a tunnel session: the `EZ_TMADD(…, tls_ses_exp, TLS_TUNNEL_TMOUT)` calls at the head of the four relay handlers
(src/app/tls_tunnel_s.c:63, 96, 131, 164). Each connection has one timer (`ev->timer`, src/common/event.h); arming it again replaces the deadline (src/common/timer.c:13-24).
Times are milliseconds of the cached clock.
-/
namespace Verif.Tunnel
open Verif Verif.Net

/-- `TLS_TUNNEL_TMOUT` (src/app/tls_tunnel_s.h:9). -/
def tmout : Nat := 10000

/-- The deadlines of the timers of the client's connection (`cdown`) and of the upstream connection (`cup`). See src/app/tls_tunnel_s.c:57-191. -/
structure Timers where
  cdown : Option Nat := none
  cup : Option Nat := none
deriving Repr, DecidableEq

/-- Arm the timer of the source (recv handlers: src/app/tls_tunnel_s.c:63, 131) or destination (send handlers: 96, 164) of a direction. -/
def Timers.arm (t : Timers) (side : Side) (src : Bool) (now : Nat) : Timers :=
  match side, src with
  | .up, true | .down, false => { t with cdown := some (now + tmout) }
  | .up, false | .down, true => { t with cup := some (now + tmout) }

/-- The timers after a call of the recv handler (src/app/tls_tunnel_s.c:57-88, 125-156): the source's; the send handler, which arms the destination's, is called if there
is something to send. -/
def armRecv (d : Dir) (side : Side) (now : Nat) (t : Timers) : Timers :=
  if (recvLoop d).buf = [] then t.arm side true now else (t.arm side true now).arm side false now

/-- The timers after a call of the send handler (src/app/tls_tunnel_s.c:90-123, 158-191): the destination's; the recv handler, which arms the source's, is called if the
buffer was sent completely and the source has not ended. -/
def armSend (d : Dir) (side : Side) (now : Nat) (t : Timers) : Timers :=
  match sendLoop d with
  | (d1, .drained) => if d1.eof then t.arm side false now else (t.arm side false now).arm side true now
  | _ => t.arm side false now

/-- A session with its timers. See src/app/tls_tunnel_s.c:57-229. -/
structure Timed where
  s : Sess
  t : Timers
deriving Repr, DecidableEq

/-- A timer is due. See src/common/timer.c:35-56. -/
def Timers.due (t : Timers) (now : Nat) : Bool := (t.cdown.any (· ≤ now)) || (t.cup.any (· ≤ now))

/-- An expiry pass at time `now` (src/common/timer.c:35-56): `tls_ses_exp` (src/app/tls_tunnel_s.c:47-54) if a timer of the session is due. Freed connections have no timers
(src/common/net.c:183). -/
def tick (x : Timed) (now : Nat) : Timed :=
  match x.s.closed with
  | some _ => x
  | none => if x.t.due now then ⟨step x.s .timeout, {}⟩ else x

/-- A readiness event at time `now` reported to a session (src/common/event.c:204-232). -/
def io (x : Timed) (now : Nat) (e : Event) : Timed :=
  match x.s.closed with
  | some _ => x
  | none =>
    let t' := match e with
      | .readable side => if (x.s.dir side).readCb then armRecv { x.s.dir side with srcWait := false } side now x.t else x.t
      | .writable side => if (x.s.dir side).writeCb then armSend { x.s.dir side with dstWait := false } side now x.t else x.t
      | .timeout => x.t
    ⟨step x.s e, if (step x.s e).closed.isSome then {} else t'⟩

/-- What happens to a session in time: expiry passes and readiness reports. See src/app/tls_tunnel_s.c:47-191. -/
inductive TEv where
  | pass
  | readable (s : Side)
  | writable (s : Side)
deriving Repr, DecidableEq

/-- One of them at a time. See src/app/tls_tunnel_s.c:47-191. -/
def tstep (x : Timed) (e : Nat × TEv) : Timed :=
  match e.2 with
  | .pass => tick x e.1
  | .readable s => io x e.1 (.readable s)
  | .writable s => io x e.1 (.writable s)

/-- A whole history. See src/common/process.c:56-63. -/
def trun (x : Timed) (es : List (Nat × TEv)) : Timed := es.foldl tstep x

/-- The session as `tls_tunnel_traffic_proc` starts it at time `now` (src/app/tls_tunnel_s.c:193-229); before, both timers have been deleted
(src/app/socks5.c:37, 50; src/app/tls_tunnel_c.c:60, 153). -/
def tproc (now : Nat) (early : List UInt8) (srcUp : List Rx) (dstUp : List Tx) (srcDown : List Rx) (dstDown : List Tx) : Timed :=
  let s := proc early srcUp dstUp srcDown dstDown
  ⟨s, if s.closed.isSome then {} else armRecv (Dir.start early srcUp dstUp) .up now {}⟩

end Verif.Tunnel
