import Verif.Model.Auth
import Verif.Model.TlsRelay
/-
One session of the tunnel client from the accepted local connection to the relay, on top of the TLS layer of its upstream connection: which callbacks are installed and
registered while the handlers of src/app/tls_tunnel_c.c wait, and what src/common/ssl.c:101-293 and src/common/event.c:204-232 do with them. The local connection is
plain; its bytes are kept until the relay begins.
-/
namespace Verif.TlsClient
open Verif
open Verif.TlsRelay (Rd pushBack)

/-- The result of one call on the upstream connection. `go`: it succeeds, a write having taken all bytes (`SSL_MODE_ENABLE_PARTIAL_WRITE` is not set,
src/common/ssl.c:318-362); `waitR`, `waitW`: `SSL_ERROR_WANT_READ`, `SSL_ERROR_WANT_WRITE`; `fail`: any other error. See src/common/ssl.c:144-268. -/
inductive Io where
  | go
  | waitR
  | waitW
  | fail
deriving Repr, DecidableEq

/-- What must not happen: NULL is called; callbacks call each other without end; a handler other than that of the session's phase runs (`.app n`), or the handshake is
continued after its end. See src/common/ssl.c:101-142, 182, 228. -/
inductive Bad where
  | null
  | endless
  | stray (cb : Ssl.Cb)
deriving Repr, DecidableEq

/-- Why a session ended: the buffer for the local program's bytes was full, the local connection ended or failed, the upstream side failed or a timer expired.
See src/app/tls_tunnel_c.c:7-147. -/
inductive Why where
  | full
  | ended
  | upstream
deriving Repr, DecidableEq

/-- Where the upstream side stands: being connected (`tls_tunnel_c_connect_chk`, callback 20), in the handshake (`tls_tunnel_c_connect_ssl`, callback 21), sending the header
(`tls_tunnel_c_auth_send`, callback 2, as in `Model/TlsRelay`), relaying, or closed. `tls_tunnel_c_auth_build` runs through and has no phase.
See src/app/tls_tunnel_c.c:44-147. -/
inductive Phase where
  | conn
  | shake
  | auth
  | relay
  | closed (w : Why)
deriving Repr, DecidableEq

/-- A session. `t`: interest, callbacks and saved values of the upstream connection. `active`: a handler is running and makes its next call; otherwise control is with the
event loop. `via`: the handshake call that is being made is one of `ssl_handshake_cb`, not of `tls_tunnel_c_connect_ssl`. `aR`, `aW`: `epoll` is going to report that
the upstream connection is readable, writable; `qR`, `qW`: reported but not dispatched yet (`fread`, `fwrite`, src/common/event.h:20-33). `wait` is history: for what
the last call that had to wait waits (`true`: writability). `cache`: the bytes of the local program that are kept (`cdown->meta`); `src`: what the receive calls on
the local connection will return; `wire`: the bytes the upstream connection took. -/
structure C where
  phase : Phase
  t : Ssl.S
  active : Bool
  via : Bool
  aR : Bool
  aW : Bool
  qR : Bool
  qW : Bool
  wait : Bool
  bad : Option Bad
  cache : List UInt8
  src : List Rd
  wire : List UInt8
deriving Repr, DecidableEq

/-- After `tls_tunnel_c_accept` (src/app/tls_tunnel_c.c:150-209) with a connect call that succeeded at once (`now`) or is in progress: writing is registered
(src/common/net.c:109), and `epoll` is going to report when the connection is established or has failed. -/
def init (now : Bool) (src : List Rd) : C where
  phase := .conn
  t := { opt := Ssl.maskW, rcb := none, wcb := some (.app 20) }
  active := now
  via := false
  aR := false
  aW := true
  qR := false
  qW := false
  wait := true
  bad := none
  cache := []
  src := src
  wire := []

/-- The handler of each phase (src/app/tls_tunnel_c.c:84, 145, 193). -/
def handler : Phase → Option Nat
  | .conn => some 20
  | .shake => some 21
  | .auth => some 2
  | _ => none

/-- The session is over, or has reached the relay (`Model/TlsRelay`). See src/app/tls_tunnel_c.c:63-65. -/
def over (c : C) : Bool := c.bad.isSome || (handler c.phase).isNone

/-- New callbacks and interest. A changed interest is registered (`EPOLL_CTL_MOD`, src/common/event.c:40-55), upon which `epoll` looks at the connection anew, and then
reports what is in the interest only. -/
def mod (c : C) (s : Ssl.S) : C :=
  if s.opt = c.t.opt then { c with t := s } else { c with t := s, aR := s.opt.r, aW := s.opt.w }

/-- A call had to wait: the handler returns -11 to the event loop; the next readiness is reported. See src/common/ssl.c:157-176, 247-262. -/
def block (c : C) (s : Ssl.S) (w : Bool) : C :=
  let c := mod c s
  { c with active := false, wait := w, aR := c.aR || !w, aW := c.aW || w }

/-- Both connections are released (src/app/tls_tunnel_c.c:14-18, 55-57, 95-97). -/
def close (c : C) (w : Why) : C := { c with phase := .closed w, active := false }

/-- The end of `tls_tunnel_c_connect_ssl` and `tls_tunnel_c_auth_build` (src/app/tls_tunnel_c.c:68-86, 123-129): the header is going to be sent. -/
def begin (c : C) (s : Ssl.S) : C := { mod c { s with rcb := none, wcb := some (.app 2) } with phase := .auth }

/-- A call of the handshake. When it was made by `tls_tunnel_c_connect_ssl` itself, that goes on; otherwise `ssl_handshake_cb` puts interest and callbacks back and calls one
of them. After a failure both ways lead to `tls_tunnel_c_connect_ssl`, which releases everything (src/common/ssl.c:129-141, src/app/tls_tunnel_c.c:100-105, 116-119).
See src/app/tls_tunnel_c.c:107-129, src/common/ssl.c:101-180. -/
def shake (c : C) : Io → C
  | .go =>
    if c.via then
      let s := Ssl.handshakeDone c.t
      match Ssl.handshakeNext s with
      | some (.app 21) => begin c s
      | some .hs => { c with bad := some .endless, active := false }
      | some cb => { c with bad := some (.stray cb), active := false }
      | none => { c with bad := some .null, active := false }
    else begin c c.t
  | .waitR => block c (Ssl.handshake c.t .wantR) false
  | .waitW => block c (Ssl.handshake c.t .wantW) true
  | .fail => close c .upstream

/-- A write call for the header: `tls_tunnel_c_auth_send` (src/app/tls_tunnel_c.c:44-66), `ssl_write_chain` (src/common/ssl.c:270-293). When it is out, the relay begins. -/
def auth (key : List UInt8) (c : C) : Io → C
  | .go => { mod c (Ssl.write c.t .ok) with phase := .relay, active := false, wire := c.wire ++ Auth.clientHeader key }
  | .waitR => block c (Ssl.write c.t .wantR) false
  | .waitW => block c (Ssl.write c.t .wantW) true
  | .fail => close c .upstream

/-- A call of the running handler. `tls_tunnel_c_connect_chk` (src/app/tls_tunnel_c.c:133-147) asks for the socket's status, which never waits, and goes on to the
handshake; the two wait results stand for success there. -/
def call (key : List UInt8) (c : C) (x : Io) : C :=
  match c.phase with
  | .conn => if x = .fail then close c .upstream else { c with phase := .shake, t := { c.t with wcb := some (.app 21) }, via := false }
  | .shake => shake c x
  | .auth => auth key c x
  | _ => c

/-- What a call of a callback leads to: `ssl_read_cb` calls the read callback, `ssl_write_cb` the write callback (src/common/ssl.c:182, 228). With two callbacks a chain
of more than three calls repeats itself. -/
inductive Tgt where
  | null
  | endless
  | app (n : Nat)
  | hs
deriving Repr, DecidableEq

/-- See `Tgt`. See src/common/ssl.c:182, 228. -/
def resolve (s : Ssl.S) : Nat → Option Ssl.Cb → Tgt
  | _, none => .null
  | _, some (.app n) => .app n
  | _, some .hs => .hs
  | 0, some .rd => .endless
  | 0, some .wr => .endless
  | k + 1, some .rd => resolve s k s.rcb
  | k + 1, some .wr => resolve s k s.wcb

/-- The event loop calls a callback unless it is NULL (src/common/event.c:219-228). -/
def callCb (c : C) (cb : Option Ssl.Cb) : C :=
  if cb = none then c
  else match resolve c.t 3 cb with
    | .null => { c with bad := some .null }
    | .endless => { c with bad := some .endless }
    | .hs => if c.phase = .shake then { c with active := true, via := true } else { c with bad := some (.stray .hs) }
    | .app n => if handler c.phase = some n then { c with active := true, via := false } else { c with bad := some (.stray (.app n)) }

/-- Size of the buffer: `TLS_TUNNEL_METAN` (src/app/tls_tunnel_s.h:11). -/
def cap : Nat := 12288

/-- `tls_tunnel_c_recv` (src/app/tls_tunnel_c.c:7-34): receive until would-block; a full buffer or a failed receive (also the end of the stream) ends the session.
Result: the reason, the kept bytes, the results left. -/
def keep (cache : List UInt8) (src : List Rd) : Option Why × List UInt8 × List Rd :=
  if _h : cache.length < cap then
    match src with
    | [] => (none, cache, [])
    | .wait _ :: q => (none, cache, q)
    | .fail :: q => (some .ended, cache, .fail :: q)
    | .data b bs :: q => keep (cache ++ (b :: bs).take (cap - cache.length)) (pushBack (cap - cache.length) b bs q)
  else (some .full, cache, src)
termination_by cap - cache.length
decreasing_by simp only [List.length_append, List.length_take, List.length_cons]; omega

/-- What happens: the upstream connection becomes readable or writable (anew); `epoll` reports what it has; the event loop comes to the next reported event of the
upstream connection; the running handler's call returns; the local connection is readable; a timer of the session expires (simplification: it ends the session; which
connections it releases is the subject of `Model/Session`).
See src/common/event.c:57-90, 204-232, src/app/tls_tunnel_c.c:7-34. -/
inductive Ev where
  | edge (r w : Bool)
  | report (r w : Bool)
  | dispatch
  | call (x : Io)
  | readable
  | expire
deriving Repr, DecidableEq

/-- One event. While a handler runs, the event loop does nothing else. Reading is dispatched before writing (src/common/event.c:219-228). Nothing is followed
after the relay has begun or the session is over. -/
def step (key : List UInt8) (c : C) (e : Ev) : C :=
  if over c then c
  else match e with
    | .edge r w => { c with aR := c.aR || r, aW := c.aW || w }
    | .report r w =>
      if c.active then c
      else { c with qR := c.qR || (r && c.aR && c.t.opt.r), aR := c.aR && !(r && c.t.opt.r),
                    qW := c.qW || (w && c.aW && c.t.opt.w), aW := c.aW && !(w && c.t.opt.w) }
    | .dispatch =>
      if c.active then c
      else if c.qR then callCb { c with qR := false } c.t.rcb
      else if c.qW then callCb { c with qW := false } c.t.wcb
      else c
    | .call x => if c.active then call key c x else c
    | .readable =>
      if c.active then c
      else
        let r := keep c.cache c.src
        let c := { c with cache := r.2.1, src := r.2.2 }
        match r.1 with
        | none => c
        | some w => close c w
    | .expire => if c.active then c else close c .upstream

/-- A whole history. See src/common/event.c:204-232. -/
def run (key : List UInt8) (c : C) (es : List Ev) : C := es.foldl (step key) c

/-- The relay that follows (`tls_tunnel_traffic_proc`, src/app/tls_tunnel_c.c:61-65): `srcA`, `dstB` are the results of the upstream connection, `dstA` those of sends on the
local one. -/
def relay (c : C) (srcA : List Rd) (dstA dstB : List TlsRelay.Wr) : TlsRelay.R :=
  TlsRelay.start true c.t [] c.cache srcA dstA c.src dstB

end Verif.TlsClient
