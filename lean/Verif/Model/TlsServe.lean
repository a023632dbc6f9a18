import Verif.Model.Serve
import Verif.Model.Ssl
/-
One session of the tunnel server from the accepted connection to the relay, on top of the TLS layer: which callbacks are installed and registered while the
handlers of src/app/tls_tunnel_s.c:231-330 and src/app/socks5.c wait, and what src/common/ssl.c:101-268 and src/common/event.c:204-232 do with them. What the handlers
do with the bytes is `Model/Serve`.
-/
namespace Verif.TlsServe
open Verif Verif.Serve

/-- The result of one TLS call. `go`: it succeeds, a read with bytes of the first unread record, a write having taken all bytes (`SSL_MODE_ENABLE_PARTIAL_WRITE` is not
set, src/common/ssl.c:318-362, so OpenSSL reports success only then); `waitR`, `waitW`: `SSL_ERROR_WANT_READ`, `SSL_ERROR_WANT_WRITE`; `fail`: any other error.
See src/common/ssl.c:144-268. -/
inductive Io where
  | go
  | waitR
  | waitW
  | fail
deriving Repr, DecidableEq

/-- What must not happen: NULL is called; callbacks call each other without end; a handler other than that of the session's phase runs (`.app n`) or the handshake
is continued after its end. See src/common/ssl.c:101-142, 182, 228. -/
inductive Bad where
  | null
  | endless
  | stray (cb : Ssl.Cb)
deriving Repr, DecidableEq

/-- A connection of the server with its session. `hs`: the handshake is not done. `active`: a handler is running and makes its next TLS call; otherwise control is with
the event loop. `aR`, `aW`: `epoll` is going to report that the connection is readable, writable (edge-triggered: after a call would have blocked, when something
arrived, or after the registration was changed). `qR`, `qW`: `fread`, `fwrite` (src/common/event.h:20-33), reported but not dispatched yet. `wait` is history: for
what the last call that had to wait waits (`true`: writability). Application callbacks: 10 `tls_tunnel_s_accept`, 11 `tls_tunnel_s_auth_chk`, 12 `s5_p1_req`,
13 `s5_p1_rsp`, 14 `s5_p2_req`, 15 `s5_try_read`, 2 `s5_p2_rsp`, 16 `tls_tunnel_traffic_proc`. -/
structure C where
  ses : St
  t : Ssl.S
  hs : Bool
  active : Bool
  aR : Bool
  aW : Bool
  qR : Bool
  qW : Bool
  wait : Bool
  bad : Option Bad
deriving Repr, DecidableEq

/-- An accepted connection (src/common/net.c:159-168). The session is not created before the handshake is done, but nothing is read before either. -/
def init : C where
  ses := Serve.init
  t := { opt := Ssl.maskR, rcb := some (.app 10), wcb := none }
  hs := true
  active := false
  aR := true
  aW := false
  qR := false
  qW := false
  wait := false
  bad := none

/-- The handler of each phase (src/app/tls_tunnel_s.c:264, 295, src/app/socks5.c:39, 72, 137, 366, 430). -/
def handler : Phase → Option Nat
  | .auth _ => some 11
  | .greet _ _ => some 12
  | .greetRsp _ => some 13
  | .request _ _ => some 14
  | .connect _ => some 15
  | .reply _ => some 2
  | _ => none

/-- The session is over, or has reached the relay (`Model/TlsRelay`). See src/app/socks5.c:39-41. -/
def over (c : C) : Bool := c.bad.isSome || (handler c.ses.phase).isNone

/-- The callbacks that a handler installs when the session enters another phase: a reading phase (src/app/tls_tunnel_s.c:264-265, src/app/socks5.c:366-367), a writing one
(src/app/socks5.c:71-72, 429-430), waiting for the upstream connection (src/app/socks5.c:137-138), the relay (src/app/socks5.c:39-40). A handler that stays in its phase
installs nothing. -/
def enter (old new : Phase) (s : Ssl.S) : Ssl.S :=
  if handler new = handler old then s
  else match new with
    | .greet _ _ => { s with rcb := some (.app 12), wcb := none }
    | .greetRsp _ => { s with rcb := none, wcb := some (.app 13) }
    | .request _ _ => { s with rcb := some (.app 14), wcb := none }
    | .connect _ => { s with rcb := some (.app 15), wcb := none }
    | .reply _ => { s with rcb := none, wcb := some (.app 2) }
    | .relay => { s with rcb := some (.app 16), wcb := none }
    | _ => s

/-- Does the phase's handler make TLS calls? Those of `connect` are over until the upstream connection is established. See src/app/socks5.c:6-16, 141-182. -/
def calls : Phase → Bool
  | .connect _ => false
  | p => (handler p).isSome

/-- New callbacks and interest. A changed interest is registered (`EPOLL_CTL_MOD`, src/common/event.c:40-55), upon which `epoll` looks at the connection anew, and then
reports what is in the interest only. -/
def mod (c : C) (s : Ssl.S) : C :=
  if s.opt = c.t.opt then { c with t := s } else { c with t := s, aR := s.opt.r, aW := s.opt.w }

/-- A call had to wait: the handler returns -11 to the event loop; the next readiness is reported. See src/common/ssl.c:203-217, 247-262. -/
def block (c : C) (s : Ssl.S) (w : Bool) : C :=
  let c := mod c s
  { c with active := false, wait := w, aR := c.aR || !w, aW := c.aW || w }

/-- The session ends (`net_free` of the connection, src/app/tls_tunnel_s.c:13-45). -/
def close (c : C) : C := { c with ses := { c.ses with phase := .closed }, active := false }

/-- `tls_tunnel_s_start` and what precedes it once the handshake is done (src/app/tls_tunnel_s.c:269-298, 325-330). -/
def begin (c : C) (s : Ssl.S) : C := { mod c { s with rcb := some (.app 11), wcb := none } with hs := false }

/-- A call of the handshake. When it was made by `tls_tunnel_s_accept` itself (no callback is `ssl_handshake_cb`), that goes on; otherwise `ssl_handshake_cb` puts
interest and callbacks back and calls one of them. See src/app/tls_tunnel_s.c:315-330, src/common/ssl.c:101-180. -/
def shake (c : C) : Io → C
  | .go =>
    if c.t.rcb ≠ some .hs ∧ c.t.wcb ≠ some .hs then begin c c.t
    else
      let s := Ssl.handshakeDone c.t
      match Ssl.handshakeNext s with
      | some (.app 10) => begin c s
      | some .hs => { c with bad := some .endless, active := false }
      | some cb => { c with bad := some (.stray cb), active := false }
      | none => { c with bad := some .null, active := false }
  | .waitR => block c (Ssl.handshake c.t .wantR) false
  | .waitW => block c (Ssl.handshake c.t .wantW) true
  | .fail => close c

/-- A TLS call went well, the handler processed the result (`ses`) and installed the callbacks of the next phase. See src/app/tls_tunnel_s.c:231-267,
src/app/socks5.c:18-43, 196-436. -/
def advance (c : C) (s : Ssl.S) (ses : St) : C :=
  { mod c (enter c.ses.phase ses.phase s) with ses, active := calls ses.phase }

/-- A receive call of the running handler (src/app/tls_tunnel_s.c:235, src/app/socks5.c:226, 391). Without an unread record it has to wait. -/
def recv (admit : List UInt8 → Bool) (c : C) : Io → C
  | .go => if c.ses.sock = [] then block c (Ssl.read c.t .wantR) false else advance c (Ssl.read c.t .ok) (Serve.step admit c.ses .read)
  | .waitR => block c (Ssl.read c.t .wantR) false
  | .waitW => block c (Ssl.read c.t .wantW) true
  | .fail => close c

/-- A send call of the running handler for the unsent bytes `u` (src/app/socks5.c:24, 351). -/
def send (admit : List UInt8 → Bool) (c : C) (u : List UInt8) : Io → C
  | .go => advance c (Ssl.write c.t .ok) (Serve.step admit c.ses (.write u.length))
  | .waitR => block c (Ssl.write c.t .wantR) false
  | .waitW => block c (Ssl.write c.t .wantW) true
  | .fail => close c

/-- A TLS call of the running handler. See src/app/tls_tunnel_s.c:231-330, src/app/socks5.c:18-43, 196-436. -/
def call (admit : List UInt8 → Bool) (c : C) (x : Io) : C :=
  if c.hs then shake c x
  else match c.ses.phase with
    | .greetRsp u => send admit c u x
    | .reply u => send admit c u x
    | _ => recv admit c x

/-- What a call of a callback leads to: `ssl_read_cb` calls the read callback, `ssl_write_cb` the write callback (src/common/ssl.c:182, 228). With two callbacks a chain
of more than three calls repeats itself. -/
inductive Tgt where
  | null
  | endless
  | app (n : Nat)
  | hs
deriving Repr, DecidableEq

/-- See `Tgt`. See src/common/ssl.c:182, 228. -/
def resolve (s : Ssl.S) : Nat → Option Ssl.Cb → Tgt
  | _, none => .null
  | _, some (.app n) => .app n
  | _, some .hs => .hs
  | 0, some .rd => .endless
  | 0, some .wr => .endless
  | k + 1, some .rd => resolve s k s.rcb
  | k + 1, some .wr => resolve s k s.wcb

/-- The event loop calls a callback unless it is NULL (src/common/event.c:219-228). The handler of the phase runs on; `s5_try_read` does nothing when the connection is in
order (src/app/socks5.c:6-16), else the session ends (`Ev.expire`). -/
def callCb (c : C) (cb : Option Ssl.Cb) : C :=
  if cb = none then c
  else match resolve c.t 3 cb with
    | .null => { c with bad := some .null }
    | .endless => { c with bad := some .endless }
    | .hs => if c.hs then { c with active := true } else { c with bad := some (.stray .hs) }
    | .app n =>
      if c.hs then (if n = 10 then { c with active := true } else { c with bad := some (.stray (.app n)) })
      else if handler c.ses.phase = some n then { c with active := calls c.ses.phase }
      else { c with bad := some (.stray (.app n)) }

/-- What happens: a record arrives; the connection becomes readable or writable (anew); `epoll` reports what it has; the event loop comes to the next reported event of this
connection; the running handler's TLS call returns; the upstream connection is established or cannot be; a timer expires, or the connection is found broken.
See src/common/event.c:57-90, 204-232, src/app/socks5.c:6-16, 45-75. -/
inductive Ev where
  | arrive (r : List UInt8)
  | edge (r w : Bool)
  | report (r w : Bool)
  | dispatch
  | call (x : Io)
  | connected (ip : List UInt8)
  | refused
  | expire
deriving Repr, DecidableEq

/-- One event. While a handler runs, the event loop does nothing else. Reading is dispatched before writing (src/common/event.c:219-228). When the session is over or
has reached the relay, only what arrives is recorded. -/
def step (admit : List UInt8 → Bool) (c : C) (e : Ev) : C :=
  match e with
  | .arrive r => { c with ses := Serve.step admit c.ses (.arrive r), aR := true }
  | .edge r w => { c with aR := c.aR || r, aW := c.aW || w }
  | .report r w =>
    if over c || c.active then c
    else { c with qR := c.qR || (r && c.aR && c.t.opt.r), aR := c.aR && !(r && c.t.opt.r),
                  qW := c.qW || (w && c.aW && c.t.opt.w), aW := c.aW && !(w && c.t.opt.w) }
  | .dispatch =>
    if over c || c.active then c
    else if c.qR then callCb { c with qR := false } c.t.rcb
    else if c.qW then callCb { c with qW := false } c.t.wcb
    else c
  | .call x => if over c || !c.active then c else call admit c x
  | .connected ip =>
    match c.ses.phase with
    | .connect _ => if over c then c else advance c c.t (Serve.step admit c.ses (.connected ip))
    | _ => c
  | .refused =>
    match c.ses.phase with
    | .connect _ => if over c then c else close c
    | _ => c
  | .expire => if over c || c.active then c else close c

/-- A whole history. See src/common/event.c:204-232. -/
def run (admit : List UInt8 → Bool) (c : C) (es : List Ev) : C := es.foldl (step admit) c

end Verif.TlsServe
