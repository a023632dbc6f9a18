import Verif.Model.Ssl
import Verif.Model.Tunnel
/-
The relay of a tunnel session together with what the TLS layer does to the callbacks and the interest of its connection: src/app/tls_tunnel_s.c:57-229 on top of
src/common/ssl.c:184-268. In every session one connection uses TLS and the other does not: on the server the client connection (`cdown`), on the tunnel client the
upstream connection (`cup`). Direction `a` is read from the TLS connection and written to the plain one, direction `b` the other way round.
-/
namespace Verif.TlsRelay
open Verif

/-- A direction. On the server `a` is upload (`tls_tunnel_traffic_recv`, `tls_tunnel_traffic_send`), on the tunnel client download (the `reverse` functions).
See src/app/tls_tunnel_s.c:57-191. -/
inductive D where
  | a
  | b
deriving Repr, DecidableEq

/-- The result of a receive call: bytes, would block (`w`: the TLS layer has to wait until it can write, `SSL_ERROR_WANT_WRITE`), end or failure. See
src/common/ssl.c:184-226, src/common/net_send.c:3-28. -/
inductive Rd where
  | data (b : UInt8) (bs : List UInt8)
  | wait (w : Bool)
  | fail
deriving Repr, DecidableEq

/-- The result of a send call: bytes taken, would block (`r`: the TLS layer has to wait until it can read, `SSL_ERROR_WANT_READ`), failure. See
src/common/ssl.c:230-268, src/common/net_send.c:30-51. -/
inductive Wr where
  | sent (n : Nat)
  | wait (r : Bool)
  | fail
deriving Repr, DecidableEq

/-- The data of one direction: what the source will return and the destination will answer (environment), what was accepted, content and fill level of the
source's buffer, `frecv_err_down` or `frecv_err_up`. See src/app/tls_tunnel_s.h:22-33. -/
structure Half where
  src : List Rd
  dst : List Wr
  out : List UInt8
  buf : List UInt8
  used : Nat
  eof : Bool
deriving Repr, DecidableEq

/-- Why the session ended (history only). See src/app/tls_tunnel_s.c:47-191. -/
inductive Why where
  | eof (d : D)
  | sendFail (d : D)
  | timeout
deriving Repr, DecidableEq

/-- A session. `t`: interest, callbacks and saved values of the TLS connection; its callback `.app 0` is the receive handler of `a`, `.app 1` the send handler of
`b`, `.app 2` the handler that sent the message before the relay (`s5_p2_rsp` or `tls_tunnel_c_auth_send`), `.app 3` an older one. `tWR`, `tWW`: `epoll` is going to
report the TLS connection when it is readable, writable (edge-triggered: after it would have blocked, or after the registration was changed). `pr`, `pw`: the
plain connection's callbacks are the receive handler of `b`, the send handler of `a` (else NULL); `pWR`, `pWW` as for the other. `epoll`'s part is history only;
no handler reads it. See src/common/event.h:20-33, src/common/ssl.h:15-29, src/app/tls_tunnel_s.h:22-33. -/
structure R where
  client : Bool
  t : Ssl.S
  tWR : Bool
  tWW : Bool
  pr : Bool
  pw : Bool
  pWR : Bool
  pWW : Bool
  a : Half
  b : Half
  closed : Option Why
deriving Repr, DecidableEq

/-- The data of a direction. See src/app/tls_tunnel_s.h:22-33. -/
def R.half (r : R) : D → Half
  | .a => r.a
  | .b => r.b

/-- Replace it. See src/app/tls_tunnel_s.h:22-33. -/
def R.set (r : R) : D → Half → R
  | .a, h => { r with a := h }
  | .b, h => { r with b := h }

/-- New callbacks and interest of the TLS connection. A changed interest is registered (`EPOLL_CTL_MOD`, src/common/event.c:40-55), upon which `epoll` looks at
the connection anew, and then reports what is in the interest only. -/
def mod (r : R) (s : Ssl.S) : R :=
  if s.opt = r.t.opt then { r with t := s } else { r with t := s, tWR := s.opt.r, tWW := s.opt.w }

/-- What a receive call with the given result does to callbacks and interest: `ssl_read` for `a`, `recvs` for `b`. After would-block the next readiness is reported.
See src/common/ssl.c:184-226, src/common/net_send.c:3-28. -/
def onRead (r : R) : D → Ssl.Res → R
  | .a, .wantR => { mod r (Ssl.read r.t .wantR) with tWR := true }
  | .a, .wantW => { mod r (Ssl.read r.t .wantW) with tWW := true }
  | .a, x => mod r (Ssl.read r.t x)
  | .b, .wantR => { r with pWR := true }
  | .b, .wantW => { r with pWR := true }
  | .b, _ => r

/-- The same for a send call: `ssl_write` for `b`, `sends` for `a`. See src/common/ssl.c:230-268, src/common/net_send.c:30-51. -/
def onWrite (r : R) : D → Ssl.Res → R
  | .b, .wantR => { mod r (Ssl.write r.t .wantR) with tWR := true }
  | .b, .wantW => { mod r (Ssl.write r.t .wantW) with tWW := true }
  | .b, x => mod r (Ssl.write r.t x)
  | .a, .wantR => { r with pWW := true }
  | .a, .wantW => { r with pWW := true }
  | .a, _ => r

/-- The source's `read_cb` is set to the receive handler, or to NULL (src/app/tls_tunnel_s.c:78, 121, 146, 189). -/
def setRead (r : R) : D → Bool → R
  | .a, v => { r with t := { r.t with rcb := if v then some (.app 0) else none } }
  | .b, v => { r with pr := v }

/-- The destination's `write_cb` is set to the send handler, or to NULL (src/app/tls_tunnel_s.c:79, 120, 147, 188). -/
def setWrite (r : R) : D → Bool → R
  | .b, v => { r with t := { r.t with wcb := if v then some (.app 1) else none } }
  | .a, v => { r with pw := v }

@[simp] theorem half_set (r : R) (d : D) (h : Half) : (r.set d h).half d = h := by cases d <;> rfl
@[simp] theorem half_mod (r : R) (s : Ssl.S) (d : D) : (mod r s).half d = r.half d := by unfold mod; split <;> cases d <;> rfl
@[simp] theorem half_onRead (r : R) (d e : D) (x : Ssl.Res) : (onRead r d x).half e = r.half e := by
  cases d <;> cases x <;> cases e <;> simp only [onRead, R.half] <;> unfold mod <;> split <;> rfl
@[simp] theorem half_onWrite (r : R) (d e : D) (x : Ssl.Res) : (onWrite r d x).half e = r.half e := by
  cases d <;> cases x <;> cases e <;> simp only [onWrite, R.half] <;> unfold mod <;> split <;> rfl
@[simp] theorem half_setRead (r : R) (d e : D) (v : Bool) : (setRead r d v).half e = r.half e := by cases d <;> cases e <;> rfl
@[simp] theorem half_setWrite (r : R) (d e : D) (v : Bool) : (setWrite r d v).half e = r.half e := by cases d <;> cases e <;> rfl

/-- Source results after a receive took `n` bytes of the segment `b :: bs`. See src/common/net_send.c:3-28, src/common/ssl.c:189. -/
def pushBack (n : Nat) (b : UInt8) (bs : List UInt8) (t : List Rd) : List Rd :=
  match (b :: bs).drop n with
  | [] => t
  | c :: cs => .data c cs :: t

/-- The receive loop (src/app/tls_tunnel_s.c:65-75, 133-143). A failed connection keeps failing; after the end of the observed results the call would block. -/
def recvLoop (r : R) (d : D) : R :=
  if _h : (r.half d).used < Tunnel.cap then
    match _hs : (r.half d).src with
    | [] => onRead r d .wantR
    | .wait w :: q => onRead (r.set d { r.half d with src := q }) d (if w then .wantW else .wantR)
    | .fail :: _ => onRead (r.set d { r.half d with eof := true }) d .err
    | .data b bs :: q =>
      let n := Tunnel.cap - (r.half d).used
      recvLoop (onRead (r.set d { r.half d with
        buf := (r.half d).buf ++ (b :: bs).take n
        used := (r.half d).used + min n (bs.length + 1)
        src := pushBack n b bs q }) d .ok) d
  else r
termination_by Tunnel.cap - (r.half d).used
decreasing_by simp only [half_onRead, half_set]; omega

/-- Result of a send loop. See src/app/tls_tunnel_s.c:90-123, 158-191. -/
inductive SendRes where
  | drained
  | again
  | fail
deriving Repr, DecidableEq

/-- The send loop (src/app/tls_tunnel_s.c:98-110, 166-178). -/
def sendLoop (r : R) (d : D) : R × SendRes :=
  match (r.half d).buf with
  | [] => (r, .drained)
  | b :: bs =>
    match _h : (r.half d).dst with
    | [] => (onWrite r d .wantW, .again)
    | .wait x :: q => (onWrite (r.set d { r.half d with dst := q }) d (if x then .wantR else .wantW), .again)
    | .fail :: _ => (onWrite r d .err, .fail)
    | .sent n :: q =>
      sendLoop (onWrite (r.set d { r.half d with buf := (b :: bs).drop n, out := (r.half d).out ++ (b :: bs).take n, dst := q }) d .ok) d
termination_by (r.half d).dst.length
decreasing_by simp [_h]

/-- Amount of environment input left; used for termination only. See src/app/tls_tunnel_s.c:57-191. -/
def rdSize : List Rd → Nat
  | [] => 0
  | .data _ bs :: t => bs.length + 2 + rdSize t
  | _ :: t => 1 + rdSize t

theorem rdSize_pushBack (n : Nat) (b : UInt8) (bs : List UInt8) (t : List Rd) :
    rdSize (pushBack n b bs t) + min n (bs.length + 1) ≤ rdSize (.data b bs :: t) := by
  unfold pushBack
  split
  · next h1 => simp only [rdSize]; omega
  · next c cs h1 =>
    have : ((b :: bs).drop n).length = (c :: cs).length := by rw [h1]
    simp only [List.length_drop, List.length_cons] at this
    simp only [rdSize]; omega

theorem recvLoop_size (r : R) (d : D) :
    rdSize ((recvLoop r d).half d).src + ((recvLoop r d).half d).buf.length ≤ rdSize (r.half d).src + (r.half d).buf.length := by
  fun_induction recvLoop r d with
  | case1 r h hs => simp [hs]
  | case2 r h w q hs => simp [hs, rdSize]
  | case3 r h t hs => simp
  | case4 r h b bs q hs n ih =>
    have := rdSize_pushBack n b bs q
    refine Nat.le_trans ih ?_
    simp only [half_onRead, half_set, hs, List.length_append, List.length_take, List.length_cons]
    omega
  | case5 r h => simp

theorem recvLoop_progress (r : R) (d : D) (h : (r.half d).buf = []) (h' : ((recvLoop r d).half d).buf ≠ []) :
    rdSize ((recvLoop r d).half d).src < rdSize (r.half d).src := by
  have := recvLoop_size r d
  have : 0 < ((recvLoop r d).half d).buf.length := List.length_pos_iff.mpr h'
  simp [h] at *
  omega

theorem sendLoop_src (r : R) (d : D) : ((sendLoop r d).1.half d).src = (r.half d).src := by
  fun_induction sendLoop r d with
  | case5 r b bs hb n q hd ih => simpa using ih
  | _ => simp

/-- `meta_clr(meta); dst->write_cb = NULL; src->read_cb = recv` (src/app/tls_tunnel_s.c:119-121, 187-189). -/
def rearm (r : R) (d : D) : R := setRead (setWrite (r.set d { r.half d with buf := [], used := 0 }) d false) d true

/-- Both connections are freed (src/app/tls_tunnel_s.c:82-86, 101-105, 112-117 and the mirrored lines). -/
def close (r : R) (w : Why) : R := { r with closed := some w }

/-- The send handlers (src/app/tls_tunnel_s.c:90-123, 158-191), with the receive handler called at their end (122, 190) and the send handler called there. -/
def trafficSend (r : R) (d : D) : R :=
  match _h : sendLoop r d with
  | (r1, .again) => r1
  | (r1, .fail) => close r1 (.sendFail d)
  | (r1, .drained) =>
    if (r1.half d).eof then close r1 (.eof d)
    else
      let r2 := recvLoop (rearm r1 d) d
      if _hb : (r2.half d).buf = [] then
        if (r2.half d).eof then close r2 (.eof d) else r2
      else trafficSend (setWrite (setRead r2 d false) d true) d
termination_by rdSize (r.half d).src
decreasing_by
  have h1 := recvLoop_progress (rearm r1 d) d (by simp [rearm]) _hb
  have h2 := sendLoop_src r d
  rw [_h] at h2
  simp only [rearm, half_setRead, half_setWrite, half_set] at h1 ⊢
  rw [← h2]; exact h1

/-- The receive handlers (src/app/tls_tunnel_s.c:57-88, 125-156). -/
def trafficRecv (r : R) (d : D) : R :=
  let r1 := recvLoop r d
  if (r1.half d).buf = [] then
    if (r1.half d).eof then close r1 (.eof d) else r1
  else trafficSend (setWrite (setRead r1 d false) d true) d

/-- `tls_tunnel_traffic_proc` (src/app/tls_tunnel_s.c:193-229): clears the upstream buffer (216), which on the server is that of `b` and on the tunnel client that of
`a`; installs the callbacks; registers both connections for reading and writing (226-227); runs the receive handler of the client side (228). -/
def proc (r : R) : R :=
  let r := if r.client then { r with a := { r.a with buf := [], used := 0 } } else { r with b := { r.b with buf := [], used := 0 } }
  let r := setWrite (setRead (setWrite (setRead r .a true) .a false) .b true) .b false
  let r := mod r { r.t with opt := ⟨true, true⟩ }
  trafficRecv r (if r.client then .b else .a)

/-- The send loop of the handler `.app 2` (src/app/socks5.c:23-36; src/app/tls_tunnel_c.c:48 with src/common/ssl.c:270-293): it sends the content of the TLS connection's
buffer, which is that of `a`, on the TLS connection. -/
def firstLoop (r : R) : R × SendRes :=
  match r.a.buf with
  | [] => (r, .drained)
  | x :: xs =>
    match _h : r.b.dst with
    | [] => (onWrite r .b .wantW, .again)
    | .wait y :: q => (onWrite { r with b := { r.b with dst := q } } .b (if y then .wantR else .wantW), .again)
    | .fail :: _ => (onWrite r .b .err, .fail)
    | .sent n :: q =>
      firstLoop (onWrite { r with
        a := { r.a with buf := (x :: xs).drop n }
        b := { r.b with dst := q, out := r.b.out ++ (x :: xs).take n } } .b .ok)
termination_by r.b.dst.length
decreasing_by
  have := half_onWrite { r with
        a := { r.a with buf := (x :: xs).drop n }
        b := { r.b with dst := q, out := r.b.out ++ (x :: xs).take n } } .b .b .ok
  simp only [R.half] at this
  rw [this]
  simp [_h]

/-- `s5_p2_rsp` (src/app/socks5.c:18-43) or `tls_tunnel_c_auth_send` (src/app/tls_tunnel_c.c:44-66): when the buffer is out it is cleared and
`tls_tunnel_traffic_proc` is called. -/
def first (r : R) : R :=
  match firstLoop r with
  | (r1, .again) => r1
  | (r1, .fail) => close r1 (.sendFail .b)
  | (r1, .drained) => proc { r1 with a := { r1.a with buf := [], used := 0 } }

/-- A call of the TLS connection's `read_cb` by `ssl_read_cb` (src/common/ssl.c:182). `none`: a call of NULL, or calls that never end. -/
def callR (r : R) : Option R :=
  match r.t.rcb with
  | some (.app 0) => some (trafficRecv r .a)
  | _ => none

/-- A call of its `write_cb` by `ssl_write_cb` (src/common/ssl.c:228). -/
def callW (r : R) : Option R :=
  match r.t.wcb with
  | some (.app 1) => some (trafficSend r .b)
  | some (.app 2) => some (first r)
  | _ => none

/-- Events: the TLS connection is readable, writable; the plain one is readable, writable; a timer of the session expires. See src/common/event.c:204-232,
src/app/tls_tunnel_s.c:47-54. -/
inductive Ev where
  | tr
  | tw
  | pr
  | pw
  | timeout
deriving Repr, DecidableEq

/-- One dispatch of the event loop (src/common/event.c:204-232). A NULL callback drops the event. `none`: the process crashed. -/
def step (r : R) (e : Ev) : Option R :=
  match r.closed with
  | some _ => some r
  | none =>
    match e with
    | .timeout => some (close r .timeout)
    | .tr =>
      let r := { r with tWR := false }
      match r.t.rcb with
      | none => some r
      | some .wr => callW r
      | some _ => callR r
    | .tw =>
      let r := { r with tWW := false }
      match r.t.wcb with
      | none => some r
      | some .rd => callR r
      | some _ => callW r
    | .pr => some (if r.pr then trafficRecv { r with pWR := false } .b else { r with pWR := false })
    | .pw => some (if r.pw then trafficSend { r with pWW := false } .a else { r with pWW := false })

/-- A session after a sequence of events. See src/common/event.c:204-232. -/
def run (r : R) : List Ev → Option R
  | [] => some r
  | e :: es => (step r e).bind fun r' => run r' es

/-- The beginning of the relay: `t0` is the TLS connection before the message that precedes it (the reply of the server or the header of the tunnel client) was sent,
`ws` are the results of the `ssl_write` calls for that message, the last of which sent its last bytes; then `tls_tunnel_traffic_proc` runs. `early`: bytes the
tunnel client received before (`tls_tunnel_c_recv`, src/app/tls_tunnel_c.c:7-34). See src/app/socks5.c:18-43, src/app/tls_tunnel_c.c:44-66. -/
def start (client : Bool) (t0 : Ssl.S) (ws : List Ssl.Res) (early : List UInt8) (srcA : List Rd) (dstA : List Wr) (srcB : List Rd) (dstB : List Wr) : R :=
  proc {
    client
    t := ws.foldl Ssl.write t0
    tWR := true, tWW := true, pr := false, pw := false, pWR := true, pWW := true
    a := ⟨srcA, dstA, [], [], 0, false⟩
    b := ⟨srcB, dstB, [], if client then early else [], if client then early.length else 0, false⟩
    closed := none }

end Verif.TlsRelay
