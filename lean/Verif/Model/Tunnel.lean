import Verif.Model.Socks5
/-
The relay between the two connections of a tunnel session: src/app/tls_tunnel_s.c:57-229.
-/
namespace Verif.Tunnel
open Verif Verif.Net

/-- One direction of the relay. The code has two textually mirrored copies of every handler (`tls_tunnel_traffic_recv/send`
for client to upstream, `tls_tunnel_traffic_reverse_recv/send` for upstream to client); they touch disjoint
state, so one definition serves both.

* `src`: what the source socket's receive calls will return, in order (environment).
* `dst`: what the destination socket's send calls will return, in order (environment).
* `out`: bytes the destination socket has accepted so far (environment).
* `buf`, `used`: content (`pos`..`last`) and fill level (`last - start`) of the source connection's buffer.
* `eof`: `frecv_err_down` / `frecv_err_up` (src/app/tls_tunnel_s.h:24-25).
* `readCb`: the source's `read_cb` is the recv handler (else NULL); `writeCb`: the destination's `write_cb` is the send
  handler (else NULL).
* `srcWait`, `dstWait`: the last receive (send) call on the socket reported would-block or the socket was just registered, so
  the edge-triggered event loop will report the next readiness. These two flags record history only; no handler reads them. -/
structure Dir where
  src : List Rx
  dst : List Tx
  out : List UInt8
  buf : List UInt8
  used : Nat
  eof : Bool
  readCb : Bool
  writeCb : Bool
  srcWait : Bool
  dstWait : Bool
deriving Repr, DecidableEq

/-- Capacity of each relay buffer: `TLS_TUNNEL_METAN` (src/app/tls_tunnel_s.h:11; tls_tunnel_s.c:199, 207). -/
def cap : Nat := 4096 * 3

/-- Amount of environment input left; used for termination only. See src/app/tls_tunnel_s.c:57-88, 125-156. -/
def rxSize : List Rx → Nat
  | [] => 0
  | .data _ bs :: t => bs.length + 2 + rxSize t
  | _ :: t => 1 + rxSize t

/-- Source results after a receive took `n` bytes of the segment `b :: bs`. See src/common/net_send.c:3-28. -/
def pushBack (n : Nat) (b : UInt8) (bs : List UInt8) (t : List Rx) : List Rx :=
  match (b :: bs).drop n with
  | [] => t
  | c :: cs => .data c cs :: t

/-- `while (meta_getfree(meta) > 0) { recvn = recv(...); if (recvn < 0) { if (recvn == -1) eof = 1; break; } last += recvn; }`
(src/app/tls_tunnel_s.c:65-75 and 133-143). A failed socket keeps failing. -/
def recvLoop (d : Dir) : Dir :=
  if _h : d.used < cap then
    match _hs : d.src with
    | [] => { d with srcWait := true }
    | .again :: t => { d with src := t, srcWait := true }
    | .fail :: _ => { d with eof := true }
    | .data b bs :: t =>
      let n := cap - d.used
      recvLoop { d with
        buf := d.buf ++ (b :: bs).take n
        used := d.used + min n (bs.length + 1)
        src := pushBack n b bs t
        srcWait := false }
  else d
termination_by cap - d.used
decreasing_by omega

/-- Result of the send loop. See src/app/tls_tunnel_s.c:90-123, 158-191. -/
inductive SendRes where
  | drained
  | again
  | fail
deriving Repr, DecidableEq

/-- `while (meta_getlen(meta) > 0) { sendn = send(...); if (sendn < 0) {...} meta->pos += sendn; }`
(src/app/tls_tunnel_s.c:98-110 and 166-178). -/
def sendLoop (d : Dir) : Dir × SendRes :=
  match d.buf with
  | [] => (d, .drained)
  | b :: bs =>
    match _h : d.dst with
    | [] => ({ d with dstWait := true }, .again)
    | .again :: t => ({ d with dst := t, dstWait := true }, .again)
    | .fail :: _ => (d, .fail)
    | .sent n :: t =>
      sendLoop { d with buf := (b :: bs).drop n, out := d.out ++ (b :: bs).take n, dst := t, dstWait := false }
termination_by d.dst.length
decreasing_by simp [_h]

/-- How a handler invocation ends: both connections stay open, or both are closed, because the source ended and everything
was flushed, or because sending failed. See src/app/tls_tunnel_s.c:57-191. -/
inductive Res where
  | wait (d : Dir)
  | eofClose (d : Dir)
  | sendFail (d : Dir)
deriving Repr, DecidableEq

theorem rxSize_pushBack (n : Nat) (b : UInt8) (bs : List UInt8) (t : List Rx) :
    rxSize (pushBack n b bs t) + min n (bs.length + 1) ≤ rxSize (.data b bs :: t) := by
  unfold pushBack
  split
  · next h1 => simp only [rxSize]; omega
  · next c cs h1 =>
    have : ((b :: bs).drop n).length = (c :: cs).length := by rw [h1]
    simp only [List.length_drop, List.length_cons] at this
    simp only [rxSize]; omega

theorem recvLoop_size (d : Dir) :
    rxSize (recvLoop d).src + (recvLoop d).buf.length ≤ rxSize d.src + d.buf.length := by
  fun_induction recvLoop d with
  | case1 d h hs => simp [hs]
  | case2 d h t hs => simp [hs, rxSize]
  | case3 d h t hs => simp
  | case4 d h b bs t hs n ih =>
    have := rxSize_pushBack n b bs t
    refine Nat.le_trans ih ?_
    simp only [hs, List.length_append, List.length_take, List.length_cons]
    omega
  | case5 d h => simp

theorem recvLoop_progress (d : Dir) (h : d.buf = []) (h' : (recvLoop d).buf ≠ []) :
    rxSize (recvLoop d).src < rxSize d.src := by
  have := recvLoop_size d
  have : 0 < (recvLoop d).buf.length := List.length_pos_iff.mpr h'
  simp [h] at *
  omega

theorem sendLoop_src (d : Dir) : (sendLoop d).1.src = d.src := by
  fun_induction sendLoop d with
  | case5 d b bs hb n t hd ih => simpa using ih
  | _ => simp

/-- The state after `meta_clr(meta); dst->write_cb = NULL; src->read_cb = recv` (src/app/tls_tunnel_s.c:119-121, 187-189). -/
def rearm (d : Dir) : Dir := { d with buf := [], used := 0, writeCb := false, readCb := true }

/-- `tls_tunnel_traffic_send` / `tls_tunnel_traffic_reverse_send` (src/app/tls_tunnel_s.c:90-123, 158-191), including
the call of the recv handler at its end (lines 122, 190) and the call of the send handler made there
(lines 77-81, 145-149). -/
def trafficSend (d : Dir) : Res :=
  match _h : sendLoop d with
  | (d1, .again) => .wait d1
  | (d1, .fail) => .sendFail d1
  | (d1, .drained) =>
    if d1.eof then .eofClose d1
    else
      let d2 := recvLoop (rearm d1)
      if _hb : d2.buf = [] then
        if d2.eof then .eofClose d2 else .wait d2
      else trafficSend { d2 with readCb := false, writeCb := true }
termination_by rxSize d.src
decreasing_by
  have h1 := recvLoop_progress (rearm d1) rfl _hb
  have h2 := sendLoop_src d
  rw [_h] at h2
  simp only [rearm] at h1 ⊢
  rw [← h2]; exact h1

/-- `tls_tunnel_traffic_recv` / `tls_tunnel_traffic_reverse_recv` (src/app/tls_tunnel_s.c:57-88, 125-156). -/
def trafficRecv (d : Dir) : Res :=
  let d1 := recvLoop d
  if d1.buf = [] then
    if d1.eof then .eofClose d1 else .wait d1
  else trafficSend { d1 with readCb := false, writeCb := true }

/-- The two directions. See src/app/tls_tunnel_s.c:57-191. -/
inductive Side where
  | up    -- client to upstream
  | down  -- upstream to client
deriving Repr, DecidableEq

/-- Why a session ended (history only). See src/app/tls_tunnel_s.c:47-191. -/
inductive Why where
  | eof (s : Side)
  | sendFail (s : Side)
  | timeout
deriving Repr, DecidableEq

/-- A tunnel session: two directions and whether it was torn down (`net_free` on both connections). See src/app/tls_tunnel_s.h:22-33. -/
structure Sess where
  up : Dir
  down : Dir
  closed : Option Why
deriving Repr, DecidableEq

/-- Select a direction. See src/app/tls_tunnel_s.h:22-33. -/
def Sess.dir (s : Sess) : Side → Dir
  | .up => s.up
  | .down => s.down

/-- Replace a direction. See src/app/tls_tunnel_s.h:22-33. -/
def Sess.setDir (s : Sess) : Side → Dir → Sess
  | .up, d => { s with up := d }
  | .down, d => { s with down := d }

/-- Put a handler's result into the session; on failure both connections are freed (src/app/tls_tunnel_s.c:82-86, 101-105,
112-117 and the mirrored lines). -/
def Sess.put (s : Sess) (side : Side) : Res → Sess
  | .wait d => s.setDir side d
  | .eofClose d => { s.setDir side d with closed := some (.eof side) }
  | .sendFail d => { s.setDir side d with closed := some (.sendFail side) }

/-- Events of the event loop: a side's source is readable, a side's destination is writable, a session timer expires.
See src/app/tls_tunnel_s.c:47-191. -/
inductive Event where
  | readable (s : Side)
  | writable (s : Side)
  | timeout
deriving Repr, DecidableEq

/-- One dispatch of the event loop (src/common/event.c:81-88 and 204-232) on a session: the installed callback is run, a NULL
callback drops the event; an expired timer runs `tls_ses_exp` (src/app/tls_tunnel_s.c:47-54). After tear-down no event is delivered. -/
def step (s : Sess) (e : Event) : Sess :=
  match s.closed with
  | some _ => s
  | none =>
    match e with
    | .timeout => { s with closed := some .timeout }
    | .readable side =>
      if (s.dir side).readCb then s.put side (trafficRecv { s.dir side with srcWait := false })
      else s.setDir side { s.dir side with srcWait := false }
    | .writable side =>
      if (s.dir side).writeCb then s.put side (trafficSend { s.dir side with dstWait := false })
      else s.setDir side { s.dir side with dstWait := false }

/-- A direction as `tls_tunnel_traffic_proc` sets it up (src/app/tls_tunnel_s.c:193-229): recv handler installed on the source, no
write callback. `early` is what the source connection's buffer already holds (empty on the server; on the client the bytes cached by
`tls_tunnel_c_recv`). The `ev_opt` calls (226-227) register both sockets for reading and writing. -/
def Dir.start (early : List UInt8) (src : List Rx) (dst : List Tx) : Dir :=
  { src, dst, out := [], buf := early, used := early.length, eof := false, readCb := true, writeCb := false,
    srcWait := true, dstWait := true }

/-- `tls_tunnel_traffic_proc` (src/app/tls_tunnel_s.c:193-229): clear the upstream buffer (216), install the callbacks, run the recv
handler of the client side once (228). Simplification: the buffer allocations (198-213) succeed. -/
def proc (early : List UInt8) (srcUp : List Rx) (dstUp : List Tx) (srcDown : List Rx) (dstDown : List Tx) : Sess :=
  let s : Sess := { up := Dir.start early srcUp dstUp, down := Dir.start [] srcDown dstDown, closed := none }
  s.put .up (trafficRecv s.up)

/-- A session after a sequence of events. See src/common/event.c:204-232. -/
def run (s : Sess) (es : List Event) : Sess := es.foldl step s

end Verif.Tunnel
