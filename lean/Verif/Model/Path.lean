import Verif.Model.Auth
import Verif.Model.Serve
/-
The whole path: a local program, the tunnel client, the TLS connection, the tunnel server, the destination. The session on the server is `Serve.St`.
Every receive and send call is an event of its own and moves any number of bytes that it may move; the handlers of
src/app/tls_tunnel_s.c:57-191 and src/app/tls_tunnel_c.c:7-66 make these calls in certain orders only (`Tunnel`, `TunnelC`), so this model has all
their behaviours and more.
-/
namespace Verif.Path
open Verif

/-- Where the tunnel client is: connecting or in the handshake, writing the header, relaying, or closed. See src/app/tls_tunnel_c.c:44-147. -/
inductive CPhase where
  | connecting
  | auth (left : List UInt8)
  | relay
  | closed
deriving Repr, DecidableEq

/-- All bytes on the path. See src/app/tls_tunnel_c.c:150-209, src/app/tls_tunnel_s.c:269-298.

* `lq`: written by the local program, not yet received by the client; `got`: received by the local program.
* `ph`, `up`, `down`: the client's phase and its two buffers (`cdown->meta`, `cup->meta`).
* `net`: records on their way to the server; `back`: bytes on their way to the client.
* `srv`: the session on the server; `pend`: bytes of decrypted records that the relay has not taken; `sup`, `sdn`: the server's two buffers.
* `dst`: received by the destination; `dq`: written by the destination, not yet received by the server. -/
structure St where
  lq : List UInt8
  got : List UInt8
  ph : CPhase
  up : List UInt8
  down : List UInt8
  net : List (List UInt8)
  back : List UInt8
  srv : Serve.St
  pend : List UInt8
  sup : List UInt8
  sdn : List UInt8
  dst : List UInt8
  dq : List UInt8
deriving Repr, DecidableEq

/-- A local connection just accepted and a server session just started (src/app/tls_tunnel_c.c:150-209, src/app/tls_tunnel_s.c:269-298). -/
def init : St := ⟨[], [], .connecting, [], [], [], [], Serve.init, [], [], [], [], []⟩

/-- Size of each buffer: `TLS_TUNNEL_METAN` (src/app/tls_tunnel_s.h:11). -/
def cap : Nat := 12288

/-- Events. The numbers are the most bytes a call moves, less one. See src/app/tls_tunnel_c.c:7-147, src/app/tls_tunnel_s.c:57-191. -/
inductive Ev where
  /-- the local program writes -/
  | send (r : List UInt8)
  /-- the destination writes -/
  | dest (r : List UInt8)
  /-- client: receive from the local program; the handshake is finished; write of the header; write of the buffer -/
  | take (n : Nat)
  | established
  | header (n : Nat)
  | put (n : Nat)
  /-- a record arrives at the server -/
  | deliver
  /-- server: the events of the session -/
  | read
  | write (n : Nat)
  | connected (ip : List UInt8)
  /-- server, in the relay: receive, write to the destination; receive from the destination, write to the client -/
  | fetch (n : Nat)
  | out (n : Nat)
  | dtake (n : Nat)
  | dput (n : Nat)
  /-- client, in the relay: receive from the server, write to the local program -/
  | cback (n : Nat)
  | cout (n : Nat)
  /-- the client or the server closes the session because a call failed or a timer expired; the destination cannot be reached -/
  | cfail
  | sfail
  | refused
deriving Repr, DecidableEq

/-- The client receives from the local program: `tls_tunnel_c_recv` (src/app/tls_tunnel_c.c:7-34), which closes when its buffer is full, or
`tls_tunnel_traffic_recv` (src/app/tls_tunnel_s.c:57-88), which then waits. -/
def take (s : St) (n : Nat) : St :=
  match s.ph with
  | .closed => s
  | .relay =>
    let k := min (n + 1) (cap - s.up.length)
    { s with up := s.up ++ s.lq.take k, lq := s.lq.drop k }
  | _ =>
    if cap ≤ s.up.length then { s with ph := .closed }
    else
      let k := min (n + 1) (cap - s.up.length)
      { s with up := s.up ++ s.lq.take k, lq := s.lq.drop k }

/-- The client writes (part of) the header as a record of its own: `tls_tunnel_c_auth_send` (src/app/tls_tunnel_c.c:44-66). -/
def header (s : St) (n : Nat) : St :=
  match s.ph with
  | .auth left =>
    { s with net := s.net ++ [left.take (n + 1)],
             ph := if (left.drop (n + 1)).isEmpty then .relay else .auth (left.drop (n + 1)) }
  | _ => s

/-- The client writes a record of the local program's bytes: `tls_tunnel_traffic_send` (src/app/tls_tunnel_s.c:90-123). -/
def put (s : St) (n : Nat) : St :=
  if s.ph = .relay ∧ s.up ≠ [] then { s with net := s.net ++ [s.up.take (n + 1)], up := s.up.drop (n + 1) } else s

/-- An event of the server's session; what it takes over and what it writes is passed on. See src/app/tls_tunnel_s.c:231-298,
src/app/socks5.c:18-43, 196-436. -/
def serve (admit : List UInt8 → Bool) (s : St) (e : Serve.Ev) : St :=
  let t := Serve.step admit s.srv e
  { s with srv := t, pend := s.pend ++ t.up.drop s.srv.up.length, back := s.back ++ t.wire.drop s.srv.wire.length }

/-- One event; `key` is the client's key, `admit` the server's check. The four moves of the server's relay are `tls_tunnel_traffic_recv`,
`tls_tunnel_traffic_send`, `tls_tunnel_traffic_reverse_recv` and `tls_tunnel_traffic_reverse_send` (src/app/tls_tunnel_s.c:57-191), the two of the
client the last two of these (the client shares the code, src/app/tls_tunnel_c.c:63). -/
def step (key : List UInt8) (admit : List UInt8 → Bool) (s : St) (e : Ev) : St :=
  match e with
  | .send r => { s with lq := s.lq ++ r }
  | .dest r => { s with dq := s.dq ++ r }
  | .take n => take s n
  | .established => if s.ph = .connecting then { s with ph := .auth (Auth.clientHeader key) } else s
  | .header n => header s n
  | .put n => put s n
  | .deliver =>
    match s.net with
    | [] => s
    | r :: t => { serve admit s (.arrive r) with net := t }
  | .read => serve admit s .read
  | .write n => serve admit s (.write n)
  | .connected ip => serve admit s (.connected ip)
  | .fetch n =>
    if s.srv.phase = .relay then
      let k := min (n + 1) (cap - s.sup.length)
      { s with sup := s.sup ++ s.pend.take k, pend := s.pend.drop k }
    else s
  | .out n =>
    if s.srv.phase = .relay then { s with dst := s.dst ++ s.sup.take (n + 1), sup := s.sup.drop (n + 1) } else s
  | .dtake n =>
    if s.srv.phase = .relay then
      let k := min (n + 1) (cap - s.sdn.length)
      { s with sdn := s.sdn ++ s.dq.take k, dq := s.dq.drop k }
    else s
  | .dput n =>
    if s.srv.phase = .relay then { s with back := s.back ++ s.sdn.take (n + 1), sdn := s.sdn.drop (n + 1) } else s
  | .cback n =>
    if s.ph = .relay then
      let k := min (n + 1) (cap - s.down.length)
      { s with down := s.down ++ s.back.take k, back := s.back.drop k }
    else s
  | .cout n =>
    if s.ph = .relay then { s with got := s.got ++ s.down.take (n + 1), down := s.down.drop (n + 1) } else s
  | .cfail => { s with ph := .closed }
  | .sfail => serve admit s .fail
  | .refused => serve admit s .refused

end Verif.Path
