import Verif.Model.Upstream
/-
One session of the tunnel server from the authorisation header to the relay, on the records the client sends: src/app/tls_tunnel_s.c,
src/app/socks5.c. The byte automata and the reply are those of `Model/Socks5` and `Model/Upstream`.
-/
namespace Verif.Serve
open Verif Verif.S5

/-- Where the session is, i.e. which callback is installed on the client's connection, with what it has read or still has to write.
See src/app/tls_tunnel_s.c:231-298, src/app/socks5.c:18-43, 196-436. -/
inductive Phase where
  /-- `tls_tunnel_s_auth_chk` (src/app/tls_tunnel_s.c:231-267) with the bytes in the buffer -/
  | auth (buf : List UInt8)
  /-- `s5_p1_req` (src/app/socks5.c:371-436) with the room left in the buffer -/
  | greet (s : P1) (free : Nat)
  /-- `s5_p1_rsp` (src/app/socks5.c:347-369) with the bytes not yet written -/
  | greetRsp (unsent : List UInt8)
  /-- `s5_p2_req` (src/app/socks5.c:196-345) -/
  | request (s : P2) (free : Nat)
  /-- resolving or connecting; `s5_try_read` is installed, which reads nothing (src/app/socks5.c:6-16, 137) -/
  | connect (a : Action)
  /-- `s5_p2_rsp` (src/app/socks5.c:18-43) -/
  | reply (unsent : List UInt8)
  /-- `tls_tunnel_traffic_recv` and the other relay callbacks (src/app/tls_tunnel_s.c:57-191) -/
  | relay
  | closed
  /-- memory outside an array was accessed, or an assertion failed -/
  | crash
deriving Repr, DecidableEq

/-- A session: the records that have arrived and were not read yet (src/common/ssl.c: one `SSL_read` returns bytes of one record), what was written to
the client, what was taken over for the upstream, and what was read and then thrown away. -/
structure St where
  phase : Phase
  sock : List (List UInt8)
  wire : List UInt8
  up : List UInt8
  lost : List UInt8
deriving Repr, DecidableEq

/-- The state after `tls_tunnel_s_start` (src/app/tls_tunnel_s.c:269-298). -/
def init : St := ⟨.auth [], [], [], [], []⟩

/-- What happens: a record arrives; the handler's receive call finds the first unread record; its send call writes `n` bytes (at least one); the upstream
connection is established (`ip`: the address the resolver found, for a name) or cannot be; a call fails or the session's timer expires.
See src/app/tls_tunnel_s.c:231-298, src/app/socks5.c:18-43, 196-436. -/
inductive Ev where
  | arrive (rec : List UInt8)
  | read
  | write (n : Nat)
  | connected (ip : List UInt8)
  | refused
  | fail
deriving Repr, DecidableEq

/-- A record of which the first `n` bytes were read: what is left stays. See src/common/net_send.c:3-28. -/
def leave (n : Nat) (r : List UInt8) (t : List (List UInt8)) : List (List UInt8) :=
  if r.length ≤ n then t else r.drop n :: t

/-- `sizeof(tls_tunnel_auth_t)` (src/app/tls_tunnel_s.h:15-19, packed). -/
def hdrLen : Nat := 36

/-- The receive call of `tls_tunnel_s_auth_chk` and, when the header is there, the check (src/app/tls_tunnel_s.c:234-266). `admit` is the check of
the buffer, `Verif.Auth.authJudge`; whatever follows the header in the buffer is cleared with it (262). -/
def readAuth (admit : List UInt8 → Bool) (s : St) (buf r : List UInt8) (t : List (List UInt8)) : St :=
  let n := metaN - buf.length
  let buf' := buf ++ r.take n
  let s := { s with sock := leave n r t }
  if buf'.length < hdrLen then { s with phase := .auth buf' }
  else if admit buf' then { s with phase := .greet P1.init metaN, lost := s.lost ++ buf'.drop hdrLen }
  else { s with phase := .closed }

/-- Number of bytes the automaton takes before it stops; all of them when it does not (the loops src/app/socks5.c:238, 403). -/
def used {σ ρ : Type} (f : σ → UInt8 → Step σ ρ) : σ → List UInt8 → Nat
  | _, [] => 0
  | s, b :: bs =>
    match f s b with
    | .cont s' => 1 + used f s' bs
    | .stop _ => 1

/-- The receive call of `s5_p1_req` and the loop over the bytes (src/app/socks5.c:389-434). After the last method byte the rest of the buffer is
cleared (422) and the reply is put into it (424-427). -/
def readGreet (s : St) (p : P1) (free : Nat) (r : List UInt8) (t : List (List UInt8)) : St :=
  if free = 0 then { s with phase := .crash }
  else
    let got := r.take free
    let s := { s with sock := leave free r t }
    match feed p1Byte p got with
    | .cont p' => { s with phase := .greet p' (free - got.length) }
    | .stop (.done _) => { s with phase := .greetRsp p1Reply, lost := s.lost ++ got.drop (used p1Byte p got) }
    | .stop .oob => { s with phase := .crash }

/-- The receive call of `s5_p2_req`, the loop over the bytes and the decision about the destination (src/app/socks5.c:224-343, 131-193). The rest
of the buffer is cleared (328). -/
def readRequest (s : St) (p : P2) (free : Nat) (r : List UInt8) (t : List (List UInt8)) : St :=
  if free = 0 then { s with phase := .crash }
  else
    let got := r.take free
    let s := { s with sock := leave free r t }
    match feed p2Byte p got with
    | .cont p' => { s with phase := .request p' (free - got.length) }
    | .stop .close => { s with phase := .closed }
    | .stop .oob => { s with phase := .crash }
    | .stop (.accept q) =>
      match cupAddr q with
      | .close => { s with phase := .closed }
      | .oob => { s with phase := .crash }
      | a => { s with phase := .connect a, lost := s.lost ++ got.drop (used p2Byte p got) }

/-- The upstream connection is established (`s5_cup_connect_chk`, src/app/socks5.c:45-75): the reply with the address connected to. -/
def established (a : Action) (ip : List UInt8) : List UInt8 :=
  match a with
  | .connect4 q p0 p1 => p2Reply q [p0, p1]
  | .resolve _ p0 p1 => p2Reply ip [p0, p1]
  | _ => []

/-- One event. A receive call happens only in the phases whose callback makes one, a send call only in the two replying phases. In the relay a record read is
taken over for the upstream; that it gets there is C07 to C09, and the other direction is left out.
See src/app/tls_tunnel_s.c:231-298, src/app/socks5.c:18-43, 196-436. -/
def step (admit : List UInt8 → Bool) (s : St) (e : Ev) : St :=
  match e with
  | .arrive r => { s with sock := s.sock ++ [r] }
  | .read =>
    match s.sock with
    | [] => s
    | r :: t =>
      match s.phase with
      | .auth buf => readAuth admit s buf r t
      | .greet p free => readGreet s p free r t
      | .request p free => readRequest s p free r t
      | .relay => { s with sock := t, up := s.up ++ r }
      | _ => s
  | .write n =>
    match s.phase with
    | .greetRsp u =>
      { s with wire := s.wire ++ u.take (n + 1),
               phase := if (u.drop (n + 1)).isEmpty then .request P2.init metaN else .greetRsp (u.drop (n + 1)) }
    | .reply u =>
      { s with wire := s.wire ++ u.take (n + 1),
               phase := if (u.drop (n + 1)).isEmpty then .relay else .reply (u.drop (n + 1)) }
    | _ => s
  | .connected ip =>
    match s.phase with
    | .connect a => { s with phase := .reply (established a ip) }
    | _ => s
  | .refused =>
    match s.phase with
    | .connect _ => { s with phase := .closed }
    | _ => s
  | .fail => if s.phase = .crash then s else { s with phase := .closed }

/-- A whole history. See src/common/event.c:204-232. -/
def run (admit : List UInt8 → Bool) (s : St) (es : List Ev) : St := es.foldl (step admit) s

end Verif.Serve
