import Verif.Model.Serve
import Verif.Model.Dns
/-
How long a session of the tunnel server can stand before its relay begins: the phases of `Model/Serve`, before them the TLS handshake and in the connecting phase the
resolver, with the timers that the handlers set when they have to wait. src/app/tls_tunnel_s.c:231-338, src/app/socks5.c, src/dns/dns.c:193-258, src/common/ssl.c:100-181.
Times are milliseconds of the cached clock. Timers as they should work (C21, C22); the waits of the TLS layer as in C104.
Simplification: a handler may also wait although something has arrived; allocations succeed.
-/
namespace Verif.Hold
open Verif Verif.S5 Verif.Serve

/-- What the session does besides its phase in `Model/Serve`: the TLS handshake, at its first call or later ones (src/app/tls_tunnel_s.c:316-328, src/common/ssl.c:100-105);
the phase itself; while connecting: the question to the resolver has to be sent (src/dns/dns.c:234-258), its answer is awaited with what there is of it
(src/dns/dns.c:193-215), the connection to the address is made (src/app/socks5.c:77-96). -/
inductive Sub where
  | shake (again : Bool)
  | main
  | ask
  | answer (got : List UInt8)
  | conn (ip : List UInt8)
deriving Repr, DecidableEq

/-- A session with the deadline of the timer that is set. Only one of its timers is set at a time: src/app/socks5.c:37, 50, 327, 363, 419, src/dns/dns.c:215,
src/app/tls_tunnel_s.c:247, 272, 301. -/
structure X where
  s : St
  sub : Sub
  timer : Option Nat
deriving Repr, DecidableEq

/-- What the environment fixes: the check of the header (`Verif.Auth.authJudge`), the resolver's cache (src/dns/dns.c:48-55), the address taken from a response
(src/dns/dns.c:217-231). -/
structure Env where
  admit : List UInt8 → Bool
  cached : List UInt8 → Option (List UInt8)
  judge : List UInt8 → List UInt8 → Option (List UInt8)

/-- The result of a call other than that it would block: the handshake is done; a receive call finds a new record (`b :: bs`), or more of what has arrived; a send
call takes `n + 1` bytes; the question is sent; a datagram; the connection is there; it was refused; any call fails. See src/common/net_send.c, src/common/ssl.c:144-240. -/
inductive Res where
  | shaken
  | rd (b : UInt8) (bs : List UInt8)
  | more
  | wr (n : Nat)
  | sent
  | dgram (b : UInt8) (bs : List UInt8)
  | conn
  | refused
  | fail
deriving Repr, DecidableEq

/-- The length a response must have before it is looked at (src/dns/dns.c:199). -/
def want (name : List UInt8) : Nat := 12 + Dns.qnameLen name + 4

/-- The session is over, or the relay has begun. See src/app/tls_tunnel_s.c:193-229. -/
def over (s : St) : Bool :=
  match s.phase with
  | .relay => true
  | .closed => true
  | .crash => true
  | _ => false

/-- Entering the connecting phase, `s5_cup_addr` (src/app/socks5.c:131-193): an address or a cached name is connected to, otherwise the resolver is asked. -/
def enter (e : Env) (s : St) : X :=
  match s.phase with
  | .connect (.resolve n _ _) =>
    match e.cached n with
    | some ip => ⟨s, .conn ip, none⟩
    | none => ⟨s, .ask, none⟩
  | .connect (.connect4 ip _ _) => ⟨s, .conn ip, none⟩
  | _ => ⟨s, .main, none⟩

/-- The session is closed. See src/app/tls_tunnel_s.c:47-54, src/app/socks5.c:121-127. -/
def shut (s : St) : X := ⟨{ s with phase := .closed }, .main, none⟩

/-- A receive call on the client's connection in one of the three reading phases (src/app/tls_tunnel_s.c:234-266, src/app/socks5.c:223-345, 388-434). -/
def receive (e : Env) (s : St) : Option X :=
  match s.phase, s.sock with
  | .auth _, _ :: _ => some (enter e (Serve.step e.admit s .read))
  | .greet _ _, _ :: _ => some (enter e (Serve.step e.admit s .read))
  | .request _ _, _ :: _ => some (enter e (Serve.step e.admit s .read))
  | _, _ => none

/-- The next call of the session gets the result `r`; `none`: it does not make such a call, so that the call it makes would block. See src/app/tls_tunnel_s.c:231-338,
src/app/socks5.c:18-129, 196-436, src/dns/dns.c:193-258. -/
def one (e : Env) (x : X) (r : Res) : Option X :=
  match x.sub, r with
  | _, .fail => some (shut x.s)
  | .shake _, .shaken => some ⟨x.s, .main, none⟩
  | .main, .rd b bs => receive e { x.s with sock := x.s.sock ++ [b :: bs] }
  | .main, .more => receive e x.s
  | .main, .wr n =>
    match x.s.phase with
    | .greetRsp _ => some ⟨Serve.step e.admit x.s (.write n), .main, none⟩
    | .reply _ => some ⟨Serve.step e.admit x.s (.write n), .main, none⟩
    | _ => none
  | .ask, .sent => some ⟨x.s, .answer [], none⟩
  | .answer got, .dgram b bs =>
    match x.s.phase with
    | .connect (.resolve n _ _) =>
      let got := got ++ (b :: bs).take (1500 - got.length)
      if got.length < want n then some ⟨x.s, .answer got, none⟩
      else
        match e.judge n got with
        | some ip => some ⟨x.s, .conn ip, none⟩
        | none => some (shut x.s)
    | _ => none
  | .conn ip, .conn => some ⟨Serve.step e.admit x.s (.connected ip), .main, none⟩
  | .conn _, .refused => some ⟨Serve.step e.admit x.s .refused, .main, none⟩
  | _, _ => none

/-- A handler runs: calls with the given results, until one would block or nothing is left to do here. See src/common/event.c:204-232. -/
def go (e : Env) (x : X) : List Res → X
  | [] => x
  | r :: rs =>
    if over x.s then x
    else
      match one e x r with
      | some x' => go e x' rs
      | none => x

/-- The time for which the session waits: `TLS_TUNNEL_TMOUT` (src/app/tls_tunnel_s.h:9; src/app/tls_tunnel_s.c:238, 322, src/app/socks5.c:27, 87, 228, 354, 393), `SSL_TMOUT` from the second
call of the handshake on (src/common/ssl.h:9, src/common/ssl.c:103), `DNS_TMOUT` (src/dns/dns.h:10; src/dns/dns.c:206, 243). -/
def tmout : Sub → Nat
  | .shake false => 10000
  | .shake true => 5000
  | .main => 10000
  | .ask => 5000
  | .answer _ => 5000
  | .conn _ => 10000

/-- The handshake has been tried. See src/common/ssl.c:124-168. -/
def tried : Sub → Sub
  | .shake _ => .shake true
  | u => u

/-- The handler that was waiting is called at time `t` and ends by waiting, by closing, or with the relay. See src/common/event.c:204-232. -/
def call (e : Env) (x : X) (t : Nat) (rs : List Res) : X :=
  if over x.s then x
  else
    let y := go e x rs
    if over y.s then { y with timer := none } else ⟨y.s, tried y.sub, some (t + tmout y.sub)⟩

/-- The timers are looked at (src/common/timer.c:35-56): `tls_ses_exp` (src/app/tls_tunnel_s.c:47-54), `net_exp`, `ssl_cexp` (src/common/ssl.c:37-42), `dns_cexp`
(src/dns/dns.c:25-29) close the session. -/
def pass (x : X) (t : Nat) : X :=
  match x.timer with
  | some d => if d ≤ t then shut x.s else x
  | none => x

/-- What happens to the session. See src/common/process.c:56-63. -/
inductive Ev where
  | call (rs : List Res)
  | pass
deriving Repr, DecidableEq

/-- One of them at a time. See src/common/process.c:56-63. -/
def step (e : Env) (x : X) (v : Nat × Ev) : X :=
  match v.2 with
  | .call rs => call e x v.1 rs
  | .pass => pass x v.1

/-- A whole history. See src/common/process.c:56-63. -/
def run (e : Env) (x : X) (es : List (Nat × Ev)) : X := es.foldl (step e) x

/-- A new connection, whose handshake is tried for the first time (src/app/tls_tunnel_s.c:300-338). -/
def fresh : X := ⟨Serve.init, .shake false, none⟩

end Verif.Hold
