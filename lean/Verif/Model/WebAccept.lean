import Verif.Model.Auth
import Verif.Model.WebConn
/-
A connection on the TLS port of the web server, from `accept` on: the handshake, the search for the header of the tunnel in secret mode, and the hand-over to the web server or to
the tunnel (src/app/webser.c:465-548), on top of src/common/ssl.c:101-226. What the web server does is `Model/WebConn`, what the tunnel does `Model/Serve`.
-/
namespace Verif.WebAccept
open Verif

/-- What the connection waits for: the handshake; the header of the tunnel, of which there are `got`. See src/app/webser.c:468-548. -/
inductive Ph where
  | shake
  | route (got : List UInt8)
deriving Repr, DecidableEq

/-- A connection before the hand-over: callbacks and interest, results of `SSL_do_handshake` and of the calls of `ssl_read` before the hand-over (environment), TLS records not read
yet. Callbacks of the application: 10 is `webser_accept_cb_ssl`, 21 `webser_transfer_to_tlstunnel`. See src/app/webser.c:468-548. -/
structure P where
  t : Ssl.S
  hs : List Ssl.Res
  io : List Ssl.Res
  sock : List (UInt8 × List UInt8)
  ph : Ph
deriving Repr, DecidableEq

/-- A connection: not handed over yet; with the web server; with the tunnel, `buf` being in its buffer, its first callback installed and `sock` unread; closed; or
`ssl_handshake_cb` calls itself until the stack is used up. See src/app/webser.c:468-548, src/common/ssl.c:101-142. -/
inductive A where
  | pre (p : P)
  | web (c : WebConn.C)
  | tunnel (buf : List UInt8) (t : Ssl.S) (sock : List (UInt8 × List UInt8))
  | closed
  | endless

/-- The process: whether it is in secret mode (src/app/webser.c:541), bound on the parser's iterations, directory and index file, and what happens during each request. See
`Model/WebConn`, src/app/webser.c:508-548. -/
structure Cfg where
  secret : Bool
  k : Nat
  home : List UInt8
  index : List UInt8
  E : Nat → WebConn.Env

/-- `webser_start` (src/app/webser.c:438-463). It replaces the buffer in which the header was looked for (441). -/
def serve (g : Cfg) (p : P) : A := .web (WebConn.start g.k g.home g.index g.E p.t p.sock)

/-- `webser_transfer_to_tlstunnel` with the bytes `got` in its buffer of 8192 bytes (src/app/webser.c:478-505), and `tls_tunnel_s_start` up to the check of the header, which
needs no more bytes (src/app/tls_tunnel_s.c:269-298). The allocations succeed. -/
def route (g : Cfg) (p : P) (got : List UInt8) : A :=
  if got.length < 36 then
    match p.io with
    | [] => .pre { p with t := Ssl.read p.t .wantR, ph := .route got }
    | .wantR :: io => .pre { p with t := Ssl.read p.t .wantR, io, ph := .route got }
    | .wantW :: io => .pre { p with t := Ssl.read p.t .wantW, io, ph := .route got }
    | .err :: _ => .closed
    | .ok :: io =>
      match _hs : p.sock with
      | [] => .pre { p with t := Ssl.read p.t .wantR, io, ph := .route got }
      | r :: rest =>
        route g { p with t := Ssl.read p.t .ok, io, sock := WebConn.left (8192 - got.length) r rest } (got ++ (r.1 :: r.2).take (8192 - got.length))
  else if got.take 4 = Auth.magic then .tunnel got { p.t with rcb := some (.app 11), wcb := none } p.sock
  else serve g p
termination_by WebConn.size p.sock
decreasing_by
  simp only [_hs]
  exact WebConn.left_lt _ _ _ (by omega)

/-- `webser_accept_cb_ssl` once the handshake is done (src/app/webser.c:537-547). -/
def shaken (g : Cfg) (p : P) : A :=
  if g.secret then route g { p with t := { p.t with rcb := some (.app 21), wcb := none } } []
  else serve g { p with t := { p.t with wcb := none } }

/-- A call of `ssl_handshake`, by `webser_accept_cb_ssl` itself or by `ssl_handshake_cb` (`cb`), and what follows it (src/app/webser.c:523-547, src/common/ssl.c:101-180). After an
error both ways end in `net_free`. `ssl_handshake_cb` puts interest and callbacks back and calls one of them; `SSL_do_handshake` keeps succeeding. `none`: another callback is
called. -/
def shake (g : Cfg) (p : P) (cb : Bool) : Option A :=
  match p.hs with
  | [] => some (.pre { p with t := Ssl.handshake p.t .wantR })
  | .wantR :: hs => some (.pre { p with t := Ssl.handshake p.t .wantR, hs })
  | .wantW :: hs => some (.pre { p with t := Ssl.handshake p.t .wantW, hs })
  | .err :: _ => some .closed
  | .ok :: hs =>
    if cb then
      match Ssl.handshakeNext (Ssl.handshakeDone p.t) with
      | some (.app 10) => some (shaken g { p with t := Ssl.handshakeDone p.t, hs })
      | some .hs => some .endless
      | _ => none
    else some (shaken g { p with hs })

/-- The event loop calls a callback, unless it is NULL (src/common/event.c:219-228). `none`: a callback of another phase, or NULL through `ssl_read_cb`. -/
def call (g : Cfg) (p : P) (cb : Option Ssl.Cb) : Option A :=
  match cb, p.ph with
  | none, _ => some (.pre p)
  | some (.app 10), .shake => shake g p false
  | some .hs, .shake => shake g p true
  | some (.app 21), .route got => some (route g p got)
  | some .rd, .route got => if p.t.rcb = some (.app 21) then some (route g p got) else none
  | _, _ => none

/-- One event (src/common/event.c:204-232). The timers set in these phases all end in closing (src/app/webser.c:484, 528, src/common/ssl.c:104, src/common/net.c:170). What the tunnel
does is not modelled here. -/
def step (g : Cfg) (a : A) (e : WebConn.Ev) : Option A :=
  match a with
  | .web c => (WebConn.step g.k g.home g.index g.E c e).map .web
  | .pre p =>
    match e with
    | .arrive b bs => some (.pre { p with sock := p.sock ++ [(b, bs)] })
    | .timeout => some .closed
    | .r => call g p p.t.rcb
    | .w => call g p p.t.wcb
  | .tunnel buf t sock =>
    match e with
    | .arrive b bs => some (.tunnel buf t (sock ++ [(b, bs)]))
    | _ => some a
  | .closed => some .closed
  | .endless => some .endless

/-- A whole history. See src/common/event.c:204-232. -/
def run (g : Cfg) (a : A) : List WebConn.Ev → Option A
  | [] => some a
  | e :: es => (step g a e).bind fun a' => run g a' es

/-- An accepted connection (src/common/net.c:159-168). -/
def init (hs io : List Ssl.Res) : A := .pre ⟨{ opt := Ssl.maskR, rcb := some (.app 10), wcb := none }, hs, io, [], .shake⟩

/-- What was sent to the client as answers. See src/app/webser.c:142-260. -/
def sent : A → List UInt8
  | .web c => WebConn.sent c
  | _ => []

end Verif.WebAccept
