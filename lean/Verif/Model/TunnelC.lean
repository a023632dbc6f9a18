import Verif.Model.Auth
/-
The tunnel client until the relay starts: src/app/tls_tunnel_c.c.
-/
namespace Verif.TunnelC
open Verif Verif.Net Verif.Tunnel

/-- Why a session ended before the relay started. See src/app/tls_tunnel_c.c:7-147. -/
inductive Why where
  | cacheFull
  | localEnd
  | upstream
deriving DecidableEq, Repr

/-- Where the upstream side stands: connecting or in the TLS handshake (`tls_tunnel_c_connect_chk`, `tls_tunnel_c_connect_ssl`), sending the
header (`tls_tunnel_c_auth_send`) with this much of it left, relaying, or closed. See src/app/tls_tunnel_c.c:44-147. -/
inductive Phase where
  | connecting
  | auth (left : List UInt8)
  | relay (s : Sess)
  | closed (w : Why)
deriving DecidableEq, Repr

/-- A client session: `cache` is the buffer of the local connection (`cdown->meta`), `src` what its receive calls will return, `tx` what the
write calls for the header will return, `wire` the header bytes handed to the TLS connection; `dstUp`, `srcDown`, `dstDown` are the
socket results for the relay. See src/app/tls_tunnel_c.c:150-209. -/
structure C where
  phase : Phase
  cache : List UInt8
  src : List Rx
  tx : List SysTx
  wire : List UInt8
  key : List UInt8
  dstUp : List Tx
  srcDown : List Rx
  dstDown : List Tx
deriving DecidableEq, Repr

/-- `tls_tunnel_c_recv` (src/app/tls_tunnel_c.c:7-34): receive until would-block; a full cache or a failed receive (also the end of the
stream) closes both connections. Result: the reason for closing, the cache, the socket results left. -/
def cRecv (cache : List UInt8) (src : List Rx) : Option Why × List UInt8 × List Rx :=
  if _h : cache.length < cap then
    match src with
    | [] => (none, cache, [])
    | .again :: t => (none, cache, t)
    | .fail :: t => (some .localEnd, cache, .fail :: t)
    | .data b bs :: t =>
      cRecv (cache ++ (b :: bs).take (cap - cache.length)) (pushBack (cap - cache.length) b bs t)
  else (some .cacheFull, cache, src)
termination_by cap - cache.length
decreasing_by simp only [List.length_append, List.length_take, List.length_cons]; omega

/-- `tls_tunnel_c_auth_send` (src/app/tls_tunnel_c.c:44-66): send what is left of the header; when it is out, start the relay
(`tls_tunnel_traffic_proc`) with the cached bytes. -/
def authSend (c : C) (left : List UInt8) : C :=
  let o := sendChains [left] c.tx
  let c' := { c with tx := o.rest, wire := c.wire ++ o.wire }
  match o.rc with
  | .again => { c' with phase := .auth (o.chain.headD []) }
  | .fail => { c' with phase := .closed .upstream }
  | .done => { c' with phase := .relay (proc c.cache c.src c.dstUp c.srcDown c.dstDown) }

/-- Events: the local connection is readable; connect and handshake are finished (`tls_tunnel_c_connect_ssl` goes on to
`tls_tunnel_c_auth_build`, src/app/tls_tunnel_c.c:123-129); they fail or a timer expires (`tls_ses_exp`); the upstream connection is writable; any
event of the relay. -/
inductive Ev where
  | localReadable
  | established
  | upFail
  | upWritable
  | relay (e : Event)
deriving DecidableEq, Repr

/-- One event (src/app/tls_tunnel_c.c; the relay as in `Tunnel.step`). Before the relay the upstream's read callback and the local
connection's write callback are NULL (192, 127, 83, 173), so other events are dropped. Simplification: a local connection that is readable before
the session is created is one that is readable afterwards. -/
def step (c : C) (e : Ev) : C :=
  match c.phase, e with
  | .closed _, _ => c
  | .relay s, .relay e => { c with phase := .relay (Tunnel.step s e) }
  | .relay _, _ => c
  | _, .upFail => { c with phase := .closed .upstream }
  | p, .localReadable =>
    let r := cRecv c.cache c.src
    { c with cache := r.2.1, src := r.2.2, phase := match r.1 with
      | none => p
      | some w => .closed w }
  | .connecting, .established => authSend c (Auth.clientHeader c.key)
  | .auth left, .upWritable => authSend c left
  | _, _ => c

/-- A session after a sequence of events. See src/common/event.c:204-232. -/
def run (c : C) (es : List Ev) : C := es.foldl step c

/-- `tls_tunnel_c_accept` (src/app/tls_tunnel_c.c:150-209) after a connect call that is in progress; allocations succeed. -/
def start (key : List UInt8) (src : List Rx) (tx : List SysTx) (dstUp : List Tx) (srcDown : List Rx) (dstDown : List Tx) : C :=
  ⟨.connecting, [], src, tx, [], key, dstUp, srcDown, dstDown⟩

/-- The bytes handed to the upstream TLS connection so far. See src/app/tls_tunnel_c.c:44-66. -/
def sent (c : C) : List UInt8 :=
  match c.phase with
  | .relay s => c.wire ++ s.up.out
  | _ => c.wire

end Verif.TunnelC
