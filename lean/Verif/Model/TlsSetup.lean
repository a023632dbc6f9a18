/-
How a connection gets its TLS: `ssl_create_connection`, `ssl_load_ctx_certificate`, `ssl_load_con_certificate` (src/common/ssl.c:295-398), the release of a
connection (src/common/net.c:200-204) and `ssl_end` (src/common/ssl.c:409-425). Every call into OpenSSL has an arbitrary result.
-/
namespace Verif.TlsSetup

/-- `L_SSL_CLIENT` and `L_SSL_SERVER` (src/common/ssl.h:11-12). -/
inductive Side where
  | client
  | server
deriving Repr, DecidableEq

/-- The settings of an `SSL_CTX` that `SSL_new` copies to a connection: whether the lowest and highest version were set, the cipher lists of TLS 1.2 and 1.3,
and whether the peer's certificate is verified. OpenSSL starts with no limits, its own lists and no verification. See src/common/ssl.c:318-354. -/
structure Settings where
  min12 : Bool := false
  max13 : Bool := false
  ciphers : Bool := false
  suites : Bool := false
  verify : Bool := false
deriving Repr, DecidableEq

/-- An `SSL_CTX`: its number, the settings, and the certificate and key in it (src/common/ssl.c:318-357). -/
structure Ctx where
  id : Nat
  set : Settings
  cert : Option Nat
  key : Option Nat
deriving Repr, DecidableEq

/-- A connection with TLS: the record `ssl_con_t` and the `SSL`, by their numbers; the context; the settings; certificate and key; the side it plays; the
socket. See src/common/ssl.h:15-28, src/common/ssl.c:372-398. -/
structure Tls where
  rcd : Nat
  ssl : Nat
  ctx : Nat
  set : Settings
  cert : Option Nat
  key : Option Nat
  state : Side
  fd : Nat
deriving Repr, DecidableEq

/-- The results of the calls of one `ssl_create_connection`. A certificate or key that is loaded is named by a number; `check c k` tells whether they belong
together. See src/common/ssl.c:295-398. -/
structure Res where
  pool : Bool
  ctxNew : Bool
  min12 : Bool
  max13 : Bool
  ciphers : Bool
  suites : Bool
  ctxCert : Option Nat
  ctxKey : Option Nat
  sslNew : Bool
  cert : Option Nat
  key : Option Nat
  check : Nat → Nat → Bool
  setFd : Bool
  exData : Bool

/-- A worker's TLS: the two cached contexts (`g_ssl_t`, src/common/ssl.c:3-9); the number for the next allocation; what is allocated; and whether something
was released that is not allocated. -/
structure World where
  client : Option Ctx := none
  server : Option Ctx := none
  next : Nat := 0
  recs : List Nat := []
  ssls : List Nat := []
  ctxs : List Nat := []
  fault : Bool := false
deriving Repr, DecidableEq

/-- `mem_pool_free` of a record (src/common/ssl.c:395, src/common/net.c:202). -/
def freeRec (n : Nat) (w : World) : World := { w with recs := w.recs.erase n, fault := w.fault || !w.recs.contains n }

/-- `SSL_free` (src/common/ssl.c:309, 393, src/common/net.c:201). -/
def freeSsl (n : Nat) (w : World) : World := { w with ssls := w.ssls.erase n, fault := w.fault || !w.ssls.contains n }

/-- `SSL_CTX_free` (src/common/ssl.c:361, 414, 418). The reference count that `SSL_new` raises is OpenSSL's. -/
def freeCtx (n : Nat) (w : World) : World := { w with ctxs := w.ctxs.erase n, fault := w.fault || !w.ctxs.contains n }

/-- The client's part of `ssl_load_ctx_certificate` (src/common/ssl.c:318-325): the context is cached as soon as it exists. -/
def loadClient (r : Res) (w : World) : World × Option Ctx :=
  match w.client with
  | some c => (w, some c)
  | none =>
    if !r.ctxNew then (w, none) else
    let c : Ctx := ⟨w.next, {}, none, none⟩
    let w := { w with next := w.next + 1, ctxs := w.next :: w.ctxs, client := some c }
    if !r.min12 then (w, none) else
    let c := { c with set := { c.set with min12 := true } }
    let w := { w with client := some c }
    if !r.max13 then (w, none) else
    let c := { c with set := { c.set with max13 := true } }
    ({ w with client := some c }, some c)

/-- The server's part (src/common/ssl.c:327-368). A failing setting returns at once; a failing certificate frees the context. -/
def loadServer (r : Res) (w : World) : World × Option Ctx :=
  match w.server with
  | some c => (w, some c)
  | none =>
    if !r.ctxNew then (w, none) else
    let c : Ctx := ⟨w.next, {}, none, none⟩
    let w := { w with next := w.next + 1, ctxs := w.next :: w.ctxs, server := some c }
    if !r.min12 then (w, none) else
    let c := { c with set := { c.set with min12 := true } }
    let w := { w with server := some c }
    if !r.max13 then (w, none) else
    let c := { c with set := { c.set with max13 := true } }
    let w := { w with server := some c }
    if !r.ciphers then (w, none) else
    let c := { c with set := { c.set with ciphers := true } }
    let w := { w with server := some c }
    if !r.suites then (w, none) else
    let c := { c with set := { c.set with suites := true, verify := false } }
    match r.ctxCert, r.ctxKey with
    | some x, some k =>
      if r.check x k then
        let c := { c with cert := some x, key := some k }
        ({ w with server := some c }, some c)
      else ({ freeCtx c.id w with server := none }, none)
    | _, _ => ({ freeCtx c.id w with server := none }, none)

/-- `ssl_load_ctx_certificate` (src/common/ssl.c:317-370). -/
def loadCtx (side : Side) (r : Res) (w : World) : World × Option Ctx :=
  match side with
  | .client => loadClient r w
  | .server => loadServer r w

/-- `ssl_load_con_certificate` (src/common/ssl.c:295-315): the number of the `SSL`, its certificate and key. `SSL_new` copies those of the context. -/
def loadCon (c : Ctx) (side : Side) (r : Res) (w : World) : World × Option (Nat × Option Nat × Option Nat) :=
  if !r.sslNew then (w, none) else
  let n := w.next
  let w := { w with next := w.next + 1, ssls := n :: w.ssls }
  match side with
  | .client => (w, some (n, c.cert, c.key))
  | .server =>
    match r.cert, r.key with
    | some x, some k => if r.check x k then (w, some (n, some x, some k)) else (freeSsl n w, none)
    | _, _ => (freeSsl n w, none)

/-- `ssl_create_connection` (src/common/ssl.c:372-398). The record is cleared by the allocation (src/common/mem.c:175), so `con` is NULL until it is set. -/
def create (side : Side) (fd : Nat) (r : Res) (w : World) : World × Option Tls :=
  if !r.pool then (w, none) else
  let n := w.next
  let w := { w with next := w.next + 1, recs := n :: w.recs }
  match loadCtx side r w with
  | (w, none) => (freeRec n w, none)
  | (w, some c) =>
    match loadCon c side r w with
    | (w, none) => (freeRec n w, none)
    | (w, some (m, x, k)) =>
      if !r.setFd then (freeRec n (freeSsl m w), none)
      else if !r.exData then (freeRec n (freeSsl m w), none)
      else (w, some ⟨n, m, c.id, c.set, x, k, side, fd⟩)

/-- The end of a connection's TLS in `net_free_direct` (src/common/net.c:200-204). -/
def release (t : Tls) (w : World) : World := freeRec t.rcd (freeSsl t.ssl w)

/-- Whether the handshake goes on when it is the turn of the peer's certificate, `valid` telling whether the certificate is one for the server that was meant
(OpenSSL: only `SSL_VERIFY_PEER` makes a client refuse a certificate; the result of the verification is not asked for afterwards either).
See src/common/ssl.c:144-180. -/
def goesOn (t : Tls) (valid : Bool) : Bool := !t.set.verify || valid

/-- What happens to a worker: a connection is created, or the `i`th of those there are is released. See src/app/webser.c:512,
src/app/tls_tunnel_s.c:304, src/app/tls_tunnel_c.c:92, src/common/net.c:200-204. -/
inductive Op where
  | create (side : Side) (fd : Nat) (r : Res)
  | release (i : Nat)

/-- The worker and its connections (src/common/ssl.c:372-398, src/common/net.c:200-204). -/
def step (s : World × List Tls) : Op → World × List Tls
  | .create side fd r =>
    match create side fd r s.1 with
    | (w, none) => (w, s.2)
    | (w, some t) => (w, s.2 ++ [t])
  | .release i =>
    match s.2[i]? with
    | none => s
    | some t => (release t s.1, s.2.eraseIdx i)

/-- A history of a worker (src/common/process.c:55-63). -/
def run (ops : List Op) : World × List Tls := ops.foldl step ({}, [])

/-- `ssl_end` (src/common/ssl.c:412-421). -/
def finish (w : World) : World :=
  let w := match w.client with
    | some c => { freeCtx c.id w with client := none }
    | none => w
  match w.server with
  | some c => { freeCtx c.id w with server := none }
  | none => w

end Verif.TlsSetup
