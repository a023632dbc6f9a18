/-
Memory and files of one connection of the web server, with or without TLS: src/app/webser.c, src/http/http_req.c, src/common/net.c:175-242. Only allocation, release
and use of the objects are kept. A TLS connection may have to wait for its shutdown; how that is done and how long it takes is in `TlsClose`.
-/
namespace Verif.WebLife

/-- What goes wrong: an object is released twice, or used after its release. See src/common/net.c:175-242. -/
inductive Fault where
  | doubleFree
  | useAfterFree
deriving Repr, DecidableEq

/-- The pointers of a `webser_t` (src/app/webser.h:20-36): request record, body of the request (src/http/http_req.h:36), response header, response
payload, file. -/
structure Rec where
  req : Bool := false
  body : Bool := false
  hdr : Bool := false
  pay : Bool := false
  file : Bool := false
deriving Repr, DecidableEq

/-- `c->data`: NULL, a record, or the address of a record that was released. See src/app/webser.c:108-133, 438-463. -/
inductive Data where
  | null
  | live (r : Rec)
  | dangling
deriving Repr, DecidableEq

/-- Which handler is next: `webser_accept_cb`, `webser_accept_cb_ssl` or `webser_start`, the request parser, the response, the shutdown of TLS. See src/app/webser.c:417-556,
src/common/ssl.c:80-95. -/
inductive Phase where
  | accepted
  | reading
  | sending
  | closing
  | closed
deriving Repr, DecidableEq

/-- The connection: its handler, whether `c->ssl` is set, whether `c->meta` points to a buffer, `c->data`; the number of blocks taken from the pool for it and given back, and of
files opened and closed; whether the calls of `ssl_shutdown` still to come have to wait (src/common/ssl.c:58-99). The connection itself and its event are not counted. See
src/app/webser.c:108-133, 438-463. -/
structure W where
  phase : Phase
  ssl : Bool
  buf : Bool
  data : Data
  taken : Nat
  given : Nat
  opened : Nat
  closed : Nat
  sd : List Bool
deriving Repr, DecidableEq

/-- One for a pointer that is set. See src/app/webser.c:70-80. -/
def one (b : Bool) : Nat := if b then 1 else 0

/-- The releases of `web_release_c` (src/app/webser.c:70-80) and of `webser_keepalive` (src/app/webser.c:112-118): the file, the request record, the
response header and payload, the record itself. `web_req_free` does not release the body (src/http/http_req.c:15-18). -/
def release (w : W) (r : Rec) : W :=
  { w with given := w.given + one r.req + one r.hdr + one r.pay + 1, closed := w.closed + one r.file }

/-- `net_free_direct` (src/common/net.c:175-208). -/
def netFreeDirect (w : W) : Except Fault W :=
  if w.phase = .closed then .error .doubleFree
  else
    match w.data with
    | .null => .ok { w with phase := .closed, given := w.given + one w.buf + one w.ssl, buf := false, ssl := false }
    | .live r =>
      let w := release w r
      .ok { w with phase := .closed, given := w.given + one w.buf + one w.ssl, buf := false, ssl := false, data := .null }
    | .dangling => .error .useAfterFree

/-- `net_free` (src/common/net.c:210-242): without TLS, or when the shutdown does not have to wait, everything is released. -/
def netFree (w : W) : Except Fault W :=
  if w.phase = .closed then .error .doubleFree
  else if w.ssl then
    match w.sd with
    | true :: sd => .ok { w with phase := .closing, sd := sd }
    | _ :: sd => netFreeDirect { w with sd := sd }
    | [] => netFreeDirect w
  else netFreeDirect w

/-- `ssl_create_connection` (src/common/ssl.c:372-397), called once (src/app/webser.c:511-515). -/
def tls (w : W) (ok : Bool) : Except Fault W :=
  if w.ssl then .ok w
  else if ok then .ok { w with ssl := true, taken := w.taken + 1 } else netFree w

/-- The buffer of `webser_transfer_to_tlstunnel`, allocated once (src/app/webser.c:472-476). -/
def early (w : W) (ok : Bool) : Except Fault W :=
  if w.buf then .ok w
  else if ok then .ok { w with buf := true, taken := w.taken + 1 } else netFree w

/-- `webser_start` (src/app/webser.c:438-463) with the results of its three allocations: the buffer, which replaces one that is there already, the record, the request. -/
def start (w : W) (m a q : Bool) : Except Fault W :=
  if !m then netFree w
  else
    let w := { w with buf := true, taken := w.taken + 1 }
    if !a then netFree w
    else
      let w := { w with data := .live {}, taken := w.taken + 1 }
      if !q then netFree w
      else .ok { w with data := .live { req := true }, taken := w.taken + 1, phase := .reading }

/-- The body of a request is allocated (src/http/http_req.c:333); on failure the request is refused (src/app/webser.c:426-428). -/
def body (w : W) (ok : Bool) : Except Fault W :=
  match w.data with
  | .live r =>
    if r.body then .ok w
    else if ok then .ok { w with data := .live { r with body := true }, taken := w.taken + 1 } else netFree w
  | _ => .error .useAfterFree

/-- `webser_rsp` (src/app/webser.c:296-338), whose header lines fit into one block (277-288): the header block is allocated when the first line is added; if that fails,
`webser_rsp_hdrp` releases the connection (278) and `webser_rsp` releases it again (330-333). -/
def header (w : W) (ok : Bool) : Except Fault W :=
  match w.data with
  | .live r =>
    if ok then .ok { w with data := .live { r with hdr := true }, taken := w.taken + 1, phase := .sending }
    else do
      let w ← netFree w
      netFree w
  | _ => .error .useAfterFree

/-- What is answered: an API's payload (its length may be zero) or a file (which may not exist). See src/app/webser.c:340-389. -/
inductive Answer where
  | api (payload : Bool)
  | file (exists_ : Bool)
deriving Repr, DecidableEq

/-- The answer to a request is prepared: `webser_req_api` with a handler of src/app/web_api.c, or `webser_req_file` (src/app/webser.c:340-384), then
`webser_rsp`. `pay`, `hdr`: the results of the allocations of the payload (302) and of the header. -/
def respond (w : W) (a : Answer) (pay hdr : Bool) : Except Fault W :=
  match w.data with
  | .live r =>
    match a with
    | .api false => header w hdr
    | .api true =>
      if pay then header { w with data := .live { r with pay := true }, taken := w.taken + 1 } hdr else netFree w
    | .file e => header { w with data := .live { r with file := e }, opened := w.opened + one e } hdr
  | _ => .error .useAfterFree

/-- The block for the content of a file is allocated after the header was sent (src/app/webser.c:212-221). -/
def content (w : W) (ok : Bool) : Except Fault W :=
  match w.data with
  | .live r =>
    if r.pay then .ok w
    else if ok then .ok { w with data := .live { r with pay := true }, taken := w.taken + 1 } else netFree w
  | _ => .error .useAfterFree

/-- The response has been sent (src/app/webser.c:159-164, 204-209, 254-259): the connection is closed, or `webser_keepalive` (108-133) releases the record and starts
again; `c->data` keeps its value, and `webser_start` replaces `c->meta`. -/
def finish (w : W) (keep m a q : Bool) : Except Fault W :=
  match w.data with
  | .live r =>
    if keep then
      let w := release w r
      start { w with data := .dangling, phase := .accepted } m a q
    else netFree w
  | _ => .error .useAfterFree

/-- What happens on the connection. See src/app/webser.c:82-556. -/
inductive Ev where
  /-- the TLS state is created -/
  | tls (ok : Bool)
  /-- in secret mode, the buffer for the header of a tunnel client -/
  | early (ok : Bool)
  | start (m a q : Bool)
  | body (ok : Bool)
  | respond (a : Answer) (pay hdr : Bool)
  | content (ok : Bool)
  | finish (keep m a q : Bool)
  /-- an error, the end of the connection or an expired timer -/
  | fail
  /-- `ssl_shutdown_cb` (src/common/ssl.c:44-56) -/
  | shut
  /-- the timer of the shutdown: `net_free_direct` (src/common/net.c:233) or `ssl_cexp` (src/common/ssl.c:37-42) -/
  | expire
deriving Repr, DecidableEq

/-- One event; events that do not belong to the current handler are ignored. See src/app/webser.c:82-463. -/
def step (w : W) (e : Ev) : Except Fault W :=
  match w.phase, e with
  | .accepted, .tls ok => tls w ok
  | .accepted, .early ok => early w ok
  | .accepted, .start m a q => start w m a q
  | .reading, .body ok => body w ok
  | .reading, .respond a pay hdr => respond w a pay hdr
  | .sending, .content ok => content w ok
  | .sending, .finish keep m a q => finish w keep m a q
  | .closing, .shut => netFree w
  | .closing, .expire => netFreeDirect w
  | .closing, _ => .ok w
  | .closed, _ => .ok w
  | _, .fail => netFree w
  | _, _ => .ok w

/-- A whole history. See src/common/event.c:204-232. -/
def run (w : W) (es : List Ev) : Except Fault W := es.foldlM step w

/-- A connection just accepted (src/common/net.c:150-165). -/
def init (sd : List Bool) : W := ⟨.accepted, false, false, .null, 0, 0, 0, 0, sd⟩

end Verif.WebLife
