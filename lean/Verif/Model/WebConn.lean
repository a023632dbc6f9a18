import Verif.Model.HttpBody
import Verif.Model.WebRsp
import Verif.Model.WebSend
/-
A connection of the web server with TLS from `webser_start` on: requests are read, answered, and the connection is kept for the next request or closed
(src/app/webser.c:88-133, 231-260, 298-463, src/http/http_req.c), on top of src/common/ssl.c:182-293. The parts are those of `Model/HttpReq`, `Model/HttpBody`,
`Model/Webser`, `Model/WebRsp` and `Model/WebSend`; here: how they follow each other, and with which callbacks.
-/
namespace Verif.WebConn
open Verif
open Verif.TlsRelay (Wr)

/-- What the environment does during one request and its response: results of the calls of `ssl_read` for the request, the date (`systime_gmt`), what `stat` and `open` say,
the contents of files, the stack behind `uri[1024]`, whether memory for sending a file is available, results of `read`, of `ssl_write` and of the peeks.
See src/app/webser.c:88-106, 167-229, 306-327, 340-415. -/
structure Env where
  io : List Ssl.Res
  date : List UInt8
  stat : List UInt8 → Web.Stat
  content : List UInt8 → List UInt8
  stack : List UInt8
  mem : Bool
  rd : List Nat
  dst : List Wr
  peek : List WebSend.Peek

/-- Where reading a request stands (`req->cb`): nothing was received; the request line was read and nothing is there behind it; the head was read, and the body of `n` bytes
is not complete. See src/http/http_req.c:20-355. -/
inductive Ps where
  | line
  | hdrs (r : Http.Req) (buf : List UInt8) (pos : Nat)
  | pay (r : Http.Req) (buf : List UInt8) (n : Nat) (got : List UInt8)

/-- What the router looks at (`web_req_t`, src/http/http_req.h:19-41). -/
structure Asked where
  uriLen : Int
  uri : List UInt8
  meth : Http.Meth
  keep : Bool
  body : Option (List UInt8)
deriving Repr, DecidableEq

/-- The request in the buffer (src/http/http_req.c:286-299). -/
def asked (buf : List UInt8) (r : Http.Req) (body : Option (List UInt8)) : Asked :=
  ⟨r.uri.len, Http.sub buf r.uri, Http.methodTyp (Http.sub buf r.method), Http.keepAlive (Http.fields buf r), body⟩

/-- What a received piece leads to: more is needed, the request is complete, the connection is closed, or the parser does not come back. See src/http/http_req.c:20-355. -/
inductive Fed where
  | more (ps : Ps)
  | req (q : Asked)
  | stop
  | spin

/-- After the end of a parser loop: `web_req_payload` follows a complete head (src/http/http_req.c:285-355). In the second case of `web_req_hdrs` nothing was received behind the
request line. A receive call for a full buffer (`aborted`) is one for no bytes, which TLS reports as an error. -/
def afterHead : Http.Out → Fed
  | .running => .spin
  | .wait r buf pos => .more (.hdrs r buf pos)
  | .err => .stop
  | .aborted => .stop
  | .done r buf pos _ =>
    match Http.bodyLen 0 (Http.tails buf r) with
    | none => .stop
    | some n =>
      if n = 0 then .req (asked buf r none)
      else if Web.bodyAccepted n = false then .stop
      else if (buf.drop pos).length > n then .stop
      else if (buf.drop pos).length < n then .more (.pay r buf n (buf.drop pos))
      else .req (asked buf r (some (buf.drop pos)))

/-- The space given to the next receive call (src/http/http_req.c:43, 212, 344). -/
def room : Ps → Nat
  | .line => Http.bufn
  | .hdrs _ buf _ => Http.bufn - buf.length
  | .pay _ _ n got => n - got.length

/-- `webreq->cb` after one successful receive call for the bytes `b :: bs` (src/http/http_req.c:20-355), with at most `k` iterations of each loop. -/
def feed (k : Nat) (ps : Ps) (b : UInt8) (bs : List UInt8) : Fed :=
  match ps with
  | .line => afterHead (Http.head k {} [] 0 [.data b bs])
  | .hdrs r buf pos => afterHead (Http.loop Http.hdrByte k r buf pos [.data b bs])
  | .pay r buf n got =>
    if (got ++ (b :: bs)).length < n then .more (.pay r buf n (got ++ (b :: bs))) else .req (asked buf r (some (got ++ (b :: bs))))

/-- What the router decides. See src/app/webser.c:391-415. -/
inductive Ans where
  | close
  | crash
  | rsp (hdr : List (List UInt8)) (body : WebSend.Body)
deriving Repr, DecidableEq

/-- `webser_req_router`, the handlers and `webser_rsp` up to the sending of the header (src/app/webser.c:298-415, src/app/web_api.c:5-13). -/
def answer (home index : List UInt8) (e : Env) (q : Asked) : Ans :=
  match Web.serve home index e.stat q.uriLen q.uri q.meth q.body.isSome e.stack with
  | .close => .close
  | .crash => .crash
  | .file code ctype fsize =>
    match Web.filePath home index q.uri with
    | .overflow => .crash
    | .ok p => .rsp (Web.hdrChain code e.date q.keep fsize (some (Web.typeHdr ctype))) (.file (e.content p) fsize)
  | .api h =>
    .rsp (Web.hdrChain 200 e.date q.keep (Web.echoPayload h e.date (q.body.getD [])).length none) (.api (Web.echoPayload h e.date (q.body.getD [])))

/-- Why nothing more happens on the connection: the last response asked for its end; closed after an error; its timer; undefined behaviour in the router; the parser does
not come back. See src/app/webser.c:82-86, 159-164, 391-436. -/
inductive Why where
  | done
  | closed
  | expired
  | crash
  | spin
deriving Repr, DecidableEq

/-- Phases: a request is read; a response is being sent and whether the connection is kept after it; the end. See src/app/webser.c:231-260, 417-463. -/
inductive Ph where
  | req (ps : Ps)
  | rsp (w : WebSend.W) (keep : Bool)
  | gone (why : Why)

/-- A connection: number of the request, interest and callbacks (in `w.t` while a response is sent), results of `ssl_read` for this request, TLS records not read yet, bytes of
the former responses that were sent, the phase. Callbacks of the application: those of `Model/WebSend`, and 20 is `webser_req_proc`. See src/app/webser.h:20-36. -/
structure C where
  i : Nat
  t : Ssl.S
  io : List Ssl.Res
  sock : List (UInt8 × List UInt8)
  out : List UInt8
  ph : Ph

/-- All bytes that were sent. See src/app/webser.c:142-260. -/
def sent (c : C) : List UInt8 :=
  match c.ph with
  | .rsp w _ => c.out ++ w.out
  | _ => c.out

/-- `webser_start` up to the first receive call (src/app/webser.c:438-463), for request `i`; the allocations succeed (see C84). Bytes that were received behind the former request
and not used are lost (see C56). -/
def begin (E : Nat → Env) (c : C) (i : Nat) (t : Ssl.S) : C :=
  { c with i, t := { t with rcb := some (.app 20), wcb := none }, io := (E i).io, ph := .req .line }

/-- The first record after `n` bytes of it were read. See src/common/ssl.c:184-199. -/
def left (n : Nat) (r : UInt8 × List UInt8) (t : List (UInt8 × List UInt8)) : List (UInt8 × List UInt8) :=
  match (r.1 :: r.2).drop n with
  | [] => t
  | b :: bs => (b, bs) :: t

/-- Number of bytes in the records (for termination only). See src/common/ssl.c:184-199. -/
def size : List (UInt8 × List UInt8) → Nat
  | [] => 0
  | r :: t => r.2.length + 1 + size t

theorem left_lt (n : Nat) (r : UInt8 × List UInt8) (t : List (UInt8 × List UInt8)) (h : n ≠ 0) : size (left n r t) < size (r :: t) := by
  unfold left
  split
  · simp only [size]; omega
  · rename_i b bs e
    have := congrArg List.length e
    simp only [List.length_drop, List.length_cons] at this
    simp only [size]; omega

/-- `webser_req_proc` in one invocation, and what it calls (src/app/webser.c:391-463): the request is read, the response is started, and after a response that was sent at once
the next request is read. A call of `ssl_read` without an unread record has to wait for readability; it returns at most the rest of one record. -/
def proc (k : Nat) (home index : List UInt8) (E : Nat → Env) (c : C) (ps : Ps) : C :=
  match c.io with
  | [] => { c with t := Ssl.read c.t .wantR, ph := .req ps }
  | .wantR :: io => { c with t := Ssl.read c.t .wantR, io, ph := .req ps }
  | .wantW :: io => { c with t := Ssl.read c.t .wantW, io, ph := .req ps }
  | .err :: _ => { c with ph := .gone .closed }
  | .ok :: io =>
    match _hs : c.sock with
    | [] => { c with t := Ssl.read c.t .wantR, io, ph := .req ps }
    | r :: rest =>
      if _hr : room ps = 0 then { c with ph := .gone .closed }
      else
        match feed k ps r.1 (r.2.take (room ps - 1)) with
        | .more ps' => proc k home index E { c with t := Ssl.read c.t .ok, io, sock := left (room ps) r rest } ps'
        | .stop => { c with ph := .gone .closed }
        | .spin => { c with ph := .gone .spin }
        | .req q =>
          match answer home index (E c.i) q with
          | .close => { c with ph := .gone .closed }
          | .crash => { c with ph := .gone .crash }
          | .rsp hdr body =>
            let w := WebSend.start true (Ssl.read c.t .ok) hdr body (E c.i).mem (E c.i).rd (E c.i).dst (E c.i).peek
            match w.fin with
            | none => { c with io, sock := left (room ps) r rest, ph := .rsp w q.keep }
            | some .done =>
              if q.keep then proc k home index E (begin E { c with sock := left (room ps) r rest, out := c.out ++ w.out } (c.i + 1) w.t) .line
              else { c with sock := left (room ps) r rest, out := c.out ++ w.out, ph := .gone .done }
            | some .closed => { c with sock := left (room ps) r rest, out := c.out ++ w.out, ph := .gone .closed }
            | some .expired => { c with sock := left (room ps) r rest, out := c.out ++ w.out, ph := .gone .expired }
termination_by size c.sock
decreasing_by
  all_goals
    simp only [begin, _hs]
    exact left_lt _ _ _ _hr

/-- After an event during a response (src/app/webser.c:108-133, 142-260): it goes on, or it is over. -/
def after (k : Nat) (home index : List UInt8) (E : Nat → Env) (c : C) (w : WebSend.W) (keep : Bool) : C :=
  match w.fin with
  | none => { c with ph := .rsp w keep }
  | some .done =>
    if keep then proc k home index E (begin E { c with out := c.out ++ w.out } (c.i + 1) w.t) .line
    else { c with out := c.out ++ w.out, ph := .gone .done }
  | some .closed => { c with out := c.out ++ w.out, ph := .gone .closed }
  | some .expired => { c with out := c.out ++ w.out, ph := .gone .expired }

/-- What happens: a TLS record arrives; an event of the connection is dispatched: readable, writable, its timer. See src/common/event.c:204-232. -/
inductive Ev where
  | arrive (b : UInt8) (bs : List UInt8)
  | r
  | w
  | timeout
deriving Repr, DecidableEq

/-- One event. `none`: a callback of another phase, or NULL, is called; `ssl_read_cb` calls the read callback (src/common/ssl.c:182). See src/common/event.c:204-232,
src/app/webser.c:82-86, 417-436. -/
def step (k : Nat) (home index : List UInt8) (E : Nat → Env) (c : C) (e : Ev) : Option C :=
  match e with
  | .arrive b bs => some { c with sock := c.sock ++ [(b, bs)] }
  | .r =>
    match c.ph with
    | .gone _ => some c
    | .rsp w keep => (WebSend.step w .r).map fun w' => after k home index E c w' keep
    | .req ps =>
      match c.t.rcb with
      | none => some c
      | some (.app 20) => some (proc k home index E c ps)
      | _ => none
  | .w =>
    match c.ph with
    | .gone _ => some c
    | .rsp w keep => (WebSend.step w .w).map fun w' => after k home index E c w' keep
    | .req ps =>
      match c.t.wcb, c.t.rcb with
      | none, _ => some c
      | some .rd, some (.app 20) => some (proc k home index E c ps)
      | _, _ => none
  | .timeout =>
    match c.ph with
    | .gone _ => some c
    | .rsp w keep => (WebSend.step w .timeout).map fun w' => after k home index E c w' keep
    | .req _ => some { c with ph := .gone .expired }

/-- A whole history. See src/common/event.c:204-232. -/
def run (k : Nat) (home index : List UInt8) (E : Nat → Env) (c : C) : List Ev → Option C
  | [] => some c
  | e :: es => (step k home index E c e).bind fun c' => run k home index E c' es

/-- The connection when `webser_start` is called after the handshake, with interest and callbacks `t0` (src/app/webser.c:438-463, 508-556): the first receive call is made at
once. -/
def start (k : Nat) (home index : List UInt8) (E : Nat → Env) (t0 : Ssl.S) (sock : List (UInt8 × List UInt8)) : C :=
  proc k home index E (begin E { i := 0, t := t0, io := [], sock, out := [], ph := .req .line } 0 t0) .line

end Verif.WebConn
