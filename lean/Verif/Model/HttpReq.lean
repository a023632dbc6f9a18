import Verif.Model.Recv
/-
The HTTP request parser: src/http/http_req.c, called from `webser_req_proc` (src/app/webser.c:417-436).

Positions are offsets from `meta->start` of the request buffer (4096 bytes, src/app/webser.c:441).
-/
namespace Verif.Http

/-- `string_t` (src/common/sys_string.h:14-17): a pointer into the request buffer and a signed length. Unset is ⟨0, 0⟩. -/
structure Span where
  data : Nat := 0
  len : Int := 0
deriving Repr, DecidableEq

/-- States of `web_req_line` (src/http/http_req.c:24-39). -/
inductive LS where
  | methodInit | method | schemeInit | scheme | slash | slash2 | hostInit | host | portInit | port | uri | verInit | ver | fin
deriving Repr, DecidableEq

/-- States of `web_req_hdrs` (src/http/http_req.c:201-208). -/
inductive HS where
  | keyInit | key | valInit | val | fin | done
deriving Repr, DecidableEq

/-- `web_req_t` (src/http/http_req.h); the field `state` is split into one per parser. -/
structure Req where
  ls : LS := .methodInit
  hs : HS := .keyInit
  method : Span := {}
  scheme : Span := {}
  host : Span := {}
  uri : Span := {}
  port : Span := {}
  ver : Span := {}
  kvn : Nat := 0
  kvs : Nat → Span × Span := fun _ => ({}, {})

/-- `REQ_KV_MAX` (src/http/http_req.h). -/
def kvMax : Nat := 16

/-- Size of the request buffer (src/app/webser.c:441). -/
def bufn : Nat := 4096

/-- Result of a scan over the buffered bytes. See src/http/http_req.c:56-188. -/
inductive Pass where
  | cont (r : Req)
  | err
  /-- finished; `pos` is the new `meta->pos` -/
  | done (r : Req) (pos : Nat)

/-- The character test (src/http/http_req.c:56, 226). -/
def bad (b : UInt8) : Bool := (b < 32 || b > 127) && b ≠ 13 && b ≠ 10

/-- Length from a start to the current position: pointer difference stored into an `int`. See src/http/http_req.c:56-188. -/
def upto (s : Span) (p : Nat) : Span := { s with len := (p : Int) - s.data }

/-- Result of one byte. See src/http/http_req.c:56-188. -/
inductive Byte where
  | cont (r : Req)
  | err
  | done (r : Req)

/-- Body of the loop of `web_req_line` (src/http/http_req.c:56-188) for the byte `b` at offset `p`. -/
def lineByte (r : Req) (p : Nat) (b : UInt8) : Byte :=
  if bad b then .err
  else match r.ls with
  | .methodInit =>
    if b = 13 ∨ b = 10 ∨ b = 32 then .cont r
    else .cont { r with method := { r.method with data := p }, ls := .method }
  | .method =>
    if b = 32 then
      if (upto r.method p).len < 1 ∨ (upto r.method p).len > 16 then .err
      else .cont { r with method := upto r.method p, ls := .schemeInit }
    else .cont r
  | .schemeInit =>
    if b = 32 then .cont r
    else if b = 47 then .cont { r with uri := { r.uri with data := p }, ls := .uri }
    else .cont { r with scheme := { r.scheme with data := p }, ls := .scheme }
  | .scheme => if b = 58 then .cont { r with scheme := upto r.scheme p, ls := .slash } else .cont r
  | .slash => if b = 47 then .cont { r with ls := .slash2 } else .err
  | .slash2 => if b = 47 then .cont { r with ls := .hostInit } else .err
  | .hostInit => .cont { r with host := { r.host with data := p }, ls := .host }
  | .host =>
    if b = 58 then .cont { r with host := upto r.host p, ls := .portInit }
    else if b = 47 then .cont { r with host := upto r.host p, uri := { r.uri with data := p }, ls := .uri }
    else .cont r
  | .portInit => .cont { r with port := { r.port with data := p }, ls := .port }
  | .port =>
    if b = 47 then .cont { r with port := upto r.port p, uri := { r.uri with data := p }, ls := .uri } else .cont r
  | .uri => if b = 32 then .cont { r with uri := upto r.uri p, ls := .verInit } else .cont r
  | .verInit => .cont { r with ver := { r.ver with data := p }, ls := .ver }
  | .ver => if b = 13 then .cont { r with ver := upto r.ver p, ls := .fin } else .cont r
  | .fin => if b = 10 then .done { r with ls := .methodInit } else .err

/-- Update of `kvs[kvn]`. See src/http/http_req.c:226-305. -/
def Req.setKv (r : Req) (kv : Span × Span) : Req :=
  { r with kvs := fun i => if i = r.kvn then kv else r.kvs i }

/-- Body of the loop of `web_req_hdrs` (src/http/http_req.c:226-305). -/
def hdrByte (r : Req) (p : Nat) (b : UInt8) : Byte :=
  if bad b then .err
  else match r.hs with
  | .keyInit =>
    if b = 13 then .cont { r with hs := .done }
    else .cont { r.setKv ({ (r.kvs r.kvn).1 with data := p }, (r.kvs r.kvn).2) with hs := .key }
  | .key =>
    if b = 58 then .cont { r.setKv (upto (r.kvs r.kvn).1 p, (r.kvs r.kvn).2) with hs := .valInit } else .cont r
  | .valInit =>
    if b = 32 then .cont r
    else .cont { r.setKv ((r.kvs r.kvn).1, { (r.kvs r.kvn).2 with data := p }) with hs := .val }
  | .val =>
    if b = 13 then .cont { r.setKv ((r.kvs r.kvn).1, upto (r.kvs r.kvn).2 p) with hs := .fin } else .cont r
  | .fin =>
    if b = 10 then .cont { r with kvn := min (r.kvn + 1) (kvMax - 1), hs := .keyInit } else .err
  | .done => if b = 10 then .done r else .err

/-- The scan `for (p = meta->pos; p < meta->last; p++)` (src/http/http_req.c:55, 225). -/
def pass (f : Req → Nat → UInt8 → Byte) : Req → Nat → List UInt8 → Pass
  | r, _, [] => .cont r
  | r, p, b :: l =>
    match f r p b with
    | .err => .err
    | .done r' => .done r' (p + 1)
    | .cont r' => pass f r' (p + 1) l

/-- How a parser loop ends. See src/http/http_req.c:20-313. -/
inductive Out where
  /-- the given number of iterations of `for (;;)` did not suffice -/
  | running
  /-- `-11` -/
  | wait (r : Req) (buf : List UInt8) (pos : Nat)
  /-- `-1`: the connection is closed -/
  | err
  /-- `sassert(bufn > 0)` in `recvs` (src/common/net_send.c:5) -/
  | aborted
  | done (r : Req) (buf : List UInt8) (pos : Nat) (rest : List Rx)

/-- The outer loop `for (;;)` of `web_req_line` and `web_req_hdrs` (src/http/http_req.c:41-54, 191-195 and 210-224, 308-312).
`buf` are the bytes from `meta->start` to `meta->last`; data is received only when nothing is between `pos` and `last`, and the scan
starts at `pos`, which it does not advance. `rx` are the results of `c->recv`. -/
def loop (f : Req → Nat → UInt8 → Byte) : Nat → Req → List UInt8 → Nat → List Rx → Out
  | 0, _, _, _, _ => .running
  | n + 1, r, buf, pos, rx =>
    if buf.length - pos < 1 then
      if bufn - buf.length = 0 then .aborted
      else
        match rx with
        | [] => .wait r buf pos
        | .again :: _ => .wait r buf pos
        | .fail :: _ => .err
        | .data b bs :: rest =>
          let buf' := buf ++ (b :: bs).take (bufn - buf.length)
          match pass f r pos (buf'.drop pos) with
          | .err => .err
          | .done r' p => .done r' buf' p rest
          | .cont r' => if bufn - buf'.length < 1 then .err else loop f n r' buf' pos rest
    else
      match pass f r pos (buf.drop pos) with
      | .err => .err
      | .done r' p => .done r' buf p rx
      | .cont r' => if bufn - buf.length < 1 then .err else loop f n r' buf pos rx

/-- `web_req_line` followed by `web_req_hdrs` (src/http/http_req.c:20-313), with at most `n` iterations each. -/
def head (n : Nat) (r : Req) (buf : List UInt8) (pos : Nat) (rx : List Rx) : Out :=
  match loop lineByte n r buf pos rx with
  | .done r' buf' p rest => loop hdrByte n r' buf' p rest
  | o => o

/-- Characters of a field: `len` bytes from `data` on, as handlers read them. See src/http/http_req.h:14-17. -/
def sub (buf : List UInt8) (s : Span) : List UInt8 := (buf.drop s.data).take s.len.toNat

/-- ASCII lower case, as in `strncasecmp`. See src/http/http_req.c:315-330. -/
def lower (b : UInt8) : UInt8 := if 65 ≤ b ∧ b ≤ 90 then b + 32 else b

/-- `strncasecmp(a, b, n) == 0` for `n` the length of `a`, `b` a NUL-terminated literal and `a` without NUL: the bytes of `a` equal the
first bytes of `b`, so `a` may be a proper prefix. See src/http/http_req.c:315-330. -/
def ncaseEq : List UInt8 → List UInt8 → Bool
  | [], _ => true
  | _ :: _, [] => false
  | x :: a, y :: b => lower x = lower y && ncaseEq a b

/-- "GET", "POST", "Connection", "Keep-Alive", "Content-Length". See src/http/http_req.c:24-39, 201-208, 315-330. -/
def sGet : List UInt8 := [71, 69, 84]
/-- "POST" (src/http/http_req.c:297). -/
def sPost : List UInt8 := [80, 79, 83, 84]
/-- "Connection" (src/http/http_req.c:288). -/
def sConn : List UInt8 := [67, 111, 110, 110, 101, 99, 116, 105, 111, 110]
/-- "Keep-Alive" (src/http/http_req.c:289). -/
def sKeep : List UInt8 := [75, 101, 101, 112, 45, 65, 108, 105, 118, 101]
/-- "Content-Length" (src/http/http_req.c:319). -/
def sClen : List UInt8 := [67, 111, 110, 116, 101, 110, 116, 45, 76, 101, 110, 103, 116, 104]

/-- Method types (src/common/macro.h): HTTP_METHOD_GET, HTTP_METHOD_POST, unset. -/
inductive Meth where
  | none | get | post
deriving Repr, DecidableEq

/-- `method_typ` (src/http/http_req.c:295-299). -/
def methodTyp (m : List UInt8) : Meth :=
  if ncaseEq m sGet then .get else if ncaseEq m sPost then .post else .none

/-- `fkeepalive` (src/http/http_req.c:286-293), over the header fields. -/
def keepAlive (hs : List (List UInt8 × List UInt8)) : Bool :=
  hs.any fun kv => ncaseEq kv.1 sConn && ncaseEq kv.2 sKeep

/-- The header fields visible to handlers: entries below `kvn`. See src/http/http_req.h:31-32. -/
def fields (buf : List UInt8) (r : Req) : List (List UInt8 × List UInt8) :=
  (List.range r.kvn).map fun i => (sub buf (r.kvs i).1, sub buf (r.kvs i).2)

/-- Result of reading the payload. See src/http/http_req.c:332-355. -/
inductive Pay where
  | wait (got : List UInt8)
  | err
  | ok (payload : List UInt8) (rest : List Rx)
deriving Repr, DecidableEq

/-- The loop `while (meta_getlen(req->payload) < req->payloadn)` of `web_req_payload` (src/http/http_req.c:343-354); `got` are the bytes
in `req->payload`, whose capacity is `payloadn` (src/http/http_req.c:333). -/
def payLoop (payloadn : Nat) : List UInt8 → List Rx → Pay
  | got, rx =>
    if got.length < payloadn then
      match rx with
      | [] => .wait got
      | .again :: _ => .wait got
      | .fail :: _ => .err
      | .data b bs :: rest =>
        -- a receive returns at most the free space; the rest stays in the socket
        let room := payloadn - got.length
        match (b :: bs).drop room with
        | [] => payLoop payloadn (got ++ (b :: bs)) rest
        | x :: xs => payLoop payloadn (got ++ (b :: bs).take room) (.data x xs :: rest)
    else .ok got rx
  termination_by got => payloadn - got.length
  decreasing_by
    · simp only [List.length_append, List.length_cons]; omega
    · simp only [List.length_append, List.length_take, List.length_cons]; omega

/-- `web_req_payload` after the head (src/http/http_req.c:315-342): `remain` are the bytes behind the head already received; more of
them than `payloadn` make `meta_pdata` fail (src/http/http_req.c:336). -/
def payload (payloadn : Nat) (remain : List UInt8) (rx : List Rx) : Pay :=
  if payloadn > 0 then
    if remain.length > payloadn then .err else payLoop payloadn remain rx
  else .ok [] rx

end Verif.Http
