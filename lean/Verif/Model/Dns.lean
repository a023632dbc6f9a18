import Verif.Model.EzHash
/-
The resolver: src/dns/dns.c.

Not modelled: the socket set-up of `dns_alloc` (src/dns/dns.c:336-350), the timers around `-11`, and the delivery of the request
datagram (src/dns/dns.c:234-258, a `sendto` of the packet built here).
-/
namespace Verif.Dns

open EzHash (Key Tab)

/-- Big-endian 16-bit read (`ntohs`). See src/dns/dns.c:97-191. -/
def be16 (a b : UInt8) : Nat := a.toNat * 256 + b.toNat

/-- Big-endian 32-bit read (`ntohl`). See src/dns/dns.c:97-191. -/
def be32 (a b c d : UInt8) : Nat := ((a.toNat * 256 + b.toNat) * 256 + c.toNat) * 256 + d.toNat

/-- One label as written at src/dns/dns.c:268-271 and 283-285: length byte (an `int` stored into a byte) and the bytes. -/
def putLabel (stack : List UInt8) : List UInt8 := UInt8.ofNat stack.length :: stack

/-- The loop of `dns_request_host2qname` (src/dns/dns.c:266-288) over the bytes before the NUL (`strlen`); `stack` is the array
of 256 bytes, `none` marks the store `stack[256]`. -/
def host2qname : List UInt8 → List UInt8 → List UInt8 → Option (List UInt8)
  | [], stack, out => some ((if stack.length > 0 then out ++ putLabel stack else out) ++ [0])
  | c :: r, stack, out =>
    if c = 46 then host2qname r [] (out ++ putLabel stack)
    else if stack.length < 256 then host2qname r (stack ++ [c]) out
    else none

/-- `dns_header_t` as filled in at src/dns/dns.c:303-309. -/
def reqHeader : List UInt8 := [0xbe, 0xef, 0x01, 0x00, 0x00, 0x01, 0, 0, 0, 0, 0, 0]

/-- `dns_question_t` as filled in at src/dns/dns.c:317-319. -/
def reqQuestion : List UInt8 := [0x00, 0x01, 0x00, 0x01]

/-- The datagram built by `dns_request_packet` (src/dns/dns.c:291-320) for the query string. -/
def request (query : List UInt8) : Option (List UInt8) :=
  match host2qname query [] [] with
  | some q => some (reqHeader ++ q ++ reqQuestion)
  | none => none

/-- `dnsc->qname_len` (src/dns/dns.c:314). -/
def qnameLen (query : List UInt8) : Nat :=
  match host2qname query [] [] with
  | some q => q.length
  | none => 0

/-- The fields of `dns_rdata_t` used (src/dns/dns.h, src/dns/dns.c:160-162), from its ten bytes. -/
structure Rd where
  type : Nat
  ttl : Nat
  len : Nat
deriving Repr, DecidableEq

/-- Reading `dns_rdata_t` through the pointer set at src/dns/dns.c:139. -/
def rdOf : List UInt8 → Rd
  | [t0, t1, _, _, l0, l1, l2, l3, d0, d1] => ⟨be16 t0 t1, be32 l0 l1 l2 l3, be16 d0 d1⟩
  | _ => ⟨0, 0, 0⟩

/-- State of the answer parser (src/dns/dns.c:103-110): `fixed got` is ANSWER_COMMON(_START) with the bytes seen so far,
`data rd got` is ANSWER_ADDR(_START). -/
inductive St where
  | name
  | ptr2
  | fixed (got : List UInt8)
  | data (rd : Rd) (got : List UInt8)
deriving Repr, DecidableEq

/-- Result of the parser. See src/dns/dns.c:97-191. -/
inductive Found where
  /-- first record of type 1: its fields and the four bytes read at `answer_addr` -/
  | addr (rd : Rd) (a : List UInt8)
  /-- `dns_async_result(dnsc, -1, NULL)` -/
  | none
  /-- the four bytes reach beyond the end of the receive buffer -/
  | oob
deriving Repr, DecidableEq

/-- The loop of `dns_response_analyze` (src/dns/dns.c:115-190). `l` are the bytes from `p` to `meta->last`, `slack` the bytes of
the buffer behind `meta->last`; `memcpy(dnsc->result, dnsc->answer.answer_addr, 4)` (src/dns/dns.c:173, also 170 with 35-38) reads
four bytes whatever `rdatan` is. -/
def analyze (slack : List UInt8) : St → List UInt8 → Found
  | _, [] => .none
  | .name, b :: r =>
    if b &&& 0xc0 ≠ 0 then analyze slack .ptr2 r
    else if b = 0 then analyze slack (.fixed []) r
    else analyze slack .name r
  | .ptr2, _ :: r => analyze slack (.fixed []) r
  | .fixed got, b :: r =>
    if got.length + 1 ≥ 10 then analyze slack (.data (rdOf (got ++ [b])) []) r
    else analyze slack (.fixed (got ++ [b])) r
  | .data rd got, b :: r =>
    if got.length + 1 ≥ rd.len then
      if rd.type = 1 then
        if ((got ++ [b]) ++ r ++ slack).length < 4 then .oob
        else .addr rd (((got ++ [b]) ++ r ++ slack).take 4)
      else analyze slack .name r
    else analyze slack (.data rd (got ++ [b])) r

/-- `dns_cache_t` (src/dns/dns.c:5-10): the fields that are read later. -/
structure Rec where
  expire : Int
  addr : List UInt8
deriving Repr, DecidableEq

/-- The resolver cache (src/dns/dns.c:12-16). -/
abbrev Cache := Tab Rec

/-- `dns_init` (src/dns/dns.c:374). -/
def cacheInit : Cache := EzHash.create Rec 279

/-- `DNS_TTL_MAX` (src/dns/dns.h). -/
def ttlMax : Int := 10800000

/-- The argument `1000*rttl` (src/dns/dns.c:170): unsigned 32-bit product, converted to `int`, and the cap at src/dns/dns.c:39-40. -/
def ttlMsec (ttl : Nat) : Int :=
  let w := (1000 * ttl) % 4294967296
  let i : Int := if w < 2147483648 then w else (w : Int) - 4294967296
  if i > ttlMax then ttlMax else i

/-- `dns_rec_find` (src/dns/dns.c:48-55): no look at `expire_msec`. -/
def recFind (t : Cache) (query : Key) : Option (List UInt8) :=
  match EzHash.find EzHash.fnv1a t query with
  | some r => some r.addr
  | none => none

/-- `dns_rec_chk` (src/dns/dns.c:57-86): unlinks the entries with `expire_msec > now`. -/
def recChk (t : Cache) (now : Int) : Cache :=
  EzHash.sweep t (fun r => decide (r.expire > now))

/-- What `dns_response_analyze` does with a found record (src/dns/dns.c:165-172): the entry it asks the cache to add. -/
def cacheReq (t : Cache) (query : Key) (now : Int) (rd : Rd) (a : List UInt8) : Option Rec :=
  match recFind t query with
  | some _ => none
  | none => if rd.ttl > 0 ∧ rd.len > 0 then some ⟨now + ttlMsec rd.ttl, a⟩ else none

/-- Outcome of processing a response. See src/dns/dns.c:193-232. -/
inductive Res where
  /-- callback with status 0 and the address (src/dns/dns.c:174) -/
  | addr (a : List UInt8) (t : Cache)
  /-- callback with status −1 -/
  | fail
  /-- still waiting for more data, with the bytes collected so far -/
  | wait (buf : List UInt8) (rest : List (Option (List UInt8)))
  /-- read outside the receive buffer -/
  | oob
  /-- `assert` in the pool for an empty key -/
  | abort

/-- `dns_response_analyze` (src/dns/dns.c:97-191) on the datagram bytes `buf` in a receive buffer of `buf.length + slack.length`
bytes; `now` is `systime_msec()`, `m1 m2 m3` the pool's behaviour in `ezhash_add`. -/
def respond (t : Cache) (query : Key) (now : Int) (m1 m2 m3 : Bool) (buf slack : List UInt8) : Res :=
  match analyze slack .name (buf.drop (12 + qnameLen query + 4)) with
  | .oob => .oob
  | .none => .fail
  | .addr rd a =>
    match cacheReq t query now rd a with
    | none => .addr a t
    | some rec =>
      match EzHash.add EzHash.fnv1a t query rec m1 m2 m3 with
      | .ok t' => .addr a t'
      | .noMem => .addr a t
      | .abort => .abort

/-- The header test of `dns_response_recv` (src/dns/dns.c:218-228): question and answer counts at offsets 4 and 6. -/
def headerOk : List UInt8 → Bool
  | _ :: _ :: _ :: _ :: q0 :: q1 :: a0 :: a1 :: _ => decide (be16 q0 q1 ≥ 1) && decide (be16 a0 a1 ≥ 1)
  | _ => false

/-- The content of the receive buffer behind the datagrams: `stale` is what the buffer held before (the request, then zeros).
See src/dns/dns.c:193-232. -/
def slackOf (stale buf : List UInt8) : List UInt8 := stale.drop buf.length

/-- `dns_response_recv` (src/dns/dns.c:193-232). The oracle lists the results of `udp_recvs`: `some d` a datagram, `none` an error
or an empty datagram (src/common/net_send.c:90-101); the end of the list is `-11`. A datagram longer than the free space is cut.
`stale` is the previous content of the buffer of 1500 bytes. -/
def recv (t : Cache) (query : Key) (now : Int) (m1 m2 m3 : Bool) (stale : List UInt8) :
    List UInt8 → List (Option (List UInt8)) → Res
  | buf, rx =>
    if buf.length < 12 + qnameLen query + 4 then
      match rx with
      | [] => .wait buf []
      | none :: _ => .fail
      | some d :: r =>
        if d = [] then .fail
        else recv t query now m1 m2 m3 stale (buf ++ d.take (stale.length - buf.length)) r
    else if headerOk buf then respond t query now m1 m2 m3 buf (slackOf stale buf)
    else .fail
  termination_by _ rx => rx.length

/-- What changes the cache: a response is processed for a query (src/dns/dns.c:97-191), or the periodic check runs
(src/dns/dns.c:57-86, armed at 85 and 375). Lookups (src/app/socks5.c:166) change nothing. -/
inductive Ev where
  | answer (query : Key) (now : Int) (m1 m2 m3 : Bool) (buf slack : List UInt8)
  | chk (now : Int)

/-- One event; `none` if the program aborts or reads outside its buffer. See src/dns/dns.c:31-86, 193-232. -/
def stepEv (t : Cache) : Ev → Option Cache
  | .answer q now m1 m2 m3 buf slack =>
    match respond t q now m1 m2 m3 buf slack with
    | .addr _ t' => some t'
    | .fail => some t
    | .wait _ _ => some t
    | .oob => none
    | .abort => none
  | .chk now => some (recChk t now)

/-- A history of events. See src/dns/dns.c:31-86, 193-232. -/
def runEv (t : Cache) : List Ev → Option Cache
  | [] => some t
  | e :: r =>
    match stepEv t e with
    | some t' => runEv t' r
    | none => none

end Verif.Dns
