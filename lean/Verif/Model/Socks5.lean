import Verif.Model.Recv
import Verif.Model.NetSend
/-
SOCKS5 handshake of the server: src/app/socks5.c, src/app/socks5.h.
-/
namespace Verif.S5
open Verif

/-- `s5_ph1_req_t` (src/app/socks5.h:15-20) together with `s5_t.s5_state` (socks5.h:48). The array
`methods[255]` is a list of 255 bytes; the record is zeroed by the pool (src/common/mem.c:175). -/
structure P1 where
  state : Nat
  ver : UInt8
  methodsN : UInt8
  methodsCnt : UInt8
  methods : List UInt8
deriving Repr, DecidableEq

/-- Fresh greeting record: zeroed by `mem_pool_alloc` (src/app/tls_tunnel_s.c:287, src/common/mem.c:175). -/
def P1.init : P1 := ⟨0, 0, 0, 0, List.replicate 255 0⟩

/-- Results of the greeting automaton: the whole greeting was read (src/app/socks5.c:418-431), or a
store outside `methods[255]` happened (undefined behaviour, socks5.c:417). -/
inductive P1Res where
  | done (r : P1)
  | oob
deriving Repr, DecidableEq

/-- States of the greeting parser, the local `enum` in src/app/socks5.c:382-386. -/
def VERSION : Nat := 0
/-- src/app/socks5.c:384 -/
def METHODN : Nat := 1
/-- src/app/socks5.c:385 -/
def METHOD : Nat := 2

/-- One pass of the loop body of `s5_p1_req` (src/app/socks5.c:404-433). `methods_cnt` is an
`unsigned char` and wraps. -/
def p1Byte (s : P1) (b : UInt8) : Step P1 P1Res :=
  if s.state = VERSION then .cont { s with ver := b, state := METHODN }
  else if s.state = METHODN then .cont { s with methodsN := b, methodsCnt := 0, state := METHOD }
  else if s.state = METHOD then
    if s.methodsCnt.toNat < 255 then
      let s := { s with methods := s.methods.set s.methodsCnt.toNat b, methodsCnt := s.methodsCnt + 1 }
      if s.methodsN = s.methodsCnt then .stop (.done { s with state := 0 })
      else .cont s
    else .stop .oob
  else .cont s

/-- The reply written by `s5_p1_req` into the cleared buffer (src/app/socks5.c:422-427):
`s5_ph1_rsp_t` (socks5.h:22-25) with `ver = 5`, `method = 0`. -/
def p1Reply : List UInt8 := [0x05, 0x00]

/-- `s5_ph2_req_t` (src/app/socks5.h:27-36) together with `s5_t.s5_state`. `dst_addr` has
`DOMAIN_LENGTH = 255` bytes (src/common/macro.h:146). -/
structure P2 where
  state : Nat
  ver : UInt8
  cmd : UInt8
  rsv : UInt8
  atyp : UInt8
  addrN : UInt8
  addrCnt : UInt8
  addr : List UInt8
  port0 : UInt8
  port1 : UInt8
deriving Repr, DecidableEq

/-- Fresh request record: zeroed by `mem_pool_alloc` (src/app/tls_tunnel_s.c:287); `s5_state` was reset
by the greeting parser (src/app/socks5.c:421). -/
def P2.init : P2 := ⟨0, 0, 0, 0, 0, 0, 0, List.replicate 255 0, 0, 0⟩

/-- Results of the request automaton: request accepted, `cdown->ev->read_cb = s5_cup_addr`
(src/app/socks5.c:335-337); connection closed (socks5.c:286-288, 340-341); store outside
`dst_addr[255]` (undefined behaviour, socks5.c:291, 298, 312). -/
inductive P2Res where
  | accept (r : P2)
  | close
  | oob
deriving Repr, DecidableEq

/-- src/app/socks5.c:205 -/
def VER : Nat := 0
/-- src/app/socks5.c:206 -/
def CMD : Nat := 1
/-- src/app/socks5.c:207 -/
def RSV : Nat := 2
/-- src/app/socks5.c:208 -/
def TYP : Nat := 3
/-- src/app/socks5.c:209 -/
def TYP_V4 : Nat := 4
/-- src/app/socks5.c:210 -/
def TYP_V6 : Nat := 5
/-- src/app/socks5.c:211 -/
def TYP_DOMAINN : Nat := 6
/-- src/app/socks5.c:212 -/
def TYP_DOMAIN : Nat := 7
/-- src/app/socks5.c:213 -/
def PORT : Nat := 8
/-- src/app/socks5.c:214 -/
def END : Nat := 9

/-- `S5_RFC_IPV4`, src/app/socks5.h:10 -/
def IPV4 : UInt8 := 1
/-- `S5_RFC_IPV6`, src/app/socks5.h:11 -/
def IPV6 : UInt8 := 4
/-- `S5_RFC_DOMAIN`, src/app/socks5.h:12 -/
def DOMAIN : UInt8 := 3

/-- The statement `s5p2->dst_addr[(int)s5p2->dst_addr_cnt++] = *p; if (dst_addr_cnt == n) state = PORT`
(src/app/socks5.c:291-295, 298-302, 312-316). `dst_addr_cnt` is an `unsigned char` and wraps. When the state does
not become `PORT` the code falls through to the remaining tests, none of which matches. -/
def storeAddr (s : P2) (b : UInt8) (n : UInt8) : Step P2 P2Res :=
  if s.addrCnt.toNat < 255 then
    let s := { s with addr := s.addr.set s.addrCnt.toNat b, addrCnt := s.addrCnt + 1 }
    if s.addrCnt = n then .cont { s with state := PORT } else .cont s
  else .stop .oob

/-- The checks made when the last byte was read (src/app/socks5.c:326-341). -/
def p2End (s : P2) : Step P2 P2Res :=
  if s.ver = 5 ∧ s.cmd = 1 ∧ s.atyp ≠ IPV6 then .stop (.accept { s with state := 0 })
  else .stop .close

/-- One pass of the loop body of `s5_p2_req` (src/app/socks5.c:239-342). The clamps of
`dst_addr_n` (socks5.c:307-308) compare an `unsigned char` with 0 and 255 and never apply. -/
def p2Byte (s : P2) (b : UInt8) : Step P2 P2Res :=
  if s.state = VER then .cont { s with ver := b, state := CMD }
  else if s.state = CMD then .cont { s with cmd := b, state := RSV }
  else if s.state = RSV then .cont { s with rsv := b, state := TYP }
  else if s.state = TYP then
    let s := { s with atyp := b }
    if b = IPV4 then .cont { s with state := TYP_V4, addrN := 4, addrCnt := 0 }
    else if b = IPV6 then .cont { s with state := TYP_V6, addrN := 16, addrCnt := 0 }
    else if b = DOMAIN then .cont { s with state := TYP_DOMAINN, addrN := 0, addrCnt := 0 }
    else .stop .close
  else if s.state = TYP_V4 then storeAddr s b 4
  else if s.state = TYP_V6 then storeAddr s b 16
  else if s.state = TYP_DOMAINN then .cont { s with addrN := b, state := TYP_DOMAIN }
  else if s.state = TYP_DOMAIN then storeAddr s b s.addrN
  else if s.state = PORT then .cont { s with port0 := b, state := END }
  else if s.state = END then p2End { s with port1 := b }
  else .cont s

/-- `TLS_TUNNEL_METAN`, the size of the client connection's buffer (src/app/tls_tunnel_s.h:11,
tls_tunnel_s.c:275). -/
def metaN : Nat := 4096 * 3

/-- `s5_p1_req` (src/app/socks5.c:371-436) from the cleared buffer left by the authorisation step
(src/app/tls_tunnel_s.c:262), over every event on the client connection. -/
def p1Req (l : List Rx) : Outcome P1 P1Res := drive p1Byte P1.init metaN l

/-- `s5_p2_req` (src/app/socks5.c:196-345) from the cleared buffer left by `s5_p1_rsp`
(socks5.c:364), over every event on the client connection. -/
def p2Req (l : List Rx) : Outcome P2 P2Res := drive p2Byte P2.init metaN l

/-- `strlen` on a C array followed by unknown memory: `none` when the array contains no terminator
(the code then reads outside the array). Used for `dst_addr` by `dns_rec_find`
(src/app/socks5.c:166, src/dns/dns.c:49) and `dns_alloc` (socks5.c:183, dns.c:334). -/
def cstr : List UInt8 → Option (List UInt8)
  | [] => none
  | b :: bs => if b = 0 then some [] else (cstr bs).map (b :: ·)

/-- What the server does with an accepted request. See src/app/socks5.c:131-193. -/
inductive Action where
  /-- connect to the address given by four bytes and two port bytes (network order) -/
  | connect4 (ip : List UInt8) (p0 p1 : UInt8)
  /-- resolve the name, then connect with the two port bytes -/
  | resolve (name : List UInt8) (p0 p1 : UInt8)
  /-- close the client connection -/
  | close
  /-- out of bounds read of `dst_addr` by `strlen` -/
  | oob
deriving Repr, DecidableEq

/-- `s5_cup_addr` (src/app/socks5.c:131-193), the choice of the destination. Simplifications: the
allocation `net_alloc` (socks5.c:141) succeeds; the dotted-text round trip of the address is modelled separately
(`Verif.Ip4`); the cache lookup and the resolver (socks5.c:166-187) are modelled in `Verif.Dns`. -/
def cupAddr (r : P2) : Action :=
  if r.atyp = IPV4 then .connect4 (r.addr.take 4) r.port0 r.port1
  else if r.atyp = DOMAIN then
    match cstr r.addr with
    | some n => .resolve n r.port0 r.port1
    | none => .oob
  else .close

end Verif.S5

namespace Verif.S5
open Verif Verif.Net

/-- Outcome of a reply-sending handler: reply complete; waiting for writability with the unsent part; connection
closed. Each carries the bytes handed to the kernel. See src/app/socks5.c:18-43, 347-369. -/
inductive RspOut where
  | done (wire : List UInt8) (rest : List Tx)
  | again (wire unsent : List UInt8) (rest : List Tx)
  | closed (wire : List UInt8)
deriving Repr, DecidableEq

/-- One invocation of `s5_p1_rsp` (src/app/socks5.c:347-369) or `s5_p2_rsp` (socks5.c:18-43): the loop
`while (meta_getlen(meta) > 0) { rc = send(...); ...; meta->pos += rc; }`. -/
def rsp : List UInt8 → List UInt8 → List Tx → RspOut
  | wire, [], l => .done wire l
  | wire, b :: bs, [] => .again wire (b :: bs) []
  | wire, b :: bs, .again :: t => .again wire (b :: bs) t
  | wire, _ :: _, .fail :: _ => .closed wire
  | wire, b :: bs, .sent n :: t => rsp (wire ++ (b :: bs).take n) ((b :: bs).drop n) t
termination_by _ _ l => l.length

/-- `s5_p1_rsp`/`s5_p2_rsp` over all writable events of the connection: after `-11` the write callback stays
installed (src/app/socks5.c:26-28, 353-355) and is called again. -/
def rspAll (wire buf : List UInt8) (l : List Tx) : RspOut :=
  match rsp wire buf l with
  | .again w u (x :: r) =>
    if (x :: r).length < l.length then rspAll w u (x :: r) else .again w u (x :: r)
  | o => o
termination_by l.length

end Verif.S5
