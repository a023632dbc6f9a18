import Verif.Model.Socks5
/-
Destination address text, upstream connect and the SOCKS5 success reply: src/app/socks5.c.
-/
namespace Verif.Ip4

/-- ASCII digit. See src/app/socks5.c:98-193. -/
def digit (n : Nat) : UInt8 := UInt8.ofNat (48 + n)

/-- `%d` of an `unsigned char` in `snprintf` (src/app/socks5.c:109-110, 151-155, 169-173): decimal without leading zeros. -/
def dec (n : UInt8) : List UInt8 :=
  if n.toNat < 10 then [digit n.toNat]
  else if n.toNat < 100 then [digit (n.toNat / 10), digit (n.toNat % 10)]
  else [digit (n.toNat / 100), digit (n.toNat / 10 % 10), digit (n.toNat % 10)]

/-- `snprintf(ipstr, sizeof(ipstr), "%d.%d.%d.%d", ...)` (src/app/socks5.c:109, 151, 169); at most 15 characters, so
the 128-byte buffer never truncates. -/
def fmt (a b c d : UInt8) : List UInt8 :=
  dec a ++ [46] ++ dec b ++ [46] ++ dec c ++ [46] ++ dec d

/-- ASCII decimal digits. See src/app/socks5.c:98-193. -/
def isDigit (b : UInt8) : Bool := 48 ≤ b && b ≤ 57

/-- Value of a digit string in a base. See src/app/socks5.c:98-193. -/
def value (base : Nat) (ds : List UInt8) : Nat := ds.foldl (fun acc d => acc * base + (d.toNat - 48)) 0

/-- One component of the text given to `inet_addr` (C library; used in src/app/socks5.c:117, 159, 177). A component of
several digits that starts with `0` is octal. Simplification: hexadecimal components, which the code never produces, are
not accepted. -/
def part (s : List UInt8) : Option (Nat × List UInt8) :=
  let ds := s.takeWhile isDigit
  let rest := s.dropWhile isDigit
  match ds with
  | [] => none
  | d :: e :: t =>
    if d = 48 then
      if (d :: e :: t).all (· ≤ 55) then some (value 8 ds, rest) else none
    else some (value 10 ds, rest)
  | [_] => some (value 10 ds, rest)

/-- `.` followed by another component. See src/app/socks5.c:98-193. -/
def dotPart : List UInt8 → Option (Nat × List UInt8)
  | 46 :: s => part s
  | _ => none

/-- `inet_addr` of a four-component text: the four bytes of `s_addr` in memory order, `none` for `INADDR_NONE` on a syntax
error. Simplification: the one to three component forms, which the code never produces, are not accepted. See src/app/socks5.c:98-193. -/
def inetAddr (s : List UInt8) : Option (List UInt8) := do
  let (a, s) ← part s
  let (b, s) ← dotPart s
  let (c, s) ← dotPart s
  let (d, s) ← dotPart s
  if s = [] ∧ a < 256 ∧ b < 256 ∧ c < 256 ∧ d < 256 then
    some [UInt8.ofNat a, UInt8.ofNat b, UInt8.ofNat c, UInt8.ofNat d]
  else none

end Verif.Ip4

namespace Verif.S5
open Verif

/-- Little-endian value of bytes in memory. See src/app/socks5.c:98-193. -/
def leVal : List UInt8 → Nat
  | [] => 0
  | b :: bs => b.toNat + 256 * leVal bs

/-- Little-endian store of `k` bytes. See src/app/socks5.c:98-193. -/
def leStore : Nat → Nat → List UInt8
  | 0, _ => []
  | k + 1, v => UInt8.ofNat (v % 256) :: leStore k (v / 256)

/-- `htons` on a little-endian host. See src/app/socks5.c:98-193. -/
def htons (v : Nat) : Nat := (v % 256) * 256 + v / 256 % 256

/-- The reply built by `s5_cup_connect_chk` (src/app/socks5.c:60-67) for an upstream address whose `s_addr` has the bytes
`ip` and whose `sin_port` has the bytes `port` in memory; `s5_ph2_rsp_t` is packed (src/app/socks5.h:38-45). Assumes a
little-endian host. -/
def p2Reply (ip port : List UInt8) : List UInt8 :=
  [0x05, 0x00, 0x00, 0x01] ++ leStore 4 (htons (leVal ip % 65536)) ++ leStore 2 (htons (leVal port))

/-- Result of `net_connect` (src/common/net.c:87-125): 0, -11 or -1. -/
inductive ConnRc where
  | ok
  | again
  | fail
deriving Repr, DecidableEq

/-- What happens to the upstream socket later: it becomes writable with the given `SO_ERROR` status (`true`: no error),
or the timer expires (`tls_ses_exp`), or nothing yet. See src/app/socks5.c:45-75. -/
inductive UpEvent where
  | writable (noError : Bool)
  | timeout
deriving Repr, DecidableEq

/-- State of the client side after the connect step. See src/app/socks5.c:45-96. -/
inductive ConnOut where
  /-- the success reply is in the client's buffer and `s5_p2_rsp` runs -/
  | reply (bytes : List UInt8)
  /-- both connections closed, nothing sent -/
  | closed
  | waiting
deriving Repr, DecidableEq

/-- `s5_cup_connect_chk` (src/app/socks5.c:45-75). -/
def cupConnectChk (noError : Bool) (ip port : List UInt8) : ConnOut :=
  if noError then .reply (p2Reply ip port) else .closed

/-- `s5_cup_connect` (src/app/socks5.c:77-96) followed by the first event on the upstream connection. `soNow` is the `SO_ERROR`
status read when `connect` succeeds immediately. -/
def cupConnect (rc : ConnRc) (soNow : Bool) (ev : Option UpEvent) (ip port : List UInt8) : ConnOut :=
  match rc with
  | .fail => .closed
  | .ok => cupConnectChk soNow ip port
  | .again =>
    match ev with
    | none => .waiting
    | some .timeout => .closed
    | some (.writable ok) => cupConnectChk ok ip port

end Verif.S5
