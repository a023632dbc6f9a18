import Verif.Model.Aho
import Verif.Model.Tunnel
/-
The authorisation step of the tunnel server and the header the tunnel client sends:
src/app/tls_tunnel_s.c:231-267 and src/app/tls_tunnel_c.c:68-86.
-/
namespace Verif.Auth
open Verif Verif.Aho

/-- `sizeof(tls_tunnel_auth_t)` (src/app/tls_tunnel_s.h:15-19, packed). -/
def hdrLen : Nat := 36

/-- `htonl(TLS_TUNNEL_AUTH_MAGIC_NUM)` in memory order (src/app/tls_tunnel_s.h:10). -/
def magic : List UInt8 := [0xa0, 0x01, 0xbe, 0xef]

/-- Result of the receive loop. See src/app/tls_tunnel_s.c:269-298. -/
inductive Got where
  | have_ (buf : List UInt8) (rest : List Rx)
  | waiting
  | closed
deriving Repr, DecidableEq

/-- `while (meta_getlen(meta) < sizeof(tls_tunnel_auth_t)) { recv ... }` (src/app/tls_tunnel_s.c:234-246). After
would-block the handler returns and is called again by the event loop with the same buffer, so the calls are joined here. A receive
may bring more than the header (up to the room in the 12288-byte buffer). -/
def authRecv (buf : List UInt8) (l : List Rx) : Got :=
  if hdrLen ≤ buf.length then .have_ buf l
  else
    match l with
    | [] => .waiting
    | .again :: t => authRecv buf t
    | .fail :: _ => .closed
    | .data b bs :: t =>
      let n := Tunnel.cap - buf.length
      if _h : (b :: bs).length ≤ n then authRecv (buf ++ b :: bs) t
      else .have_ (buf ++ (b :: bs).take n) (Tunnel.pushBack n b bs t)
termination_by l.length

/-- `auth->key, strlen(auth->key)` (src/app/tls_tunnel_s.c:254): the bytes after the magic up to the first NUL. `key` is not
terminated by itself: the scan continues through `secret` and whatever else was received. The buffer block is zeroed when
allocated (src/common/mem.c:175) and larger than the 12288 bytes that can be received, so the scan always finds a NUL. -/
def keyText (buf : List UInt8) : List UInt8 := (buf.drop 4).takeWhile (· ≠ 0)

/-- The shared matcher: trie, fail links, and the current node that survives from one lookup to the next
(`g_ses_ctx->ac`, src/app/tls_tunnel_s.c:10-13). -/
structure Matcher where
  trie : Trie
  fails : Fails
  cur : Path
deriving Repr, DecidableEq

/-- Result of an authorisation attempt, with the new current node. `admitted` also carries the socket results left for the next phase.
See src/app/tls_tunnel_s.c:231-267. -/
inductive Verdict where
  | admitted (cur : Path) (rest : List Rx)
  | refused (cur : Path)
  | waiting
  | crash (e : Crash)
deriving Repr, DecidableEq

/-- The check of a received header (src/app/tls_tunnel_s.c:249-266). On success the whole buffer is cleared (262). -/
def authJudge (m : Matcher) (buf : List UInt8) (rest : List Rx) : Verdict :=
  if buf.take 4 = magic then
    match find m.trie m.fails m.cur (keyText buf) with
    | .error e => .crash e
    | .ok (.match_, c) => .admitted c rest
    | .ok (.noMatch, c) => .refused c
  else .refused m.cur

/-- `tls_tunnel_s_auth_chk` (src/app/tls_tunnel_s.c:231-267). -/
def authChk (m : Matcher) (l : List Rx) : Verdict :=
  match authRecv [] l with
  | .waiting => .waiting
  | .closed => .refused m.cur
  | .have_ buf rest => authJudge m buf rest

/-- The matcher after an attempt. See src/common/aho_corasick.c:91-109. -/
def Verdict.next (m : Matcher) : Verdict → Matcher
  | .admitted c _ => { m with cur := c }
  | .refused c => { m with cur := c }
  | .waiting => m
  | .crash _ => m

/-- A sequence of attempts on the shared matcher: the verdicts in order. Simplification: attempts are judged one after
the other (the check itself runs without returning to the event loop). See src/app/tls_tunnel_s.c:231-267. -/
def attempts (m : Matcher) : List (List Rx) → List Verdict
  | [] => []
  | l :: ls => authChk m l :: attempts ((authChk m l).next m) ls

/-- The server's matcher after start-up (`tls_tunnel_s_auth_init`, src/app/tls_tunnel_s.c:366-381), for the keys in the key file. -/
def load (keys : List (List UInt8)) : Except Crash Matcher :=
  match compile (addAll keys) with
  | .error e => .error e
  | .ok fs => .ok { trie := addAll keys, fails := fs, cur := [] }

/-- `tls_tunnel_c_auth_build` (src/app/tls_tunnel_c.c:74-80): the header a client with configured key `key` sends.
`s5_local_auth` is a zeroed 33-byte array filled by `strncpy` with at most 32 bytes (src/common/config.c:61-62,
src/common/config.h:28); its first 16 bytes are copied. -/
def clientHeader (key : List UInt8) : List UInt8 :=
  let field := (key.take 32 ++ List.replicate 33 0).take 33
  magic ++ field.take 16 ++ List.replicate 16 0

end Verif.Auth
