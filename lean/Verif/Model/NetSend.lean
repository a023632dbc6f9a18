import Verif.Model.Recv
/-
Socket wrappers: src/common/net_send.c.
-/
namespace Verif.Net
open Verif

/-- Result of one `send`/`sendto` system call: a byte count, or a failure with the `errno` classes the code
distinguishes (src/common/net_send.c:39-47). -/
inductive SysTx where
  | ok (n : Nat)
  | eagain
  | eintr
  | err
deriving Repr, DecidableEq

/-- What `sends` returns: a byte count, `-11` or `-1` (src/common/net_send.c:41-49). -/
inductive Tx where
  | sent (n : Nat)
  | again
  | fail
deriving Repr, DecidableEq

/-- `sends` (src/common/net_send.c:30-51) and `udp_sends` (107-128), called with `len` bytes; returns the result
and the remaining system call results. `EINTR` repeats the call. The kernel never reports more than `len` bytes.
Simplification: at the end of the observed results the socket would block. -/
def sends (len : Nat) : List SysTx → Tx × List SysTx
  | [] => (.again, [])
  | .ok n :: t => (.sent (min n len), t)
  | .eagain :: t => (.again, t)
  | .eintr :: t => sends len t
  | .err :: t => (.fail, t)

/-- Result of one `recv` system call: data in the socket (non-empty), orderly shutdown, or an error
(src/common/net_send.c:10-25). -/
inductive SysRx where
  | data (b : UInt8) (bs : List UInt8)
  | eof
  | eagain
  | eintr
  | err
deriving Repr, DecidableEq

/-- `recvs` (src/common/net_send.c:3-28) as a map from system call results to what handlers see:
`EINTR` repeats the call, end of stream and errors both become `-1`. -/
def recvs : List SysRx → List Rx
  | [] => []
  | .data b bs :: t => .data b bs :: recvs t
  | .eof :: t => .fail :: recvs t
  | .eagain :: t => .again :: recvs t
  | .eintr :: t => recvs t
  | .err :: t => .fail :: recvs t

/-- Return value of `send_chains`: 1, -11 or -1 (src/common/net_send.c:66-75). -/
inductive ChainRc where
  | done
  | again
  | fail
deriving Repr, DecidableEq

/-- State after a call of `send_chains`: return code, the unsent part of every buffer of the chain, the
bytes handed to the kernel by this call, and the system call results left. See src/common/net_send.c:53-78. -/
structure ChainOut where
  rc : ChainRc
  chain : List (List UInt8)
  wire : List UInt8
  rest : List SysTx
deriving Repr, DecidableEq

/-- The buffer selected by the inner `while` of `send_chains` (src/common/net_send.c:59-65): the first
one with unsent bytes, with the buffers before and after it. -/
def firstUnsent : List (List UInt8) → Option (List (List UInt8) × List UInt8 × List (List UInt8))
  | [] => none
  | [] :: c => (firstUnsent c).map fun (p, x, q) => ([] :: p, x, q)
  | (b :: bs) :: c => some ([], b :: bs, c)

theorem sends_rest_length (len : Nat) (l : List SysTx) (h : l ≠ []) :
    (sends len l).2.length < l.length := by
  induction l with
  | nil => exact absurd rfl h
  | cons x t ih =>
    cases x with
    | eintr =>
      simp only [sends]
      by_cases ht : t = []
      · subst ht; simp [sends]
      · have := ih ht; simp; omega
    | _ => simp [sends]

/-- `send_chains` (src/common/net_send.c:53-78); `ssl_write_chain` (src/common/ssl.c:270-293) has the same
loop with `ssl_write` instead of `sends`. A chain is the list of the unsent parts (`pos` to `last`) of its buffers. -/
def sendChains (chain : List (List UInt8)) (l : List SysTx) : ChainOut :=
  match firstUnsent chain with
  | none => ⟨.done, chain, [], l⟩
  | some (p, x, q) =>
    match _h : sends x.length l with
    | (.again, r) => ⟨.again, chain, [], r⟩
    | (.fail, r) => ⟨.fail, chain, [], r⟩
    | (.sent n, r) =>
      let o := sendChains (p ++ x.drop n :: q) r
      { o with wire := x.take n ++ o.wire }
termination_by l.length
decreasing_by
  have hl : l ≠ [] := by rintro rfl; simp [sends] at _h
  have := sends_rest_length x.length l hl
  rw [_h] at this; exact this

/-- Repeated calls of `send_chains` on the same chain, one per writable event, as its callers do after `-11`
(e.g. src/app/tls_tunnel_c.c:44-53, src/app/webser.c). -/
def sendChainsAll (chain : List (List UInt8)) (l : List SysTx) : ChainOut :=
  match sendChains chain l with
  | ⟨.again, c, w, x :: r⟩ =>
    if (x :: r).length < l.length then
      let o := sendChainsAll c (x :: r)
      { o with wire := w ++ o.wire }
    else ⟨.again, c, w, x :: r⟩
  | o => o
termination_by l.length

end Verif.Net
