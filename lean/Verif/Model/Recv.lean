/-
Receive-driven byte automata: the shape shared by `s5_p1_req`, `s5_p2_req`
(src/app/socks5.c) and the receive calls they make (src/common/net_send.c).
-/
namespace Verif

/-- One result of the connection's `recv` function pointer, as seen by a handler:
`recvs` (src/common/net_send.c:3-28) and `ssl_read` (src/common/ssl.c) return a positive byte count,
`-11` (would block) or `-1` (error, and also end of stream, net_send.c:12-14).
`data b bs` models a call that finds the non-empty byte string `b :: bs` in the socket.
Simplification: a timer expiry (`tls_ses_exp`, src/app/tls_tunnel_s.c:47-54), which also closes the
connection, is represented by `fail`. -/
inductive Rx where
  | data (b : UInt8) (bs : List UInt8)
  | again
  | fail
deriving Repr, DecidableEq

/-- Result of giving one byte to a byte automaton. See src/app/socks5.c:238-343, 403-434. -/
inductive Step (σ ρ : Type) where
  | cont (s : σ)
  | stop (r : ρ)
deriving Repr, DecidableEq

/-- The inner loop `for (; meta->pos < meta->last; meta->pos++)` of `s5_p2_req`
(src/app/socks5.c:238-343) and `s5_p1_req` (src/app/socks5.c:403-434): bytes are given to the automaton
until it stops; the bytes that follow in the buffer are then discarded by `meta_clr`
(socks5.c:328, 422), so they do not appear in the result. -/
def feed {σ ρ : Type} (f : σ → UInt8 → Step σ ρ) : σ → List UInt8 → Step σ ρ
  | s, [] => .cont s
  | s, b :: bs =>
    match f s b with
    | .cont s' => feed f s' bs
    | .stop r => .stop r

/-- How a handler invocation, or a sequence of invocations, ends. See src/app/socks5.c:196-345, 371-436. -/
inductive Outcome (σ ρ : Type) where
  /-- the automaton stopped with a result -/
  | stopped (r : ρ)
  /-- the handler returned `-11`; the automaton state is kept for the next event, together with the room
  left in the receive buffer and the socket results not consumed yet -/
  | waiting (s : σ) (free : Nat) (rest : List Rx)
  /-- `net_free(cdown)` after a failed receive -/
  | closed
  /-- `sassert(bufn > 0)` in `recvs` (src/common/net_send.c:5) -/
  | aborted
deriving Repr, DecidableEq

/-- One invocation of the handler: the outer loop `for (;;)` of `s5_p2_req`
(src/app/socks5.c:223-236) and `s5_p1_req` (src/app/socks5.c:388-401). `free` is `meta_getfree(meta)`;
a receive returns at most `free` bytes, the rest stays in the socket.
The inner loop consumes the whole buffer, so `meta_getlen(meta) < 1` holds at each receive. -/
def invoke {σ ρ : Type} (f : σ → UInt8 → Step σ ρ) (s : σ) (free : Nat) (l : List Rx) :
    Outcome σ ρ :=
  match l with
  | [] => .waiting s free []
  | .again :: t => .waiting s free t
  | .fail :: _ => .closed
  | .data b bs :: t =>
    if free = 0 then .aborted
    else
      match feed f s ((b :: bs).take free) with
      | .stop r => .stopped r
      | .cont s' =>
        match (b :: bs).drop free with
        | [] => invoke f s' (free - (bs.length + 1)) t
        | c :: cs => invoke f s' 0 (.data c cs :: t)
termination_by (l.length, free)
decreasing_by
  · simp_wf; left; omega
  · simp_wf; right; omega

/-- All invocations caused by the events on a connection: after `-11` the event loop calls the handler
again (the callbacks stay installed, src/app/socks5.c:227-230 and 392-395) with the socket results that follow.
Simplification: the oracle list ends where the observation ends. -/
def drive {σ ρ : Type} (f : σ → UInt8 → Step σ ρ) (s : σ) (free : Nat) (l : List Rx) : Outcome σ ρ :=
  match invoke f s free l with
  | .waiting s' free' (x :: rest) =>
    if (x :: rest).length < l.length then drive f s' free' (x :: rest)
    else .waiting s' free' (x :: rest)
  | o => o
termination_by l.length

end Verif
