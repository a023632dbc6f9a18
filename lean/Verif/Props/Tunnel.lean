import Verif.Proofs.TunnelLive
/-
Properties C07 to C10: the tunnel relay.
-/
namespace Verif.Tunnel
open Verif Verif.Net

theorem reach_inv (early : List UInt8) (h : early.length ≤ cap) (srcUp : List Rx) (dstUp : List Tx) (srcDown : List Rx)
    (dstDown : List Tx) (es : List Event) :
    Inv (streams early srcUp srcDown) (run (proc early srcUp dstUp srcDown dstDown) es) :=
  run_inv (proc_inv early h srcUp dstUp srcDown dstDown) es

/-- C07. At every moment, under every schedule of readiness events and timeouts and every sequence of partial reads, partial writes,
would-block answers and errors, the source's stream is: what was written to the destination, then what the relay buffer
holds (never more than its 12288 bytes), then what was not read yet. Missing: one connection of every session uses TLS, and
here its calls only have results. What the TLS layer does to callbacks and interest on top of that is in `Props/TlsRelay` (C102), with one case
in which this fails. -/
theorem c07_relay_exact_partial (early : List UInt8) (h : early.length ≤ 12288) (srcUp : List Rx) (dstUp : List Tx) (srcDown : List Rx)
    (dstDown : List Tx) (es : List Event) (d : Side) :
    let s := run (proc early srcUp dstUp srcDown dstDown) es
    (s.dir d).out ++ (s.dir d).buf ++ streamOf (s.dir d).src = streams early srcUp srcDown d ∧
    (s.dir d).buf.length ≤ 12288 :=
  have hi := reach_inv early h srcUp dstUp srcDown dstDown es
  ⟨hi.total d, hi.small d⟩

/-- C07. What was written to the destination is a prefix of the source's stream. Missing: one connection of every session uses TLS, and
here its calls only have results. What the TLS layer does to callbacks and interest on top of that is in `Props/TlsRelay` (C102), with one case
in which this fails. -/
theorem c07_relay_prefix_partial (early : List UInt8) (h : early.length ≤ 12288) (srcUp : List Rx) (dstUp : List Tx) (srcDown : List Rx)
    (dstDown : List Tx) (es : List Event) (d : Side) :
    ((run (proc early srcUp dstUp srcDown dstDown) es).dir d).out <+: streams early srcUp srcDown d := by
  have := (reach_inv early h srcUp dstUp srcDown dstDown es).total d
  rw [← this, total, List.append_assoc]
  exact List.prefix_append _ _

/-- C08. Between events of an open session every direction waits for exactly the socket that can make it progress: with
an empty buffer the receive handler is installed and the source was last seen not readable (or freshly registered); with
a non-empty buffer the send handler is installed and the destination was last seen not writable. Missing: one connection of every session uses TLS, and
here its calls only have results. What the TLS layer does to callbacks and interest on top of that is in `Props/TlsRelay` (C102), with cases
in which this fails. -/
theorem c08_armed_partial (early : List UInt8) (h : early.length ≤ 12288) (srcUp : List Rx) (dstUp : List Tx) (srcDown : List Rx)
    (dstDown : List Tx) (es : List Event) (d : Side)
    (hopen : (run (proc early srcUp dstUp srcDown dstDown) es).closed = none) :
    let s := run (proc early srcUp dstUp srcDown dstDown) es
    ((s.dir d).buf = [] ∧ (s.dir d).readCb = true ∧ (s.dir d).srcWait = true) ∨
    ((s.dir d).buf ≠ [] ∧ (s.dir d).writeCb = true ∧ (s.dir d).dstWait = true) := by
  rcases (reach_inv early h srcUp dstUp srcDown dstDown es).wait hopen d with ⟨a1, _, a3, _, _, a6⟩ | ⟨_, a2, a3, _, _, a6, _⟩
  · exact Or.inl ⟨a3, a1, a6⟩
  · exact Or.inr ⟨a3, a2, a6⟩

/-- C08. From every reachable open session, if the destination can take the remaining bytes (never fails, takes at least one byte per
accepting answer, and gives enough of them), then after more rounds of readiness reports than the sockets will still answer would-block,
the destination has the whole stream; if the source's stream ends, the session is closed. Missing: one connection of every session uses TLS, and
here its calls only have results. What the TLS layer does to callbacks and interest on top of that is in `Props/TlsRelay` (C102), with cases
in which this fails. -/
theorem c08_delivery_partial (early : List UInt8) (h : early.length ≤ 12288) (srcUp : List Rx) (dstUp : List Tx) (srcDown : List Rx)
    (dstDown : List Tx) (es : List Event) (d : Side)
    (hopen : (run (proc early srcUp dstUp srcDown dstDown) es).closed = none)
    (htake : canTake (streams early srcUp srcDown d).length ((run (proc early srcUp dstUp srcDown dstDown) es).dir d).dst)
    (k : Nat) (hk : blocks ((run (proc early srcUp dstUp srcDown dstDown) es).dir d) < k) :
    let s := run (run (proc early srcUp dstUp srcDown dstDown) es) (rounds d k)
    (s.dir d).out = streams early srcUp srcDown d ∧
    (s.closed = none ∨ s.closed = some (.eof d)) := by
  have hi := reach_inv early h srcUp dstUp srcDown dstDown es
  obtain ⟨k, rfl⟩ : ∃ k', k = k' + 1 := ⟨k - 1, by omega⟩
  have hl : Live ((run (proc early srcUp dstUp srcDown dstDown) es).dir d) := by
    refine ⟨htake.1, Nat.le_trans ?_ htake.2⟩
    rw [← hi.total d]; simp [total, remaining]
  have hw : Within d k (run (proc early srcUp dstUp srcDown dstDown) es) := Or.inr ⟨hopen, hl, by omega⟩
  have hid := rounds_idle d k hi hw
  have hi2 := run_inv hi (rounds d (k + 1))
  generalize run (run (proc early srcUp dstUp srcDown dstDown) es) (rounds d (k + 1)) = s at hid hi2
  have ht := hi2.total d
  rcases hid with hid | ⟨hc, hs, hb⟩
  · obtain ⟨hb, hs, _⟩ := hi2.eof d hid
    refine ⟨?_, Or.inr hid⟩
    rw [← ht]; simp [total, hb, hs]
  · refine ⟨?_, Or.inl hc⟩
    rw [← ht]; simp [total, hb, hs, streamOf]

/-- C09. If the session was closed because a side's source ended, the destination has received everything that source ever delivered. Missing: one connection of every session uses TLS, and
here its calls only have results. What the TLS layer does to callbacks and interest on top of that is in `Props/TlsRelay` (C102), with one case
in which this fails. -/
theorem c09_flush_before_close_partial (early : List UInt8) (h : early.length ≤ 12288) (srcUp : List Rx) (dstUp : List Tx)
    (srcDown : List Rx) (dstDown : List Tx) (es : List Event) (d : Side)
    (hc : (run (proc early srcUp dstUp srcDown dstDown) es).closed = some (.eof d)) :
    ((run (proc early srcUp dstUp srcDown dstDown) es).dir d).out = streams early srcUp srcDown d := by
  have hi := reach_inv early h srcUp dstUp srcDown dstDown es
  obtain ⟨hb, hs, _⟩ := hi.eof d hc
  rw [← hi.total d]; simp [total, hb, hs]

/-- C10 as stated is false: the upstream's answer `[7]` was read but not yet accepted by the client socket; then the client ends its
stream, the session is closed, and the byte is lost. -/
theorem c10_other_direction_counterexample :
    ∃ (srcUp srcDown : List Rx) (dstUp dstDown : List Tx) (es : List Event),
      let s := run (proc [] srcUp dstUp srcDown dstDown) es
      s.closed = some (.eof .up) ∧ s.down.out = [] ∧ s.down.buf = [7] := by
  refine ⟨[.again, .fail], [.data 7 []], [], [.again, .sent 1], [.readable .down, .readable .up], ?_⟩
  decide +kernel

/-- C10, the part that holds: at most one relay buffer of the other direction's data is lost; with an empty buffer in the other
direction, everything read from it was delivered. Missing: the buffered bytes themselves are discarded when the other side closes. -/
theorem c10_loss_bounded_partial (early : List UInt8) (h : early.length ≤ 12288) (srcUp : List Rx) (dstUp : List Tx)
    (srcDown : List Rx) (dstDown : List Tx) (es : List Event) (d : Side) :
    let s := run (proc early srcUp dstUp srcDown dstDown) es
    ∃ lost, lost.length ≤ 12288 ∧
      (s.dir d).out ++ lost ++ streamOf (s.dir d).src = streams early srcUp srcDown d ∧
      ((s.dir d).buf = [] → lost = []) := by
  have hi := reach_inv early h srcUp dstUp srcDown dstDown es
  exact ⟨_, hi.small d, hi.total d, id⟩

/-- Concrete case (`c07_relay_exact_partial`, `c07_relay_prefix_partial`, `c09_flush_before_close_partial`): three client bytes in two segments, the upstream takes one byte, blocks,
then takes the rest; the client ends. -/
example : (run (proc [9] [.data 1 [2], .again, .data 3 [], .fail] [.sent 1, .again, .sent 5, .sent 1] [] [])
    [.readable .up, .writable .up, .readable .up]).up.out = [9, 1, 2, 3] := by
  decide +kernel
example : (run (proc [9] [.data 1 [2], .again, .data 3 [], .fail] [.sent 1, .again, .sent 5, .sent 1] [] [])
    [.readable .up, .writable .up, .readable .up]).closed = some (.eof .up) := by
  decide +kernel
/-- A reachable open session satisfying the hypotheses of `c08_armed_partial` and `c08_delivery_partial` with one would-block answer left. -/
example : (run (proc [9] [.again, .again, .data 1 [2]] [.sent 1, .sent 1, .again, .sent 1, .sent 1] [] []) []).closed = none ∧
    canTake 3 (run (proc [9] [.again, .again, .data 1 [2]] [.sent 1, .sent 1, .again, .sent 1, .sent 1] [] []) []).up.dst ∧
    blocks (run (proc [9] [.again, .again, .data 1 [2]] [.sent 1, .sent 1, .again, .sent 1, .sent 1] [] []) []).up = 1 := by
  refine ⟨by decide +kernel, ?_, by decide +kernel⟩
  have e : (run (proc [9] [.again, .again, .data 1 [2]] [.sent 1, .sent 1, .again, .sent 1, .sent 1] [] []) []).up.dst =
      [.sent 1, .again, .sent 1, .sent 1] := by decide +kernel
  rw [e]; simp [canTake]

end Verif.Tunnel
