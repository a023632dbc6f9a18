import Verif.Model.Tunnel
import Verif.Spec.Stream
/-
Vocabulary for stating delivery of the relay: how often a socket says would-block, and when it can take everything.
-/
namespace Verif.Tunnel
open Verif Verif.Net

/-- The stream each side should hand over: what the client sent (on the tunnel client possibly partly buffered before the relay
started), and what the upstream sent. -/
def streams (early : List UInt8) (srcUp srcDown : List Rx) : Side → List UInt8
  | .up => early ++ streamOf srcUp
  | .down => streamOf srcDown

/-- How many more would-block answers the two sockets of a direction will give. -/
def blocks (d : Dir) : Nat := d.src.count .again + d.dst.count .again

/-- The destination never fails, and its accepting answers (each taking at least one byte) are at least `n`. -/
def canTake (n : Nat) (dst : List Tx) : Prop :=
  (∀ x ∈ dst, x = .again ∨ ∃ m, 0 < m ∧ x = .sent m) ∧ n ≤ (dst.filter (· != .again)).length

/-- `k` rounds in which the event loop reports a side writable and then readable. -/
def rounds (side : Side) : Nat → List Event
  | 0 => []
  | k + 1 => .writable side :: .readable side :: rounds side k

end Verif.Tunnel
