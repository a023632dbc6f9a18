/-
The checks made of every state in the two sets of session states.
-/
import Verif.Proofs.SessionStates

namespace Verif.Session

theorem Tree.all_node {p : Nat → Bool} {l r : Tree} {k : Nat} (hl : l.all p = true) (hk : p k = true) (hr : r.all p = true) :
    (Tree.node l k r).all p = true := by
  simp only [Tree.all, hl, hk, hr, Bool.and_self]

/-- How much is left to do: two for a connection in use, one for a connection that is only being shut down. -/
def conRank (c : Con) : Nat :=
  if c.life = .live then (if c.r = some .shutdownCb ∨ c.w = some .shutdownCb then 1 else 2) else 0

def rank (w : W) : Nat := conRank w.down + conRank w.up + conRank w.dcon

theorem rank_le (w : W) : rank w ≤ 6 := by
  have h : ∀ c, conRank c ≤ 2 := by
    intro c
    unfold conRank
    split
    · split <;> omega
    · omega
  have := h w.down; have := h w.up; have := h w.dcon
  unfold rank; omega

/-- Waiting states with something allocated have a timer. -/
def okTimer (n : Nat) : Bool :=
  (wOf n).call.isSome ||
    (let w := wOf n
     !(w.down.life = .live ∨ w.up.life = .live ∨ w.dcon.life = .live ∨ w.ses = .live ∨ w.adata = .live ∨ w.dns = .live) ||
     ids.any fun i => (w.con i).life = .live ∧ (w.con i).tm.isSome)

/-- The expiry of a timer brings the end nearer. -/
def okExpiry (n : Nat) : Bool :=
  (wOf n).call.isSome || ids.all fun i => ((wOf n).con i).tm.isNone ||
    match step (wOf n) (.timer i) with
    | .ok w1 => outs.all fun o => sds.all fun sd => decide (Unlucky w1 (.out o sd)) ||
      match step w1 (.out o sd) with
      | .ok w2 => w2.call.isNone && (rank w2).blt (rank (wOf n))
      | .error _ => false
    | .error _ => false

instance (w : W) (e : Ev) : Decidable (ConnectFails w e) := by
  unfold ConnectFails
  split <;> infer_instance

/-- No descriptor is closed twice unless `connect` fails at once. -/
def okOnce (n : Nat) : Bool :=
  (wOf n).twice || (evs (wOf n)).all fun e => decide (ConnectFails (wOf n) e) ||
    match step (wOf n) e with
    | .ok w => !w.twice
    | .error _ => true

end Verif.Session
