import Verif.Spec.Timer
/-
Vocabulary for C112.
-/
namespace Verif.Timer

/-- Delays are at most `D`. -/
def Act.within (D : Int) : Act → Prop
  | .add _ d => 0 ≤ d ∧ d ≤ D
  | .del _ => True

/-- A worker's loop: the clock does not go back, the timers are looked at (`expire`) again at the latest `g` after they were, and delays are at most `D`. `last` is the time of the
former look, `now` the clock. -/
def Timely (D g : Int) (last now : Int) : List Op → Prop
  | [] => True
  | .act a :: ops => a.within D ∧ Timely D g last now ops
  | .clock n :: ops => now ≤ n ∧ n ≤ last + g ∧ Timely D g last n ops
  | .expire cbs :: ops => (∀ a ∈ cbs.flatten, a.within D) ∧ Timely D g now now ops

/-- A trace in which every callback runs at most `K` after the deadline of its timer. -/
def NotLater (K : Int) (a : Armed) : List Ev → Prop
  | [] => True
  | e :: es => (match e with | .fire t now => ∃ d, a t = some d ∧ now ≤ d + K | _ => True) ∧ NotLater K (after a e) es

/-- Time of the last look at the timers and the clock, after a history. -/
def lastOf (last now : Int) : List Op → Int × Int
  | [] => (last, now)
  | .act _ :: ops => lastOf last now ops
  | .clock n :: ops => lastOf last n ops
  | .expire _ :: ops => lastOf now now ops

end Verif.Timer
