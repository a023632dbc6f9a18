import Verif.Model.Timer
/-
Timers seen from outside: each timer has a deadline or none.
-/
namespace Verif.Timer

/-- The deadlines currently armed. -/
abbrev Armed := Nat → Option Int

/-- Effect of an event on the armed deadlines. -/
def after (a : Armed) : Ev → Armed
  | .arm t d => fun x => if x = t then some d else a x
  | .cancel t => fun x => if x = t then none else a x
  | .fire t _ => fun x => if x = t then none else a x

/-- A trace in which a callback runs only for a timer that is armed with a deadline that has been reached. A callback disarms, so a
second run needs a new arming. -/
def Sound (a : Armed) : List Ev → Prop
  | [] => True
  | e :: es => (match e with | .fire t now => ∃ d, a t = some d ∧ d ≤ now | _ => True) ∧ Sound (after a e) es

/-- The earliest armed deadline belongs to `t` alone. -/
def Earliest (a : Armed) (t : Nat) : Prop := ∀ d, a t = some d → ∀ x d', x ≠ t → a x = some d' → d < d'

/-- A trace in which no armed timer is cancelled or re-armed, except one that is due before all others. -/
def Calm (a : Armed) : List Ev → Prop
  | [] => True
  | e :: es => (match e with | .fire _ _ => True | .arm t _ => Earliest a t | .cancel t => Earliest a t) ∧ Calm (after a e) es

/-- Timers an action names. -/
def Act.timer : Act → Nat
  | .add t _ => t
  | .del t => t

/-- All timers named by an operation. -/
def Op.timers : Op → List Nat
  | .act a => [a.timer]
  | .clock _ => []
  | .expire cbs => cbs.flatten.map Act.timer

end Verif.Timer
