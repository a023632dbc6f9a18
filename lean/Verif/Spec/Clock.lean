import Verif.Spec.Timer
/-
Timers against real time.
-/
namespace Verif.Timer

/-- A trace, labelled with real times, in which every callback belongs to an armed timer and runs when `deadline ≤ clock ≤ deadline + late`,
for a clock that is `off` ahead of real time. -/
def OnTime (off late : Int) (a : Armed) : List (Int × Ev) → Prop
  | [] => True
  | (p, e) :: es => (match e with | .fire t _ => ∃ d, a t = some d ∧ d ≤ p + off ∧ p + off ≤ d + late | _ => True) ∧
      OnTime off late (after a e) es

/-- The delays given when arming. -/
def Act.delayOk (x : Act) : Prop := match x with | .add _ d => 0 ≤ d ∧ d < 2147483648 | .del _ => True

end Verif.Timer
