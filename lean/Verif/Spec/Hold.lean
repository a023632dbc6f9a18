import Verif.Model.Hold
/-
Vocabulary for C109: histories in which the timers are looked at in time, and calls that find nothing.
-/
namespace Verif.Spec.Hold
open Verif.Hold

/-- The timers are looked at in time: a handler of a session whose timer is due at `d` is called before `d + late` at the latest (the loop looks at the timers before
every wait, so `late` is the time one round of events takes). -/
def Prompt (e : Env) (late : Nat) : X → List (Nat × Ev) → Prop
  | _, [] => True
  | x, v :: es => (v.2 ≠ .pass → ∀ d, x.timer = some d → v.1 < d + late) ∧ Prompt e late (step e x v) es

/-- Whether the timers are looked at in time can be decided. -/
def promptDec (e : Env) (late : Nat) : (x : X) → (es : List (Nat × Ev)) → Decidable (Prompt e late x es)
  | _, [] => .isTrue trivial
  | x, v :: es =>
    have : Decidable (∀ d, x.timer = some d → v.1 < d + late) :=
      match x.timer with
      | none => .isTrue (by simp)
      | some d => decidable_of_iff (v.1 < d + late) (by simp)
    have := promptDec e late (step e x v) es
    inferInstanceAs (Decidable (_ ∧ _))

instance (e : Env) (late : Nat) (x : X) (es : List (Nat × Ev)) : Decidable (Prompt e late x es) := promptDec e late x es

/-- Calls of the session's handlers that find nothing to do: the session waits for the same thing with the same bytes as before. -/
def idle (e : Env) : X → List (Nat × Ev) → Nat
  | _, [] => 0
  | x, v :: es => (if v.2 ≠ .pass ∧ (step e x v).s = x.s ∧ (step e x v).sub = x.sub then 1 else 0) + idle e (step e x v) es

/-- A peer that is heard of at the given times, without sending anything that can be used: before each of them the timers are looked at. -/
def trickle (ts : List Nat) : List (Nat × Ev) := ts.flatMap fun t => [(t, .pass), (t, .call [])]

/-- Each time is less than `d` after the one before it. -/
def Closer (d : Nat) : Nat → List Nat → Prop
  | _, [] => True
  | t, t' :: ts => t' < t + d ∧ Closer d t' ts

end Verif.Spec.Hold
