import Verif.Model.Conns
import Verif.Spec.Timer
/-
What a history of connections and timers must look like.
-/
namespace Verif.Conns

/-- Which timers exist, and which are armed for when. -/
structure World where
  live : Nat → Prop
  armed : Nat → Option Int

/-- Nothing exists. -/
def World.empty : World := ⟨fun _ => False, fun _ => none⟩

/-- Effect of an event. A new timer is not armed; one that is gone is not either. -/
def World.next (w : World) : Ev → World
  | .opened t => ⟨fun x => x = t ∨ w.live x, fun x => if x = t then none else w.armed x⟩
  | .freed t => ⟨fun x => x ≠ t ∧ w.live x, fun x => if x = t then none else w.armed x⟩
  | .tm e => ⟨w.live, Timer.after w.armed e⟩
  | .refused _ => w

/-- The events that may happen: a timer comes into being once, is gone once, is touched only while it exists, fires only when it is
armed and due, and arming is never refused. -/
def World.ok (w : World) : Ev → Prop
  | .opened t => ¬ w.live t
  | .freed t => w.live t ∧ w.armed t = none
  | .tm (.arm t _) => w.live t
  | .tm (.cancel t) => w.live t
  | .tm (.fire t now) => w.live t ∧ ∃ d, w.armed t = some d ∧ d ≤ now
  | .refused _ => False

/-- Every event of a history is one that may happen, and at no time do more than `n` timers exist. -/
def World.Good (n : Nat) (w : World) : List Ev → Prop
  | [] => True
  | e :: es => w.ok e ∧ (∀ l : List Nat, l.Nodup → (∀ t ∈ l, (w.next e).live t) → l.length ≤ n) ∧ (w.next e).Good n es

/-- Sizes requested by code. -/
def Act.fits : Act → Prop
  | .other n => 0 < n ∧ n ≤ 512
  | _ => True

/-- All requests in a step are for small blocks. -/
def Op.fits : Op → Prop
  | .act a => a.fits
  | .clock _ => True
  | .expire cbs => ∀ a ∈ cbs.flatten, a.fits

end Verif.Conns
