import Verif.Model.WebHold
import Verif.Spec.WebConn
/-
Vocabulary for C111.
-/
namespace Verif.Spec.WebHold
open Verif Verif.WebConn Verif.WebHold

/-- The timers are looked at in time: no event of a connection whose timer is due at `d` is handled at `d + late` or later. -/
def Prompt (k : Nat) (home index : List UInt8) (E : Nat → Env) (late : Nat) : X → List (Nat × Act) → Prop
  | _, [] => True
  | x, v :: vs => (v.2 = .r ∨ v.2 = .w → ∀ d, x.timer = some d → v.1 < d + late) ∧ ∀ x', act k home index E x v = some x' → Prompt k home index E late x' vs

/-- `epoll` reports only what is in the interest (`Spec/WebConn`). -/
def Reports (x : X) : Act → Prop
  | .r => Spec.WebConn.Reportable x.c .r
  | .w => Spec.WebConn.Reportable x.c .w
  | _ => True

/-- The events can happen one after the other. -/
def Can (k : Nat) (home index : List UInt8) (E : Nat → Env) : X → List (Nat × Act) → Prop
  | _, [] => True
  | x, v :: vs => Reports x v.2 ∧ ∀ x', act k home index E x v = some x' → Can k home index E x' vs

/-- What the connection has come to: the number of the request, and in it: the request line, the fields, the body, the response; with the bytes of the head or of the body that are
there, or those of the response that were sent. -/
def mark (c : C) : Nat × Nat × Nat :=
  match c.ph with
  | .req .line => (c.i, 0, 0)
  | .req (.hdrs _ buf _) => (c.i, 1, buf.length)
  | .req (.pay _ _ _ got) => (c.i, 2, got.length)
  | .rsp w _ => (c.i, 3, w.out.length)
  | .gone _ => (c.i, 4, 0)

/-- The number of events that start the timer anew and change nothing of that. -/
def idle (k : Nat) (home index : List UInt8) (E : Nat → Env) : X → List (Nat × Act) → Nat
  | _, [] => 0
  | x, v :: vs =>
    match act k home index E x v with
    | none => 0
    | some x' => (if x'.timer ≠ x.timer ∧ mark x'.c = mark x.c then 1 else 0) + idle k home index E x' vs

/-- Request `i` is being read. -/
def Reading (i : Nat) (c : C) : Prop := c.i = i ∧ ∃ ps, c.ph = .req ps

/-- The response to request `i` is being sent. -/
def Sending (i : Nat) (c : C) : Prop := c.i = i ∧ ∃ w keep, c.ph = .rsp w keep

/-- A peer that is heard of at the given times, without sending anything that can be used; the timers are looked at before each of them. -/
def trickle (ts : List Nat) : List (Nat × Act) := ts.flatMap fun t => [(t, .pass), (t, .r)]

/-- Each time is less than `d` after the one before it. -/
def Closer (d : Nat) : Nat → List Nat → Prop
  | _, [] => True
  | t, t' :: ts => t' < t + d ∧ Closer d t' ts

/-- What can happen: `epoll` reports only what is in the interest; the timers can always be looked at. -/
def Reported (y : Y) : ActW → Prop
  | .r => y.w.t.opt.r = true
  | .w => y.w.t.opt.w = true
  | .pass => True

/-- The events can happen one after the other. -/
def PossibleW (y : Y) : List (Nat × ActW) → Prop
  | [] => True
  | v :: vs => Reported y v.2 ∧ ∀ y', actW y v = some y' → PossibleW y' vs

end Verif.Spec.WebHold
