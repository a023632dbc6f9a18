import Verif.Model.Path
/-
What a local program does that speaks SOCKS5 and waits for the answers, and what is observed of the path. Used by C91.
-/
namespace Verif.Path
open Verif

/-- What the program writes, and how many bytes it must have received before it writes each piece: the greeting at once, the request after the answer
to the greeting (two bytes), its data after the answer to the request (ten bytes more). -/
def script (G R D : List (List UInt8)) : List (List UInt8 × Nat) :=
  G.map (·, 0) ++ R.map (·, 2) ++ D.map (·, 12)

/-- A history in which the program keeps to the script `c`; everything else, failures included, happens in any order. `none` for other histories; the
result is the rest of the script and the state. -/
def play (key : List UInt8) (admit : List UInt8 → Bool) : List (List UInt8 × Nat) → St → List Ev → Option (List (List UInt8 × Nat) × St)
  | c, s, [] => some (c, s)
  | c, s, .send r :: es =>
    match c with
    | [] => none
    | (r', k) :: c' => if r = r' ∧ k ≤ s.got.length then play key admit c' (step key admit s (.send r)) es else none
  | c, s, e :: es => play key admit c (step key admit s e) es

/-- What the destination has written in a history. -/
def offered : List Ev → List UInt8
  | [] => []
  | .dest r :: es => r ++ offered es
  | _ :: es => offered es

/-- Failures. -/
def Ev.failure : Ev → Bool
  | .cfail => true
  | .sfail => true
  | .refused => true
  | _ => false

/-- What the program and the destination do; everything else is up to the two hosts and the network. -/
def Ev.outside : Ev → Bool
  | .send _ => true
  | .dest _ => true
  | _ => false

/-- Nothing can happen without the program, the destination or a failure. -/
def Quiet (key : List UInt8) (admit : List UInt8 → Bool) (s : St) : Prop :=
  ∀ e : Ev, e.outside = false → e.failure = false → step key admit s e = s

end Verif.Path
