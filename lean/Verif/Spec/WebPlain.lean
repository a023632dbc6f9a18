import Verif.Model.WebPlain
import Verif.Spec.WebConn
/-
What a connection of the web server without TLS is measured against: a client that sends the head of a request in one piece, and waits for the response before it sends the
next request. What it asks for and what it reads are in `Spec/WebConn` and `Spec/Response`.
-/
namespace Verif.Spec.WebPlain
open Verif Verif.WebPlain Verif.HttpSpec
open Verif.Spec.WebConn (Ask)

/-- `epoll` reports only what is in the interest. -/
def Reportable (c : C) : Ev → Prop
  | .r => match c.ph with
    | .rsp w _ => w.t.opt.r = true
    | _ => c.t.opt.r = true
  | .w => match c.ph with
    | .rsp w _ => w.t.opt.w = true
    | _ => c.t.opt.w = true
  | _ => True

/-- The events can happen one after the other. -/
def Possible (k : Nat) (home index : List UInt8) (E : Nat → WebConn.Env) (c : C) : List Ev → Prop
  | [] => True
  | e :: es => Reportable c e ∧ ∀ c', step k home index E c e = some c' → Possible k home index E c' es

/-- The bytes of pieces. -/
def bytes (ps : List (UInt8 × List UInt8)) : List UInt8 := ps.flatMap fun x => x.1 :: x.2

/-- A request in pieces: the whole head, of at most 4096 bytes, is in the first one; the body may be cut anywhere. -/
def Pieces (a : Ask) (ps : List (UInt8 × List UInt8)) : Prop :=
  a.head.bytes.length ≤ 4096 ∧ bytes ps = a.head.bytes ++ a.body ∧ ∃ r t, ps = r :: t ∧ a.head.bytes <+: r.1 :: r.2

/-- Requests and their pieces. -/
def AllPieces : List Ask → List (List (UInt8 × List UInt8)) → Prop
  | [], [] => True
  | a :: as, p :: ps => Pieces a p ∧ AllPieces as ps
  | _, _ => False

/-- All pieces of the requests from number `m` on, each with the number of the request. -/
def script : Nat → List (List (UInt8 × List UInt8)) → List ((UInt8 × List UInt8) × Nat)
  | _, [] => []
  | m, ps :: rest => ps.map (·, m) ++ script (m + 1) rest

/-- A client that has read `m` complete responses at least. -/
def HasRead (m : Nat) (got : List UInt8) : Prop := (WebConn.readAll m got).1.length = m

instance (m : Nat) (got : List UInt8) : Decidable (HasRead m got) := inferInstanceAs (Decidable (_ = _))

/-- A history in which the client keeps to the script: it sends the pieces in order, those of request `m` only when it has read `m` complete responses, and ends its direction only
when it has sent all. `none` for other histories; the result is the rest of the script and the connection. -/
def play (k : Nat) (home index : List UInt8) (E : Nat → WebConn.Env) : List ((UInt8 × List UInt8) × Nat) → C → List Ev → Option (List ((UInt8 × List UInt8) × Nat) × C)
  | s, c, [] => some (s, c)
  | s, c, e :: es =>
    match step k home index E c e with
    | none => none
    | some c' =>
      match e, s with
      | .arrive b bs, ((b', bs'), m) :: s' => if b = b' ∧ bs = bs' ∧ HasRead m (sent c) then play k home index E s' c' es else none
      | .arrive _ _, [] => none
      | .close, _ :: _ => none
      | _, s => play k home index E s c' es

/-- A connection on which a response of `n` bytes of content can be sent at once: memory is there, every `read` yields something, and every send call takes what it is given. -/
def Takes (e : WebConn.Env) (n : Nat) : Prop := WebConn.Able e n ∧ WebSend.waits e.dst = 0

end Verif.Spec.WebPlain
