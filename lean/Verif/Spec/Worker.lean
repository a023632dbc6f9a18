import Verif.Model.Worker
/-
Sessions that have nothing to do with each other: each is a session of `Verif.Tunnel` of its own, with buffers of its own.
-/
namespace Verif.Worker.Spec
open Verif Verif.Net Verif.Tunnel

/-- What an action and its visible outcome mean for the list of sessions: a session that starts is added; an event concerns its session only; what the rest of the
program does concerns none. -/
def step (l : List Sess) : Act × Out → List Sess
  | (.start early srcUp dstUp srcDown dstDown, .started) => l ++ [Tunnel.proc early srcUp dstUp srcDown dstDown]
  | (.event k e, _) =>
    match l[k]? with
    | none => l
    | some s => l.set k (Tunnel.step s e)
  | _ => l

/-- What can be seen of a session from outside: what was sent to the target, what was sent to the client, and whether and why it ended. -/
def seen (s : Sess) : List UInt8 × List UInt8 × Option Why := (s.up.out, s.down.out, s.closed)

/-- What a session starts with: bytes received before, and what its four sockets will answer. -/
structure Env where
  early : List UInt8
  srcUp : List Rx
  dstUp : List Tx
  srcDown : List Rx
  dstDown : List Tx
deriving Repr, DecidableEq

/-- The sessions that were started, in order. -/
def starts : List (Act × Out) → List Env
  | [] => []
  | (.start early srcUp dstUp srcDown dstDown, .started) :: h => ⟨early, srcUp, dstUp, srcDown, dstDown⟩ :: starts h
  | _ :: h => starts h

/-- The events of session `k` since it was started; `n` sessions were started before. -/
def eventsOf (k : Nat) : Nat → List (Act × Out) → List Event
  | _, [] => []
  | n, (.start .., .started) :: h => eventsOf k (n + 1) h
  | n, (.event j e, _) :: h => if j = k ∧ k < n then e :: eventsOf k n h else eventsOf k n h
  | n, _ :: h => eventsOf k n h

end Verif.Worker.Spec
