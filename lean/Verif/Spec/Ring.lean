import Verif.Model.Ring
/-
What C42 says: a byte queue of bounded capacity.
-/
namespace Verif.Ring

/-- A FIFO of capacity `cap` holding `q`: what each call returns and holds afterwards. A full queue refuses every push, an empty one every pull. -/
def fifo (cap : Nat) (q : List UInt8) : Op → Seen × List UInt8
  | .push d => if q.length = cap ∨ q.length + d.length > cap then (.fail, q) else (.ok [], q ++ d)
  | .pull n => if q = [] then (.fail, q) else (.ok (q.take n), q.drop n)

/-- A sequence of calls on the FIFO. -/
def fifoRun (cap : Nat) (q : List UInt8) : List Op → List Seen
  | [] => []
  | o :: os => (fifo cap q o).1 :: fifoRun cap (fifo cap q o).2 os

/-- Bytes given to pushes in a history. -/
def pushed : List Op → Nat
  | [] => 0
  | .push d :: os => d.length + pushed os
  | .pull _ :: os => pushed os

end Verif.Ring
