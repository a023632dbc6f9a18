import Verif.Model.Event
/-
Specification of event delivery: the sequence of (event, direction) pairs the kernel reported.
-/
namespace Verif.Event

/-- The reported pairs in order, reading before writing. -/
def expand : List (Nat × Bool × Bool) → List (Nat × Dir)
  | [] => []
  | (id, r, w) :: t => (if r then [(id, .r)] else []) ++ ((if w then [(id, .w)] else []) ++ expand t)

/-- The pairs of the handler calls in order. -/
def called (cs : List Call) : List (Nat × Dir) := cs.map fun c => (c.id, c.dir)

end Verif.Event
