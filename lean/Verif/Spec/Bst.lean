import Verif.Model.Bst
/-
What the search tree is for: a bag of numbers.
-/
namespace Verif.Bst.Spec
open Verif.Bst (Op Reply)

/-- A bag: how often each number is in. -/
abbrev Bag := Int → Nat

/-- The bag after a call and the reply. -/
def step (b : Bag) : Op → Bag × Reply
  | .add k mem => if mem then (fun x => if x = k then b x + 1 else b x, .ret 0) else (b, .ret (-1))
  | .find k => (b, if b k = 0 then .null else .node k)
  | .del k => if b k = 0 then (b, .ret (-1)) else (fun x => if x = k then b x - 1 else b x, .ret 0)

/-- The bag after a sequence of calls and all replies. -/
def run (b : Bag) : List Op → Bag × List Reply
  | [] => (b, [])
  | o :: os => ((run (step b o).1 os).1, (step b o).2 :: (run (step b o).1 os).2)

/-- The key of a call. -/
def key : Op → Int
  | .add k _ => k
  | .find k => k
  | .del k => k

end Verif.Bst.Spec
