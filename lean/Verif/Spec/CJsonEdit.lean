import Verif.Model.CJsonMem
/-
The children of an item as a list of addresses, linked in both directions. Used by C120.
-/
namespace Verif.CJsonMem

variable {V : Type}

/-- The first one of `l`, or else `d`. -/
def headOr (l : List Nat) (d : Option Nat) : Option Nat :=
  match l with
  | [] => d
  | b :: _ => some b

/-- The items `l` are linked one after the other; the first one points back to `pv` and the last one on to `nx`. -/
def Run (h : H V) (pv : Option Nat) : List Nat → Option Nat → Prop
  | [], _ => True
  | a :: l, nx => (∃ it, h.cells a = some (.item it) ∧ it.prev = pv ∧ it.next = headOr l nx) ∧ Run h (some a) l nx

/-- The children of the item `p` are `cs`: each points to the next and to the one before; the first one points back to the last. -/
def Ring (h : H V) (p : Nat) (cs : List Nat) : Prop :=
  (p :: cs).Nodup ∧ (∃ par, h.cells p = some (.item par) ∧ par.child = cs.head?) ∧ Run h cs.getLast? cs none

/-- From `h` to `h'` at most the links of the items `A`, and which one is the first child of `p`, have changed. -/
def Relinked (p : Nat) (A : List Nat) (h h' : H V) : Prop :=
  h'.used = h.used ∧ (∀ a, a ≠ p → a ∉ A → h'.cells a = h.cells a) ∧
  (∀ a it, h.cells a = some (.item it) → ∃ n q c, h'.cells a = some (.item { it with next := n, prev := q, child := c }) ∧ (a ≠ p → c = it.child))

/-- One edit of the children of an item: put the item `a` behind the last one, put it before the one with the number `i` (or behind the last one), take out the one with the number `i`. -/
inductive Edit where
  | append (a : Nat)
  | insert (i a : Nat)
  | remove (i : Nat)

/-- What an edit does to the list of children and to the items that are in no list. -/
def Edit.on : Edit → List Nat × List Nat → List Nat × List Nat
  | .append a, (cs, loose) => (cs ++ [a], loose.erase a)
  | .insert i a, (cs, loose) => (cs.take i ++ a :: cs.drop i, loose.erase a)
  | .remove i, (cs, loose) =>
    match cs[i]? with
    | none => (cs, loose)
    | some x => (cs.eraseIdx i, x :: loose)

/-- Only an item that is in no list is put in. -/
def Edit.fair : Edit → List Nat × List Nat → Prop
  | .append a, s => a ∈ s.2
  | .insert _ a, s => a ∈ s.2
  | .remove _, _ => True

/-- Each edit of a series is fair when its turn comes. -/
def fairAll : List Edit → List Nat × List Nat → Prop
  | [], _ => True
  | e :: es, s => e.fair s ∧ fairAll es (e.on s)

/-- The items `loose` are there, each named once, in no list, neither `p` nor one of its children `cs`. -/
def Loose (h : H V) (p : Nat) (cs loose : List Nat) : Prop :=
  loose.Nodup ∧ ∀ a ∈ loose, a ∉ p :: cs ∧ ∃ it, h.cells a = some (.item it) ∧ it.next = none

end Verif.CJsonMem
