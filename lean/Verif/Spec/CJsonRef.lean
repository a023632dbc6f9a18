import Verif.Model.CJsonRef
/-
What a document with references and constant names owns. Used by C125.
-/
namespace Verif.CJsonMem

variable {V : Type}

/-- What a pointer to a string that may be NULL owns. -/
def OwnStr (h : H V) : Option Nat → List Nat → Prop
  | none, S => S = []
  | some a, S => S = [a] ∧ (h.cells a).isSome = true

/-- The blocks `S` are what a list of items owns: each item its own block, its name unless that is a constant, and its value and children unless it is a reference. -/
inductive Owns (b : Bits) (h : H V) : Option Nat → List Nat → Prop
  | nil : Owns b h none []
  | item {p : Nat} {it : Item V} {Sn Sv Sc S : List Nat} : h.cells p = some (.item it) → b.ref p = false → OwnStr h (if b.const p then none else it.str) Sn → OwnStr h it.vstr Sv →
      Owns b h it.child Sc → Owns b h it.next S → Owns b h (some p) (p :: (Sn ++ Sv ++ Sc ++ S))
  | ref {p : Nat} {it : Item V} {Sn S : List Nat} : h.cells p = some (.item it) → b.ref p = true → OwnStr h (if b.const p then none else it.str) Sn → Owns b h it.next S →
      Owns b h (some p) (p :: (Sn ++ S))

end Verif.CJsonMem
