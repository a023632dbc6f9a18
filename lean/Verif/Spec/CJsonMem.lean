import Verif.Model.CJsonMem
/-
What it means that a document lies in memory as linked items. Used by C110.
-/
namespace Verif.CJsonMem
open Verif.CJson

variable {V : Type}

/-- The name of an item, with the blocks it takes: none, or a string. -/
def Name (h : H V) (p : Option Nat) (nm : Option (List UInt8)) (S : List Nat) : Prop :=
  match nm with
  | none => p = none ∧ S = []
  | some s => ∃ a, p = some a ∧ h.cells a = some (.bytes s) ∧ S = [a]

/-- A value without parts, with the blocks it takes besides its item. -/
def Plain (h : H V) (it : Item V) (j : J V) (S : List Nat) : Prop :=
  match j with
  | .null => it.ty = .null ∧ it.vstr = none ∧ S = []
  | .bool b => it.ty = .bool b ∧ it.vstr = none ∧ S = []
  | .num v => it.ty = .num v ∧ it.vstr = none ∧ S = []
  | .str s => it.ty = .string ∧ ∃ a, it.vstr = some a ∧ h.cells a = some (.bytes s) ∧ S = [a]
  | .arr _ => False
  | .obj _ => False

/-- From `p` on, following `next` until `q`, lie the items with these names and values; `S` are all the blocks they take, each named as often as it is used. -/
inductive Seg (h : H V) : Option Nat → List (Option (List UInt8) × J V) → List Nat → Option Nat → Prop
  | nil (p : Option Nat) : Seg h p [] [] p
  | plain {p : Nat} {it : Item V} {nm : Option (List UInt8)} {j : J V} {Sn Sv : List Nat} {rest : List (Option (List UInt8) × J V)} {S : List Nat} {q : Option Nat} :
      h.cells p = some (.item it) → Name h it.str nm Sn → Plain h it j Sv → it.child = none → Seg h it.next rest S q →
      Seg h (some p) ((nm, j) :: rest) (p :: (Sn ++ Sv ++ S)) q
  | arr {p : Nat} {it : Item V} {nm : Option (List UInt8)} {xs : List (J V)} {Sn Sc : List Nat} {rest : List (Option (List UInt8) × J V)} {S : List Nat} {q : Option Nat} :
      h.cells p = some (.item it) → Name h it.str nm Sn → it.ty = .array → it.vstr = none → Seg h it.child (xs.map fun x => (none, x)) Sc none → Seg h it.next rest S q →
      Seg h (some p) ((nm, .arr xs) :: rest) (p :: (Sn ++ Sc ++ S)) q
  | obj {p : Nat} {it : Item V} {nm : Option (List UInt8)} {xs : List (List UInt8 × J V)} {Sn Sc : List Nat} {rest : List (Option (List UInt8) × J V)} {S : List Nat}
      {q : Option Nat} :
      h.cells p = some (.item it) → Name h it.str nm Sn → it.ty = .object → it.vstr = none → Seg h it.child (xs.map fun x => (some x.1, x.2)) Sc none → Seg h it.next rest S q →
      Seg h (some p) ((nm, .obj xs) :: rest) (p :: (Sn ++ Sc ++ S)) q

/-- The document `j` lies at `p` and takes the blocks `S`, each once. -/
def Doc (h : H V) (p : Nat) (j : J V) (S : List Nat) : Prop := Seg h (some p) [(none, j)] S none ∧ S.Nodup

/-- The value `j` lies at `p`. -/
def Holds (h : H V) (p : Nat) (j : J V) : Prop := ∃ it nm S, h.cells p = some (.item it) ∧ Seg h (some p) [(nm, j)] S it.next

/-- Nothing was handed out beyond the number of allocations. -/
def Fresh (h : H V) : Prop := ∀ a, h.used ≤ a → h.cells a = none

end Verif.CJsonMem
