/-
Specification for the hash table: a first-write-wins map, described by the history of operations.
-/
namespace Verif.EzHash

/-- Operations a user can perform. `put` carries the pool's behaviour for the three allocations of an insertion. -/
inductive Op (K V : Type) where
  | put (k : K) (v : V) (m1 m2 m3 : Bool)
  | rem (k : K)
  | purge (p : V → Bool)

/-- The value of a key after a history (latest operation last): an insertion counts if the key has no value yet and memory is
available; a deletion removes the value of its key; a purge removes the values satisfying the condition. -/
def valueOf {K V : Type} [DecidableEq K] (k : K) : Option V → List (Op K V) → Option V
  | cur, [] => cur
  | cur, .put k' v m1 m2 m3 :: r =>
    valueOf k (if k' = k ∧ cur = none ∧ m1 = true ∧ m2 = true ∧ m3 = true then some v else cur) r
  | cur, .rem k' :: r => valueOf k (if k' = k then none else cur) r
  | cur, .purge p :: r => valueOf k (match cur with | none => none | some v => if p v then none else some v) r

/-- The operation does not touch the key's entry: no deletion of the key and no purge that hits the value. -/
def Spares {K V : Type} (k : K) (v : V) : Op K V → Prop
  | .put _ _ _ _ _ => True
  | .rem k' => k' ≠ k
  | .purge p => p v = false

end Verif.EzHash
