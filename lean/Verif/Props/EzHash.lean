import Verif.Proofs.EzHash
/-
Property C25: the hash table is a first-write-wins map.
-/
namespace Verif.EzHash

variable {V : Type}

/-- C25. For every hash function, every table size and every history that does not abort, a lookup returns `v` exactly if some
insertion of exactly that key with value `v` found the key absent (and got memory) and no later operation removed it. -/
theorem c25_lookup (hf : Key → UInt32) {n : Nat} (hn : 0 < n) {ops : List (Op Key V)} {t : Tab V}
    (h : run hf (create V n) ops = some t) (k : Key) (v : V) :
    find hf t k = some v ↔
      ∃ pre post, ops = pre ++ Op.put k v true true true :: post ∧ valueOf k none pre = none ∧
        ∀ op ∈ post, Spares k v op := by
  have := (run_find ops (create_uniq n hn) h).2 k
  rw [this]
  exact valueOf_some k v ops

/-- Case: all keys collide; the first value of a key that is there stays. -/
example : (run (V := Nat) (fun _ => 5) (create Nat 3) [.put [1] 10 true true true, .put [2] 20 true true true, .put [1] 11 true true true]).map
    (fun t => find (fun _ => 5) t [1]) = some (some 10) := by decide +kernel

/-- C25, absence: a lookup finds nothing exactly if the map of the history has no value for the key. -/
theorem c25_refines (hf : Key → UInt32) {n : Nat} (hn : 0 < n) {ops : List (Op Key V)} {t : Tab V}
    (h : run hf (create V n) ops = some t) (k : Key) : find hf t k = valueOf k none ops :=
  (run_find ops (create_uniq n hn) h).2 k

/-- Case: a key that is removed and put in again. -/
example : (run (V := Nat) fnv1a (create Nat 279) [.put [1] 10 true true true, .rem [1], .put [1] 11 true true true]).map
    (fun t => find fnv1a t [1]) = some (some 11) ∧
    valueOf [1] none [.put [1] 10 true true true, .rem [1], .put [1] 11 true true true] = some 11 := by decide +kernel

/-- C25, collisions do not interfere: the results do not depend on the hash function or the table size. -/
theorem c25_collisions (hf hf' : Key → UInt32) {n n' : Nat} (hn : 0 < n) (hn' : 0 < n') {ops : List (Op Key V)} {t t' : Tab V}
    (h : run hf (create V n) ops = some t) (h' : run hf' (create V n') ops = some t') (k : Key) :
    find hf t k = find hf' t' k := by
  rw [c25_refines hf hn h, c25_refines hf' hn' h']

/-- Case: one bucket and a constant hash against 279 buckets and FNV-1a. -/
example : let ops : List (Op Key Nat) := [.put [1] 10 true true true, .put [2] 20 true true true, .rem [1]]
    (run (fun _ => 5) (create Nat 1) ops).map (fun t => (find (fun _ => 5) t [1], find (fun _ => 5) t [2])) = some (none, some 20) ∧
    (run fnv1a (create Nat 279) ops).map (fun t => (find fnv1a t [1], find fnv1a t [2])) = some (none, some 20) := by decide +kernel

/-- C25, deletion: right after a deletion the key is absent, and every other key is unchanged. -/
theorem c25_delete (hf : Key → UInt32) {n : Nat} (hn : 0 < n) {ops : List (Op Key V)} {t : Tab V}
    (h : run hf (create V n) ops = some t) (k k' : Key) :
    find hf (del hf t k) k' = if k' = k then none else find hf t k' := by
  have u := (run_find ops (create_uniq n hn) h).1
  have := find_step u (show step hf t (.rem k) = some (del hf t k) from rfl) k'
  rw [this]
  simp only [valueOf]
  by_cases e : k = k'
  · simp [e]
  · simp [e, Ne.symm e]

/-- Case: deleting one of two keys in the same bucket. -/
example : (run (V := Nat) (fun _ => 5) (create Nat 1) [.put [1] 10 true true true, .put [2] 20 true true true]).map
    (fun t => (find (fun _ => 5) (del (fun _ => 5) t [1]) [1], find (fun _ => 5) (del (fun _ => 5) t [1]) [2])) = some (none, some 20) := by
  decide +kernel

theorem valueOf_empty_key (ops : List (Op Key V)) (hk : ∀ k v m1 m2 m3, Op.put k v m1 m2 m3 ∈ ops → k ≠ []) :
    valueOf ([] : Key) none ops = none := by
  cases h : valueOf ([] : Key) none ops with
  | none => rfl
  | some v =>
    obtain ⟨pre, post, rfl, -, -⟩ := (valueOf_some _ _ _).mp h
    exact absurd rfl (hk [] v true true true (by simp))

/-- A history aborts only by inserting the empty key: without such an insertion it always completes. -/
theorem c25_no_abort (hf : Key → UInt32) (ops : List (Op Key V))
    (hk : ∀ k v m1 m2 m3, Op.put k v m1 m2 m3 ∈ ops → k ≠ []) :
    ∀ t : Tab V, ∃ t', run hf t ops = some t' := by
  induction ops with
  | nil => intro t; exact ⟨t, rfl⟩
  | cons op r ih =>
    intro t
    have ih := ih (fun k v m1 m2 m3 h => hk k v m1 m2 m3 (List.mem_cons_of_mem _ h))
    simp only [run]
    cases op with
    | rem k => exact ih _
    | purge p => exact ih _
    | put k v m1 m2 m3 =>
      have := hk k v m1 m2 m3 (by simp)
      have hl : ¬ k.length = 0 := by
        intro h; exact this (List.length_eq_zero_iff.mp h)
      simp only [step, add]
      cases hfd : find hf t k with
      | some w => exact ih _
      | none =>
        cases m1 <;> cases m2 <;> cases m3 <;> simp only [hl, if_false, if_true, reduceCtorEq] <;> exact ih _

/-- Case: memory runs out at each of the three allocations. -/
example : (run (V := Nat) fnv1a (create Nat 279) [.put [1] 10 false true true, .put [2] 20 true false true, .put [3] 30 true true false,
    .put [4] 40 true true true]).map (fun t => [find fnv1a t [1], find fnv1a t [2], find fnv1a t [3], find fnv1a t [4]]) =
    some [none, none, none, some 40] := by decide +kernel

/-- Inserting the empty key into a table that has memory ends the program (src/common/mem.c:137). -/
theorem c25_empty_key_counterexample :
    run fnv1a (create Nat 279) [.put [] 7 true true true] = none := by
  decide +kernel

/-- Non-trivial case: one bucket, so all keys collide; first write wins, deletion removes only its key. -/
example :
    (run (V := Nat) (fun _ => 5) (create Nat 1)
      [.put [1] 10 true true true, .put [2] 20 true true true, .put [1] 11 true true true, .rem [2],
        .put [2] 21 true true true]).map (fun t => (find (fun _ => 5) t [1], find (fun _ => 5) t [2], find (fun _ => 5) t [3]))
      = some (some 10, some 21, none) := by
  decide +kernel

/-- The table used by the resolver cache has 279 buckets and the FNV-1a hash (`"a"` hashes to 0xe40c292c). -/
example : fnv1a [97] = 0xe40c292c := by decide +kernel

end Verif.EzHash
