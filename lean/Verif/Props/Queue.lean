import Verif.Proofs.Queue
/-
Property C18: the intrusive queue behaves like a sequence.
-/
namespace Verif.Queue

/-- C18. Any sequence of legal operations, on any number of queues sharing one heap, never dereferences NULL and leaves
the heap holding exactly the sequences the operations mean; queues that are not named in an operation keep their content. -/
theorem c18_refines {hp : Heap} {w : Queues} (H : Holds hp w) (ops : List Op) (L : LegalRun w ops) :
    ∃ hp', heapRun hp ops = some hp' ∧ Holds hp' (ops.foldl specStep w) := run_refines H ops L

/-- C18, starting from any heap with no queue in it. -/
theorem c18_from_scratch (hp : Heap) (ops : List Op) (L : LegalRun [] ops) :
    ∃ hp', heapRun hp ops = some hp' ∧ Holds hp' (ops.foldl specStep []) := run_refines (holds_nil hp) ops L

/-- C18. What the observers report: emptiness, the first node (the sentinel when empty), the last node, and the nodes met
when iterating from head to sentinel. -/
theorem c18_observers {hp : Heap} {w : Queues} (H : Holds hp w) {h : Nat} {xs : List Nat} (hw : (h, xs) ∈ w) :
    (isEmpty hp h = true ↔ xs = []) ∧
    next hp h = some (xs.head?.getD h) ∧
    prev hp h = some (xs.getLast?.getD h) ∧
    ∀ k, xs.length < k → walk hp h k (next hp h) = some xs := by
  have hs := H.seg _ hw
  have hnd : h ∉ xs := by
    obtain ⟨w1, w2, rfl⟩ := List.append_of_mem hw
    have := (nodup_parts H.nodup).1
    simp at this; exact this.1
  dsimp only at hs
  have hl := seg_last hs
  refine ⟨?_, ?_, ?_, fun k hk => walk_seg xs h hs hnd k hk⟩
  · unfold isEmpty
    rw [hl, beq_iff_eq, Option.some_inj]
    constructor
    · intro he
      rcases List.eq_nil_or_concat xs with rfl | ⟨ys, y, rfl⟩
      · rfl
      · simp at he hnd; exact absurd he.symm hnd.2
    · rintro rfl; rfl
  · rw [next, seg_first hs]; cases xs <;> simp
  · rw [prev, hl]; simp

/-- C18. `next` and `prev` of a node are its neighbours in the sequence, the sentinel at either end. -/
theorem c18_neighbours {hp : Heap} {w : Queues} (H : Holds hp w) {h q : Nat} {as bs : List Nat}
    (hw : (h, as ++ q :: bs) ∈ w) :
    next hp q = some (bs.head?.getD h) ∧ prev hp q = some (as.getLast?.getD h) := by
  have hs := H.seg _ hw
  dsimp only at hs
  rw [seg_append] at hs
  refine ⟨?_, ?_⟩
  · rw [next, seg_first hs.2]; cases bs <;> simp
  · rw [prev, seg_last hs.1]; simp

/-- C18. A removed node is detached, and removing it again changes nothing at all. -/
theorem c18_remove_twice {hp : Heap} {w : Queues} (H : Holds hp w) {h q : Nat} {xs : List Nat} (hw : (h, xs) ∈ w)
    (hq : q ∈ xs) : remove hp q q = ⟨none, none⟩ ∧ remove (remove hp q) q = remove hp q := by
  obtain ⟨w1, w2, rfl⟩ := List.append_of_mem hw
  obtain ⟨as, bs, rfl⟩ := List.append_of_mem hq
  have h3 := (remove_ok (H.seg _ hw) (nodup_parts H.nodup).1).2.2
  refine ⟨h3, ?_⟩
  exact remove_detached h3

/-- Non-trivial case (`c18_refines`, `c18_observers`, `c18_neighbours`): two queues, interleaved insertions and a removal. -/
example : ∃ hp', heapRun (fun _ => ⟨none, none⟩)
      [.init 1, .init 2, .insertTail 1 10, .insertTail 2 20, .insert 1 11, .insertTail 1 12, .remove 10] = some hp' ∧
    Holds hp' [(2, [20]), (1, [11, 12])] := by
  have L : LegalRun [] [.init 1, .init 2, .insertTail 1 10, .insertTail 2 20, .insert 1 11, .insertTail 1 12, .remove 10] := by
    simp [LegalRun, Legal, specStep, addrs]
  exact c18_from_scratch _ _ L

end Verif.Queue
