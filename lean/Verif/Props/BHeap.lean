import Verif.Proofs.BHeap
/-
Properties C23 and C24: the binary heap.
-/
namespace Verif.BHeap

/-- C24. Along any run of insertions of absent nodes and deletions of present nodes (by their stored index) the heap never
crashes, holds exactly the nodes that the run means, and every node present knows its position. -/
theorem c24_contents : ∀ (ops : List Op) {h : Heap} {l : List Nat}, 1 ≤ h.space → Indexed h → (elems h).Perm l →
    LegalRun h.space l ops →
    ∃ h', run h ops = some h' ∧ h'.space = h.space ∧ h'.key = h.key ∧ Indexed h' ∧
      (elems h').Perm (ops.foldl (specStep h.space) l)
  | [], h, l, hs, H, hp, _ => ⟨h, rfl, rfl, rfl, H, hp⟩
  | op :: ops, h, l, hs, H, hp, ⟨hl, hr⟩ => by
    have key : ∃ h1, step h op = some h1 ∧ h1.space = h.space ∧ h1.key = h.key ∧ Indexed h1 ∧
        (elems h1).Perm (specStep h.space l op) := by
      cases op with
      | add x =>
        have hx : x ∉ elems h := fun hm => hl (hp.mem_iff.mp hm)
        by_cases hf : h.n < h.space
        · obtain ⟨h1, e1, -, e3, e4, e5, e6, -, -⟩ := add_spec H hx hf
          refine ⟨h1, by simp [step, e1], e3, e4, e5, ?_⟩
          have hlen : l.length < h.space := by rw [← hp.length_eq, elems_length]; exact hf
          simp only [specStep, hlen, if_true]
          refine List.Perm.trans ?_ (List.Perm.cons x hp)
          rw [List.perm_ext_iff_of_nodup (elems_nodup e5) (List.nodup_cons.mpr ⟨hx, elems_nodup H⟩)]
          intro a; rw [e6, List.mem_cons]
        · refine ⟨h, by simp [step, add_full (x := x) (Nat.le_of_not_lt hf)], rfl, rfl, H, ?_⟩
          have hlen : ¬ l.length < h.space := by rw [← hp.length_eq, elems_length]; exact hf
          simp only [specStep, hlen, if_false]
          exact hp
      | del x =>
        have hx : x ∈ elems h := hp.mem_iff.mpr hl
        obtain ⟨k, k1, kn, rfl⟩ := mem_elems.mp hx
        have hk := H k k1 kn
        obtain ⟨h1, e1, -, e3, e4, e5, e6, -, -⟩ := del_spec H k1 kn hs
        refine ⟨h1, by simp [step, hk, e1], e3, e4, e5, ?_⟩
        simp only [specStep]
        refine List.Perm.trans ?_ (hp.erase _)
        rw [List.perm_ext_iff_of_nodup (elems_nodup e5) ((elems_nodup H).erase _)]
        intro a; rw [e6, List.Nodup.mem_erase_iff (elems_nodup H)]
    obtain ⟨h1, s1, s2, s3, s4, s5⟩ := key
    obtain ⟨h2, r1, r2, r3, r4, r5⟩ := c24_contents ops (h := h1) (by rw [s2]; exact hs) s4 s5 (by rw [s2]; exact hr)
    refine ⟨h2, ?_, by rw [r2, s2], by rw [r3, s3], r4, ?_⟩
    · simp [run, s1, r1]
    · rw [List.foldl_cons, ← s2]; rw [s2] at r5 ⊢; exact r5

/-- Case: an empty heap of three places, four insertions, one of them refused for lack of room, and a deletion. -/
example : ∃ h', run (create 3 (fun x => x) (fun _ => 0)) [.add 5, .add 2, .add 9, .add 1, .del 2] = some h' ∧ (elems h').Perm [9, 5] := by
  obtain ⟨h', h1, -, -, -, h2⟩ := c24_contents [.add 5, .add 2, .add 9, .add 1, .del 2] (h := create 3 (fun x => x) (fun _ => 0)) (l := []) (by decide)
    (by intro i h1 h2; simp [create] at h2; omega) (by decide) (by simp [LegalRun, legal, specStep, create])
  exact ⟨h', h1, h2⟩

/-- C24. A full heap rejects an insertion. -/
theorem c24_full {h : Heap} (x : Nat) : add h x = none ↔ h.space ≤ h.n := by
  unfold add; split <;> simp <;> omega

/-- Case: the second insertion into a heap of one place. -/
example : ((add (create 1 (fun x => x) fun _ => 0) 7).map fun h => (add h 8).isNone) = some true := by decide +kernel

/-- C24. Exactly when a deletion is refused: the heap is empty (or has no room at all), or the position is behind the last node; and exactly when
it crashes: a position 0 in a non-empty heap. -/
theorem c24_refused (h : Heap) (i : Nat) :
    (del h i = some none ↔ h.space = 0 ∨ elems h = [] ∨ (elems h).length < i) ∧
    (del h i = none ↔ h.space ≠ 0 ∧ elems h ≠ [] ∧ i = 0) := by
  have he : elems h = [] ↔ h.n = 0 := by
    rw [← List.length_eq_zero_iff]; simp [elems]
  have hl : (elems h).length = h.n := by simp [elems]
  rw [Ne, he, hl]
  unfold del
  grind

/-- Cases: deletion from an empty heap, behind the end, and at position 0. -/
example : (del (create 4 (fun x => x) fun _ => 0) 1).isSome ∧ ((add (create 4 (fun x => x) fun _ => 0) 7).map fun h =>
    (match del h 2 with | some none => true | _ => false, (del h 0).isNone)) = some (true, true) := by decide +kernel

/-- C24. The indices of nodes that are not in the heap are not touched. -/
theorem c24_frame {h : Heap} (H : Indexed h) (hs : 1 ≤ h.space) :
    (∀ x h', x ∉ elems h → add h x = some h' → ∀ y, y ≠ x → y ∉ elems h → h'.idx y = h.idx y) ∧
    (∀ x h', x ∈ elems h → del h (h.idx x) = some (some h') → ∀ y, y ∉ elems h → h'.idx y = h.idx y) := by
  refine ⟨?_, ?_⟩
  · intro x h' hx ha y hy hm
    have hf : h.n < h.space := by
      by_contra hc
      rw [add_full (Nat.le_of_not_lt hc)] at ha; cases ha
    obtain ⟨h1, e1, -, -, -, -, -, e7, -⟩ := add_spec H hx hf
    rw [e1] at ha; cases ha
    exact e7 y hy hm
  · intro x h' hx hd y hm
    obtain ⟨k, k1, kn, rfl⟩ := mem_elems.mp hx
    obtain ⟨h1, e1, -, -, -, -, -, e7, -⟩ := del_spec H k1 kn hs
    rw [H k k1 kn, e1] at hd; cases hd
    exact e7 y hm

/-- Case: inserting 7 leaves the index of 8 alone, and deleting 7 too. -/
example : ((add (create 4 (fun x => x) fun x => x) 7).map fun h => (h.idx 7, h.idx 8)) = some (1, 8) := by decide +kernel

/-- Only the reported minimum is ever deleted. -/
def MinRun : Heap → List Op → Prop
  | _, [] => True
  | h, op :: ops => (match op with | .add _ => True | .del x => minNode h = some x) ∧ ∀ h', step h op = some h' → MinRun h' ops

/-- C23, what does hold: as long as only the reported minimum is deleted, the reported minimum is a smallest node present. The full
property, with deletion of arbitrary nodes, is false: see `c23_counterexample`. -/
theorem c23_min_partial : ∀ (ops : List Op) {h : Heap}, 1 ≤ h.space → Indexed h → Ordered h → LegalRun h.space (elems h) ops →
    MinRun h ops → ∀ h', run h ops = some h' →
    (minNode h' = none ↔ elems h' = []) ∧
    ∀ m, minNode h' = some m → m ∈ elems h' ∧ ∀ y ∈ elems h', h'.key m ≤ h'.key y
  | [], h, hs, H, O, _, _, h', hr => by
    simp only [run, Option.some.injEq] at hr
    subst hr
    refine ⟨?_, ?_⟩
    · rw [← List.length_eq_zero_iff, elems_length]
      unfold minNode; split <;> simp <;> omega
    · intro m hm
      unfold minNode at hm
      split at hm
      · cases hm
      · simp only [Option.some.injEq] at hm
        subst hm
        refine ⟨mem_elems.mpr ⟨1, by omega, by omega, rfl⟩, ?_⟩
        intro y hy
        obtain ⟨k, k1, kn, rfl⟩ := mem_elems.mp hy
        exact ordered_root O k k1 kn
  | op :: ops, h, hs, H, O, ⟨hl, hlr⟩, ⟨hm, hmr⟩, h', hr => by
    cases op with
    | add x =>
      simp only [legal] at hl
      by_cases hf : h.n < h.space
      · obtain ⟨h1, e1, e2, e3, e4, e5, e6, -, e8⟩ := add_spec H hl hf
        have hst : step h (.add x) = some h1 := by simp [step, e1]
        rw [run, hst] at hr
        refine c23_min_partial ops (by rw [e3]; exact hs) e5 (e8 O) ?_ (hmr h1 hst) h' hr
        rw [e3]
        simp only [specStep, elems_length, hf, if_true] at hlr
        refine legalRun_perm _ ?_ _ hlr
        rw [List.perm_ext_iff_of_nodup (List.nodup_cons.mpr ⟨hl, elems_nodup H⟩) (elems_nodup e5)]
        intro a; rw [e6, List.mem_cons]
      · have hst : step h (.add x) = some h := by simp [step, add_full (x := x) (Nat.le_of_not_lt hf)]
        rw [run, hst] at hr
        simp only [specStep, elems_length, hf, if_false] at hlr
        exact c23_min_partial ops hs H O hlr (hmr h hst) h' hr
    | del x =>
      simp only at hm
      have hmin : 1 ≤ h.n ∧ x = h.arr 1 := by
        unfold minNode at hm
        split at hm
        · cases hm
        · simp only [Option.some.injEq] at hm; exact ⟨by omega, hm.symm⟩
      obtain ⟨hn, rfl⟩ := hmin
      obtain ⟨h1, e1, e2, e3, e4, e5, e6, -, e8⟩ := del_spec H (Nat.le_refl 1) hn hs
      have hst : step h (.del (h.arr 1)) = some h1 := by simp [step, H 1 (Nat.le_refl 1) hn, e1]
      rw [run, hst] at hr
      refine c23_min_partial ops (by rw [e3]; exact hs) e5 ((e8 O).mpr (Or.inl rfl)) ?_ (hmr h1 hst) h' hr
      rw [e3]
      simp only [specStep] at hlr
      refine legalRun_perm _ ?_ _ hlr
      rw [List.perm_ext_iff_of_nodup ((elems_nodup H).erase _) (elems_nodup e5)]
      intro a; rw [e6, List.Nodup.mem_erase_iff (elems_nodup H)]
where
  /-- Legality depends only on which nodes are present. -/
  legalRun_perm (space : Nat) {l l' : List Nat} (hp : l.Perm l') : ∀ ops, LegalRun space l ops → LegalRun space l' ops := by
    intro ops
    induction ops generalizing l l' with
    | nil => intro _; trivial
    | cons op ops ih =>
      rintro ⟨h1, h2⟩
      cases op with
      | add x =>
        refine ⟨fun hm => h1 (hp.mem_iff.mpr hm), ?_⟩
        refine ih ?_ h2
        simp only [specStep, hp.length_eq]
        split
        · exact hp.cons x
        · exact hp
      | del x => exact ⟨hp.mem_iff.mp h1, ih (hp.erase x) h2⟩

/-- Case: seven nodes in and two minima out. -/
example : (run (create 16 (fun x => x) (fun _ => 0)) [.add 1, .add 4, .add 2, .add 5, .add 3, .del 1, .del 2]).map
      (fun h => (minNode h, elems h)) = some (some 3, [3, 5, 4]) := by decide +kernel

/-- C23. Exactly when a deletion keeps the heap ordered: the root, the last position, or the last node not smaller than the parent
of the deleted position. In every other case the order is broken. -/
theorem c23_deletion_exact {h : Heap} (H : Indexed h) (O : Ordered h) (hs : 1 ≤ h.space) {i : Nat} (hi : 1 ≤ i) (hin : i ≤ h.n) :
    ∃ h', del h i = some (some h') ∧
      (Ordered h' ↔ i = 1 ∨ i = h.n ∨ h.key (h.arr (i / 2)) ≤ h.key (h.arr h.n)) := by
  obtain ⟨h', e1, -, -, -, -, -, -, e8⟩ := del_spec H hi hin hs
  exact ⟨h', e1, e8 O⟩

/-- Case: deleting at position 5 from the seven nodes of `c23_counterexample` moves the last node, with key 3, below the node with key 4. -/
example : (run (create 16 (fun x => x) (fun _ => 0)) [.add 1, .add 4, .add 2, .add 5, .add 6, .add 7, .add 3]).map
      (fun h => (elems h, h.key (h.arr (5 / 2)), h.key (h.arr h.n))) = some ([1, 4, 2, 5, 6, 7, 3], 4, 3) := by decide +kernel

/-- C23 is false: insert nodes with keys 1 4 2 5 6 7 3, delete the one with key 5, then the minima 1 and 2. The reported minimum is
then 4 although the node with key 3 is present. (Nodes are named by their keys.) -/
theorem c23_counterexample :
    (run (create 16 (fun x => x) (fun _ => 0))
      [.add 1, .add 4, .add 2, .add 5, .add 6, .add 7, .add 3, .del 5, .del 1, .del 2]).map
        (fun h => (minNode h, elems h)) = some (some 4, [4, 3, 7, 6]) := by
  decide +kernel

/-- Non-trivial case for C24 and C23: seven nodes in and two minima out. -/
example : LegalRun 16 [] [.add 1, .add 4, .add 2, .add 5, .del 5, .add 6, .add 7, .add 3, .del 1] ∧
    (run (create 16 (fun x => x) (fun _ => 0)) [.add 1, .add 4, .add 2, .add 5, .add 3, .del 1, .del 2]).map
      (fun h => (minNode h, elems h)) = some (some 3, [3, 5, 4]) := by
  refine ⟨?_, by decide +kernel⟩
  simp [LegalRun, legal, specStep]

end Verif.BHeap
