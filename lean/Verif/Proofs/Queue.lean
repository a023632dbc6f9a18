import Verif.Spec.Queue
import Mathlib.Data.List.Nodup
/-
The pointer queue refines sequences.
-/
namespace Verif.Queue

@[simp] theorem setNext_next (hp : Heap) (a x : Nat) (v) :
    (setNext hp a v x).next = if x = a then v else (hp x).next := by
  unfold setNext Heap.set; split <;> simp

@[simp] theorem setNext_prev (hp : Heap) (a x : Nat) (v) : (setNext hp a v x).prev = (hp x).prev := by
  unfold setNext Heap.set
  by_cases h : x = a
  · subst h; simp
  · simp [h]

@[simp] theorem setPrev_prev (hp : Heap) (a x : Nat) (v) :
    (setPrev hp a v x).prev = if x = a then v else (hp x).prev := by
  unfold setPrev Heap.set; split <;> simp

@[simp] theorem setPrev_next (hp : Heap) (a x : Nat) (v) : (setPrev hp a v x).next = (hp x).next := by
  unfold setPrev Heap.set
  by_cases h : x = a
  · subst h; simp
  · simp [h]

theorem cell_ext {a b : Cell} (h : a.prev = b.prev) (h' : a.next = b.next) : a = b := by
  cases a; cases b; simp_all

theorem seg_congr {hp hp' : Heap} : ∀ (xs : List Nat) (a b : Nat),
    (∀ x ∈ a :: xs, (hp' x).next = (hp x).next) → (∀ x ∈ xs ++ [b], (hp' x).prev = (hp x).prev) →
    Seg hp a xs b → Seg hp' a xs b
  | [], a, b, hn, hpv, h => by
    simp only [Seg] at h ⊢
    exact ⟨by rw [hn a (by simp)]; exact h.1, by rw [hpv b (by simp)]; exact h.2⟩
  | x :: xs, a, b, hn, hpv, h => by
    simp only [Seg] at h ⊢
    exact ⟨by rw [hn a (by simp)]; exact h.1, by rw [hpv x (by simp)]; exact h.2.1,
      seg_congr xs x b (fun y hy => hn y (List.mem_cons_of_mem _ hy))
        (fun y hy => hpv y (by simp at hy ⊢; exact Or.inr hy)) h.2.2⟩

theorem seg_append (hp : Heap) : ∀ (xs ys : List Nat) (a y b : Nat),
    Seg hp a (xs ++ y :: ys) b ↔ Seg hp a xs y ∧ Seg hp y ys b
  | [], ys, a, y, b => by simp [Seg, and_assoc]
  | x :: xs, ys, a, y, b => by simp [Seg, seg_append hp xs ys x y b, and_assoc]

/-- The first and last links. -/
theorem seg_first {hp : Heap} {xs : List Nat} {a b : Nat} (h : Seg hp a xs b) : (hp a).next = some (xs.headD b) := by
  cases xs with
  | nil => exact h.1
  | cons x xs => exact h.1

theorem seg_last {hp : Heap} : ∀ {xs : List Nat} {a b : Nat}, Seg hp a xs b → (hp b).prev = some (xs.getLastD a)
  | [], a, b, h => h.2
  | x :: xs, a, b, h => by
    have := seg_last h.2.2
    rw [this, List.getLastD_cons]

theorem addrs_append (w1 w2 : Queues) : addrs (w1 ++ w2) = addrs w1 ++ addrs w2 := by simp [addrs]

theorem addrs_cons (p : Nat × List Nat) (w : Queues) : addrs (p :: w) = (p.1 :: p.2) ++ addrs w := by simp [addrs]

theorem mem_addrs {w : Queues} {p : Nat × List Nat} (hp : p ∈ w) {x : Nat} (hx : x ∈ p.1 :: p.2) : x ∈ addrs w := by
  simp only [addrs, List.mem_flatten, List.mem_map]
  exact ⟨_, ⟨p, hp, rfl⟩, hx⟩

theorem holds_nil (hp : Heap) : Holds hp [] := ⟨by simp, by simp [addrs]⟩

/-- Replacing one queue of a world when the heap changed only inside it (and at fresh nodes). -/
theorem holds_replace {hp hp' : Heap} {w1 w2 : Queues} {h : Nat} {xs ys : List Nat} {ch : List Nat}
    (H : Holds hp (w1 ++ (h, xs) :: w2)) (hs : Seg hp' h ys h)
    (hfr : ∀ x, x ∉ ch → hp' x = hp x)
    (hch : ∀ x ∈ ch, x ∉ addrs w1 ∧ x ∉ addrs w2)
    (hnd : (addrs (w1 ++ (h, ys) :: w2)).Nodup) : Holds hp' (w1 ++ (h, ys) :: w2) := by
  refine ⟨?_, hnd⟩
  have key : ∀ p : Nat × List Nat, p ∈ w1 ∨ p ∈ w2 → Seg hp' p.1 p.2 p.1 := by
    intro p hp1
    have hseg : Seg hp p.1 p.2 p.1 := H.seg p (by simp; tauto)
    have hfr' : ∀ x ∈ p.1 :: p.2, hp' x = hp x := by
      intro x hx
      apply hfr
      intro hc
      rcases hp1 with h1 | h2
      · exact (hch x hc).1 (mem_addrs h1 hx)
      · exact (hch x hc).2 (mem_addrs h2 hx)
    apply seg_congr _ _ _ _ _ hseg
    · intro x hx; rw [hfr' x hx]
    · intro x hx
      rw [hfr' x (by simp at hx ⊢; tauto)]
  intro p hp1
  simp only [List.mem_append, List.mem_cons] at hp1
  rcases hp1 with h1 | h1 | h1
  · exact key p (Or.inl h1)
  · subst h1; exact hs
  · exact key p (Or.inr h1)

theorem insert_ok {hp : Heap} {h q : Nat} {xs : List Nat} (hs : Seg hp h xs h) (hnd : (h :: xs).Nodup) (hq : q ∉ h :: xs) :
    ∃ hp', insert hp h q = some hp' ∧ Seg hp' h (q :: xs) h ∧ ∀ x, x ∉ q :: h :: xs → hp' x = hp x := by
  simp only [List.mem_cons, not_or] at hq
  have hn := seg_first hs
  unfold insert
  simp only [setPrev_next, setNext_next, Ne.symm hq.1, if_false, hn]
  refine ⟨_, rfl, ?_, ?_⟩
  · cases xs with
    | nil =>
      simp [Seg, hq.1]
    | cons x xs =>
      simp only [List.mem_cons, not_or] at hq
      simp only [List.nodup_cons, List.mem_cons, not_or] at hnd
      simp only [Seg] at hs
      simp only [Seg, setNext_next, setPrev_next, setNext_prev, setPrev_prev, List.headD_cons, if_true, hq.1, hq.2.1, Ne.symm hq.1,
        Ne.symm hq.2.1, if_false, true_and]
      refine seg_congr _ _ _ ?_ ?_ hs.2.2
      · intro y hy
        simp only [List.mem_cons] at hy
        simp only [setNext_next, setPrev_next]
        have h1 : y ≠ h := by rintro rfl; rcases hy with h | h <;> simp_all
        have h2 : y ≠ q := by rintro rfl; rcases hy with h | h <;> simp_all
        simp [h1, h2]
      · intro y hy
        simp only [List.mem_append, List.mem_singleton] at hy
        simp only [setNext_prev, setPrev_prev]
        have h1 : y ≠ x := by rintro rfl; rcases hy with h | h <;> simp_all
        have h2 : y ≠ q := by rintro rfl; rcases hy with h | h <;> simp_all
        simp [h1, h2]
  · intro y hy
    simp only [List.mem_cons, not_or] at hy
    have h1 : y ≠ xs.headD h := by
      cases xs with
      | nil => simpa using hy.2.1
      | cons x xs => simp at hy ⊢; exact hy.2.2.1
    apply cell_ext
    · simp only [setNext_prev, setPrev_prev]; simp only [h1, hy.1, if_false]
    · simp only [setNext_next, setPrev_next]; simp only [hy.1, hy.2.1, if_false]

theorem insertTail_ok {hp : Heap} {h q : Nat} {xs : List Nat} (hs : Seg hp h xs h) (hnd : (h :: xs).Nodup)
    (hq : q ∉ h :: xs) :
    ∃ hp', insertTail hp h q = some hp' ∧ Seg hp' h (xs ++ [q]) h ∧ ∀ x, x ∉ q :: h :: xs → hp' x = hp x := by
  simp only [List.mem_cons, not_or] at hq
  unfold insertTail
  rcases List.eq_nil_or_concat xs with rfl | ⟨ys, y, rfl⟩
  · simp only [Seg] at hs
    simp only [hs.2, setPrev_next, setNext_next, Ne.symm hq.1, if_false, hs.1]
    refine ⟨_, rfl, ?_, ?_⟩
    · simp [Seg, hq.1]
    · intro y hy
      simp only [List.mem_cons, not_or] at hy
      apply cell_ext
      · simp only [setNext_prev, setPrev_prev]; simp only [hy.1, hy.2.1, if_false]
      · simp only [setNext_next, setPrev_next]; simp only [hy.1, hy.2.1, if_false]
  · simp only [List.concat_eq_append] at *
    rw [seg_append] at hs
    obtain ⟨hs1, hs2⟩ := hs
    simp only [Seg] at hs2
    simp only [List.mem_append, List.mem_singleton, not_or] at hq
    have hyh : y ≠ h := by rintro rfl; simp at hnd
    have hyys : y ∉ ys := by
      intro hc
      rw [List.nodup_cons, List.nodup_append] at hnd
      exact hnd.2.2.2 y hc y (by simp) rfl
    have hhys : h ∉ ys := by
      intro hc; simp [hc] at hnd
    simp only [hs2.2, setPrev_next, setNext_next, Ne.symm hq.2.2, if_false, hs2.1]
    refine ⟨_, rfl, ?_, ?_⟩
    · rw [List.append_assoc, List.singleton_append, seg_append]
      refine ⟨?_, ?_⟩
      · refine seg_congr _ _ _ ?_ ?_ hs1
        · intro x hx
          simp only [List.mem_cons] at hx
          have h1 : x ≠ y := by rintro rfl; rcases hx with h | h <;> simp_all
          have h2 : x ≠ q := by rintro rfl; rcases hx with h | h <;> simp_all
          simp [h1, h2]
        · intro x hx
          simp only [List.mem_append, List.mem_singleton] at hx
          have h1 : x ≠ h := by rintro rfl; rcases hx with h | h <;> simp_all
          have h2 : x ≠ q := by rintro rfl; rcases hx with h | h <;> simp_all
          simp [h1, h2]
      · simp [Seg, hq.1, hq.2.2]
    · intro x hx
      simp only [List.mem_cons, List.mem_append, not_or] at hx
      have : x ≠ y := by simpa using hx.2.2.2
      apply cell_ext
      · simp only [setNext_prev, setPrev_prev]; simp only [hx.1, hx.2.1, if_false]
      · simp only [setNext_next, setPrev_next]; simp only [hx.1, this, if_false]

/-- `queue_remove` field by field, for a linked node. -/
theorem remove_cells {hp : Heap} {q p n : Nat} (h1 : (hp q).prev = some p) (h2 : (hp q).next = some n) (hp1 : p ≠ q)
    (_hn1 : n ≠ q) (x : Nat) :
    (remove hp q x).next = (if x = q then none else if x = p then some n else (hp x).next) ∧
      (remove hp q x).prev = (if x = q then none else if x = n then some p else (hp x).prev) := by
  unfold remove
  simp only [h1, setNext_next, setNext_prev, Ne.symm hp1, if_false, h2, setPrev_next, setPrev_prev]
  simp

theorem remove_detached {hp : Heap} {q : Nat} (h : hp q = ⟨none, none⟩) : remove hp q = hp := by
  unfold remove
  simp only [h]
  funext x
  by_cases hx : x = q
  · subst hx; apply cell_ext <;> simp [h]
  · apply cell_ext <;> simp [hx]

theorem remove_ok {hp : Heap} {h q : Nat} {as bs : List Nat} (hs : Seg hp h (as ++ q :: bs) h)
    (hnd : (h :: (as ++ q :: bs)).Nodup) :
    Seg (remove hp q) h (as ++ bs) h ∧ (∀ x, x ∉ h :: (as ++ q :: bs) → remove hp q x = hp x) ∧
      remove hp q q = ⟨none, none⟩ := by
  rw [seg_append] at hs
  obtain ⟨hs1, hs2⟩ := hs
  have hf := seg_first hs2
  have hl := seg_last hs1
  have hnd' := hnd
  rw [List.nodup_cons, List.nodup_append, List.nodup_cons] at hnd'
  obtain ⟨hh, hnas, ⟨hqb, hnbs⟩, hdis⟩ := hnd'
  have hqas : q ∉ as := fun hc => hdis q hc q (by simp) rfl
  have hqh : q ≠ h := by rintro rfl; simp at hh
  have hhas : h ∉ as := fun hc => hh (by simp [hc])
  have hhbs : h ∉ bs := fun hc => hh (by simp [hc])
  have hpq : as.getLastD h ≠ q := by
    intro hc
    rcases List.eq_nil_or_concat as with rfl | ⟨ys, y, rfl⟩
    · simp at hc; exact hqh hc.symm
    · simp at hc hqas; exact hqas.2 hc.symm
  have hnq : bs.headD h ≠ q := by
    intro hc
    cases bs with
    | nil => simp at hc; exact hqh hc.symm
    | cons b bs => simp at hc hqb; exact hqb.1 hc.symm
  have hc := remove_cells hl hf hpq hnq
  have hcn := fun x => (hc x).1
  have hcp := fun x => (hc x).2
  refine ⟨?_, ?_, ?_⟩
  · cases bs with
    | nil =>
      simp only [List.append_nil]
      simp only [List.headD_nil] at hcn hcp
      rcases List.eq_nil_or_concat as with rfl | ⟨ys, y, rfl⟩
      · simp only [List.getLastD_nil] at hcn hcp
        simp [Seg, hcn, hcp, Ne.symm hqh]
      · simp only [List.concat_eq_append] at *
        have hlast : (ys ++ [y]).getLastD h = y := by simp
        rw [hlast] at hcn hcp
        rw [seg_append] at hs1 ⊢
        simp only [List.mem_append, List.mem_singleton, not_or] at hqas hhas
        have hyys : y ∉ ys := by
          intro hc; rw [List.nodup_append] at hnas; exact hnas.2.2 y hc y (by simp) rfl
        refine ⟨?_, ?_⟩
        · refine seg_congr _ _ _ ?_ ?_ hs1.1
          · intro x hx
            simp only [List.mem_cons] at hx
            have h1 : x ≠ q := by rintro rfl; rcases hx with h | h <;> simp_all
            have h2 : x ≠ y := by rintro rfl; rcases hx with h | h <;> simp_all
            rw [hcn]; simp only [h1, h2, if_false]
          · intro x hx
            simp only [List.mem_append, List.mem_singleton] at hx
            have h1 : x ≠ q := by rintro rfl; rcases hx with h | h <;> simp_all
            have h2 : x ≠ h := by rintro rfl; rcases hx with h | h <;> simp_all
            simp [hcp, h1, h2]
        · simp only [Seg]
          rw [hcn, hcp]
          simp [Ne.symm hqh, Ne.symm hqas.2]
    | cons b bs =>
      simp only [List.headD_cons] at hcn hcp hnq
      rw [seg_append]
      simp only [Seg] at hs2
      simp only [List.mem_cons, not_or] at hqb hhbs
      simp only [List.nodup_cons] at hnbs
      have hbas : b ∉ as := fun hc => hdis b hc b (by simp) rfl
      have hlastmem : as.getLastD h = h ∨ as.getLastD h ∈ as := by
        rcases List.eq_nil_or_concat as with rfl | ⟨ys, y, rfl⟩
        · simp
        · simp
      refine ⟨?_, ?_⟩
      · rcases List.eq_nil_or_concat as with rfl | ⟨ys, y, rfl⟩
        · simp only [List.getLastD_nil] at hcn hcp
          simp [Seg, hcn, hcp, Ne.symm hqh, hnq]
        · simp only [List.concat_eq_append] at *
          have hlast : (ys ++ [y]).getLastD h = y := by simp
          rw [hlast] at hcn hcp
          rw [seg_append] at hs1 ⊢
          simp only [List.mem_append, List.mem_singleton, not_or] at hqas hhas hbas
          have hyys : y ∉ ys := by
            intro hc; rw [List.nodup_append] at hnas; exact hnas.2.2 y hc y (by simp) rfl
          refine ⟨?_, ?_⟩
          · refine seg_congr _ _ _ ?_ ?_ hs1.1
            · intro x hx
              simp only [List.mem_cons] at hx
              have h1 : x ≠ q := by rintro rfl; rcases hx with h | h <;> simp_all
              have h2 : x ≠ y := by rintro rfl; rcases hx with h | h <;> simp_all
              rw [hcn]; simp only [h1, h2, if_false]
            · intro x hx
              simp only [List.mem_append, List.mem_singleton] at hx
              have h1 : x ≠ q := by rintro rfl; rcases hx with h | h <;> simp_all
              have h2 : x ≠ b := by rintro rfl; rcases hx with h | h <;> simp_all
              simp [hcp, h1, h2]
          · simp only [Seg]
            rw [hcn, hcp]
            simp [hnq, Ne.symm hqas.2]
      · refine seg_congr _ _ _ ?_ ?_ hs2.2.2
        · intro x hx
          simp only [List.mem_cons] at hx
          have h1 : x ≠ q := by rintro rfl; rcases hx with h | h <;> simp_all
          have h2 : x ≠ as.getLastD h := by
            intro he
            rcases hlastmem with hm | hm
            · rw [hm] at he; subst he; rcases hx with h | h <;> simp_all
            · rw [← he] at hm
              exact hdis x hm x (by simp; right; exact hx) rfl
          rw [hcn]; simp only [h1, h2, if_false]
        · intro x hx
          simp only [List.mem_append, List.mem_singleton] at hx
          have h1 : x ≠ q := by rintro rfl; rcases hx with h | h <;> simp_all
          have h2 : x ≠ b := by rintro rfl; rcases hx with h | h <;> simp_all
          simp [hcp, h1, h2]
  · intro x hx
    simp only [List.mem_cons, List.mem_append, not_or] at hx
    have h1 : x ≠ as.getLastD h := by
      intro he
      rcases List.eq_nil_or_concat as with rfl | ⟨ys, y, rfl⟩
      · simp at he; exact hx.1 he
      · simp at he hx; exact hx.2.1.2 he
    have h2 : x ≠ bs.headD h := by
      intro he
      cases bs with
      | nil => simp at he; exact hx.1 he
      | cons b bs => simp at he hx; exact hx.2.2.2.1 he
    apply cell_ext
    · rw [hcp, if_neg hx.2.2.1, if_neg h2]
    · rw [hcn, if_neg hx.2.2.1, if_neg h1]
  · apply cell_ext
    · rw [hcp]; simp
    · rw [hcn]; simp

/-- Splitting a world at a queue. -/
theorem split_queue {w : Queues} {h : Nat} (hm : h ∈ w.map Prod.fst) : ∃ w1 xs w2, w = w1 ++ (h, xs) :: w2 := by
  rw [List.mem_map] at hm
  obtain ⟨p, hp, rfl⟩ := hm
  obtain ⟨w1, w2, rfl⟩ := List.append_of_mem hp
  exact ⟨w1, p.2, w2, rfl⟩

theorem map_ne_head (f : List Nat → List Nat) {w : Queues} {h : Nat} (hn : h ∉ addrs w) :
    w.map (fun p => if p.1 = h then (p.1, f p.2) else p) = w := by
  conv_rhs => rw [← List.map_id w]
  apply List.map_congr_left
  intro p hp
  have : p.1 ≠ h := by rintro rfl; exact hn (mem_addrs hp (by simp))
  simp [this]

theorem map_filter_ne {w : Queues} {q : Nat} (hn : q ∉ addrs w) :
    w.map (fun p => (p.1, p.2.filter (· ≠ q))) = w := by
  conv_rhs => rw [← List.map_id w]
  apply List.map_congr_left
  intro p hp
  have : p.2.filter (· ≠ q) = p.2 := by
    rw [List.filter_eq_self]
    intro a ha
    simp only [decide_eq_true_eq]
    rintro rfl; exact hn (mem_addrs hp (by simp [ha]))
  rw [this]; rfl

theorem nodup_parts {w1 w2 : Queues} {h : Nat} {xs : List Nat} (H : (addrs (w1 ++ (h, xs) :: w2)).Nodup) :
    (h :: xs).Nodup ∧ (∀ x ∈ h :: xs, x ∉ addrs w1 ∧ x ∉ addrs w2) ∧ (addrs w1).Nodup ∧ (addrs w2).Nodup ∧
      List.Disjoint (addrs w1) (addrs w2) := by
  rw [addrs_append, addrs_cons, List.nodup_append', List.nodup_append'] at H
  obtain ⟨h1, ⟨h2, h3, h4⟩, h5⟩ := H
  refine ⟨h2, ?_, h1, h3, ?_⟩
  · intro x hx
    exact ⟨fun hc => h5 hc (List.mem_append_left _ hx), fun hc => h4 hx hc⟩
  · intro x hx hx2
    exact h5 hx (List.mem_append_right _ hx2)

theorem nodup_rebuild {w1 w2 : Queues} {h : Nat} {ys : List Nat} (h2 : (h :: ys).Nodup)
    (hd : ∀ x ∈ h :: ys, x ∉ addrs w1 ∧ x ∉ addrs w2) (h1 : (addrs w1).Nodup) (h3 : (addrs w2).Nodup)
    (h4 : List.Disjoint (addrs w1) (addrs w2)) : (addrs (w1 ++ (h, ys) :: w2)).Nodup := by
  rw [addrs_append, addrs_cons, List.nodup_append', List.nodup_append']
  refine ⟨h1, ⟨h2, h3, fun x hx hc => (hd x hx).2 hc⟩, ?_⟩
  intro x hx hc
  rw [List.mem_append] at hc
  rcases hc with hc | hc
  · exact (hd x hc).1 hx
  · exact h4 hx hc

/-- One step refines the sequence meaning. -/
theorem step_refines {hp : Heap} {w : Queues} (H : Holds hp w) (op : Op) (L : Legal w op) :
    ∃ hp', heapStep hp op = some hp' ∧ Holds hp' (specStep w op) := by
  cases op with
  | init h =>
    simp only [Legal] at L
    refine ⟨_, rfl, ?_⟩
    have fr : ∀ x, x ≠ h → init hp h x = hp x := by
      intro x hx
      apply cell_ext <;> simp [init, hx]
    constructor
    · intro p hp1
      simp only [specStep, List.mem_cons] at hp1
      rcases hp1 with rfl | hp1
      · simp [Seg, init]
      · have hne : ∀ x ∈ p.1 :: p.2, x ≠ h := by
          rintro x hx rfl; exact L (mem_addrs hp1 hx)
        apply seg_congr _ _ _ _ _ (H.seg p hp1)
        · intro x hx; rw [fr x (hne x hx)]
        · intro x hx; rw [fr x (hne x (by simp at hx ⊢; tauto))]
    · simp only [specStep, addrs_cons]
      simp only [List.singleton_append, List.nodup_cons]
      exact ⟨L, H.nodup⟩
  | insert h q =>
    obtain ⟨hq, hm⟩ := L
    obtain ⟨w1, xs, w2, rfl⟩ := split_queue hm
    obtain ⟨n1, n2, n3, n4, n5⟩ := nodup_parts H.nodup
    have hq' : q ∉ addrs w1 ∧ q ∉ h :: xs ∧ q ∉ addrs w2 := by
      rw [addrs_append, addrs_cons] at hq
      simp only [List.mem_append, not_or] at hq
      exact ⟨hq.1, hq.2.1, hq.2.2⟩
    obtain ⟨hp', e, s, fr⟩ := insert_ok (H.seg (h, xs) (by simp)) n1 hq'.2.1
    have hw : specStep (w1 ++ (h, xs) :: w2) (.insert h q) = w1 ++ (h, q :: xs) :: w2 := by
      simp only [specStep, List.map_append, List.map_cons, if_true]
      rw [map_ne_head (q :: ·) (n2 h (by simp)).1, map_ne_head (q :: ·) (n2 h (by simp)).2]
    refine ⟨hp', e, ?_⟩
    rw [hw]
    have nd2 : (h :: q :: xs).Nodup := by
      have := hq'.2.1
      simp only [List.mem_cons, not_or] at this
      simp only [List.nodup_cons, List.mem_cons, not_or] at n1 ⊢
      exact ⟨⟨Ne.symm this.1, n1.1⟩, this.2, n1.2⟩
    have dis : ∀ x ∈ q :: h :: xs, x ∉ addrs w1 ∧ x ∉ addrs w2 := by
      intro x hx
      rw [List.mem_cons] at hx
      rcases hx with rfl | hx
      · exact ⟨hq'.1, hq'.2.2⟩
      · exact n2 x hx
    exact holds_replace H s fr dis (nodup_rebuild nd2 (fun x hx => dis x (by simp at hx ⊢; tauto)) n3 n4 n5)
  | insertTail h q =>
    obtain ⟨hq, hm⟩ := L
    obtain ⟨w1, xs, w2, rfl⟩ := split_queue hm
    obtain ⟨n1, n2, n3, n4, n5⟩ := nodup_parts H.nodup
    have hq' : q ∉ addrs w1 ∧ q ∉ h :: xs ∧ q ∉ addrs w2 := by
      rw [addrs_append, addrs_cons] at hq
      simp only [List.mem_append, not_or] at hq
      exact ⟨hq.1, hq.2.1, hq.2.2⟩
    obtain ⟨hp', e, s, fr⟩ := insertTail_ok (H.seg (h, xs) (by simp)) n1 hq'.2.1
    have hw : specStep (w1 ++ (h, xs) :: w2) (.insertTail h q) = w1 ++ (h, xs ++ [q]) :: w2 := by
      simp only [specStep, List.map_append, List.map_cons, if_true]
      rw [map_ne_head (· ++ [q]) (n2 h (by simp)).1, map_ne_head (· ++ [q]) (n2 h (by simp)).2]
    refine ⟨hp', e, ?_⟩
    rw [hw]
    have nd2 : (h :: (xs ++ [q])).Nodup := by
      have := hq'.2.1
      simp only [List.mem_cons, not_or] at this
      rw [← List.cons_append, List.nodup_append']
      refine ⟨n1, by simp, ?_⟩
      intro x hx hx2
      simp only [List.mem_singleton] at hx2
      subst hx2
      exact hq'.2.1 hx
    have dis : ∀ x ∈ q :: h :: xs, x ∉ addrs w1 ∧ x ∉ addrs w2 := by
      intro x hx
      rw [List.mem_cons] at hx
      rcases hx with rfl | hx
      · exact ⟨hq'.1, hq'.2.2⟩
      · exact n2 x hx
    exact holds_replace H s fr dis (nodup_rebuild nd2 (fun x hx => dis x (by simp at hx ⊢; tauto)) n3 n4 n5)
  | remove q =>
    obtain ⟨p, hpw, hqp⟩ := L
    obtain ⟨w1, w2, rfl⟩ := List.append_of_mem hpw
    obtain ⟨h, xs⟩ := p
    obtain ⟨as, bs, rfl⟩ := List.append_of_mem hqp
    obtain ⟨n1, n2, n3, n4, n5⟩ := nodup_parts H.nodup
    obtain ⟨s, fr, _⟩ := remove_ok (H.seg _ hpw) n1
    refine ⟨_, rfl, ?_⟩
    have hqm : q ∈ h :: (as ++ q :: bs) := by simp
    have hnd' := n1
    rw [List.nodup_cons, List.nodup_append, List.nodup_cons] at hnd'
    have hfil : (as ++ q :: bs).filter (· ≠ q) = as ++ bs := by
      rw [List.filter_append, List.filter_cons_of_neg (by simp)]
      congr 1
      · rw [List.filter_eq_self]
        intro a ha
        simp only [decide_eq_true_eq]
        rintro rfl; exact hnd'.2.2.2 a ha a (by simp) rfl
      · rw [List.filter_eq_self]
        intro a ha
        simp only [decide_eq_true_eq]
        rintro rfl; exact hnd'.2.2.1.1 ha
    have hw : specStep (w1 ++ (h, as ++ q :: bs) :: w2) (.remove q) = w1 ++ (h, as ++ bs) :: w2 := by
      simp only [specStep, List.map_append, List.map_cons]
      rw [hfil, map_filter_ne (n2 q hqm).1, map_filter_ne (n2 q hqm).2]
    rw [hw]
    have sub : ∀ x ∈ h :: (as ++ bs), x ∈ h :: (as ++ q :: bs) := by
      intro x hx; simp at hx ⊢; tauto
    have nd2 : (h :: (as ++ bs)).Nodup := by
      apply List.Nodup.sublist _ n1
      exact List.Sublist.cons_cons _ (List.Sublist.append_left (List.sublist_cons_self _ _) _)
    exact holds_replace H s fr n2 (nodup_rebuild nd2 (fun x hx => n2 x (sub x hx)) n3 n4 n5)

theorem run_refines : ∀ {hp : Heap} {w : Queues}, Holds hp w → ∀ (ops : List Op), LegalRun w ops →
    ∃ hp', heapRun hp ops = some hp' ∧ Holds hp' (ops.foldl specStep w)
  | hp, w, H, [], _ => ⟨hp, rfl, H⟩
  | hp, w, H, op :: ops, L => by
    obtain ⟨hp1, e1, H1⟩ := step_refines H op L.1
    obtain ⟨hp2, e2, H2⟩ := run_refines H1 ops L.2
    exact ⟨hp2, by simp [heapRun, e1, e2], H2⟩

theorem walk_seg {hp : Heap} {h : Nat} : ∀ (xs : List Nat) (a : Nat), Seg hp a xs h → h ∉ xs → ∀ k, xs.length < k →
    walk hp h k (next hp a) = some xs
  | [], a, hs, _, k, hk => by
    simp only [next, hs.1]
    obtain ⟨k, rfl⟩ : ∃ j, k = j + 1 := ⟨k - 1, by simp at hk; omega⟩
    simp [walk, tail]
  | x :: xs, a, hs, hn, k, hk => by
    simp only [next, hs.1]
    obtain ⟨k, rfl⟩ : ∃ j, k = j + 1 := ⟨k - 1, by simp at hk; omega⟩
    simp only [List.mem_cons, not_or] at hn
    have := walk_seg xs x hs.2.2 hn.2 k (by simp at hk; omega)
    simp [walk, tail, Ne.symm hn.1, this]

end Verif.Queue
