import Verif.Spec.BHeap
import Mathlib.Data.List.Nodup
import Mathlib.Data.List.Range
import Mathlib.Data.List.Perm.Basic
/-
Contents, indices and order through the two sift loops.
-/
namespace Verif.BHeap

@[simp] theorem set_same {α : Type} (f : Nat → α) (a : Nat) (v : α) : set f a v a = v := by simp [set]
theorem set_ne {α : Type} (f : Nat → α) {a x : Nat} (v : α) (h : x ≠ a) : set f a v x = f x := by simp [set, h]

@[simp] theorem put_n (h : Heap) (i x) : (h.put i x).n = h.n := rfl
@[simp] theorem put_space (h : Heap) (i x) : (h.put i x).space = h.space := rfl
@[simp] theorem put_key (h : Heap) (i x) : (h.put i x).key = h.key := rfl
@[simp] theorem put_arr_same (h : Heap) (i x) : (h.put i x).arr i = x := by simp [Heap.put]
theorem put_arr_ne (h : Heap) {i k : Nat} (x) (hk : k ≠ i) : (h.put i x).arr k = h.arr k := by simp [Heap.put, set_ne _ _ hk]
@[simp] theorem put_idx_same (h : Heap) (i x) : (h.put i x).idx x = i := by simp [Heap.put]
theorem put_idx_ne (h : Heap) {x y : Nat} (i) (hk : y ≠ x) : (h.put i x).idx y = h.idx y := by simp [Heap.put, set_ne _ _ hk]

theorem mem_elems {h : Heap} {x : Nat} : x ∈ elems h ↔ ∃ k, 1 ≤ k ∧ k ≤ h.n ∧ h.arr k = x := by
  simp only [elems, List.mem_map, List.mem_range]
  constructor
  · rintro ⟨i, hi, rfl⟩; exact ⟨i + 1, by omega, by omega, rfl⟩
  · rintro ⟨k, h1, h2, rfl⟩; exact ⟨k - 1, by omega, by rw [Nat.sub_add_cancel h1]⟩

theorem elems_length (h : Heap) : (elems h).length = h.n := by simp [elems]

theorem elems_nodup {h : Heap} (H : Indexed h) : (elems h).Nodup := by
  unfold elems
  refine List.Nodup.map_on ?_ List.nodup_range
  intro a ha b hb hab
  simp only [List.mem_range] at ha hb
  have h1 := H (a + 1) (by omega) (by omega)
  have h2 := H (b + 1) (by omega) (by omega)
  rw [hab] at h1
  omega

/-- All positions but the hole are indexed and hold something other than the node to be placed. -/
structure Hole (h : Heap) (node i : Nat) : Prop where
  idx : ∀ k, 1 ≤ k → k ≤ h.n → k ≠ i → h.idx (h.arr k) = k
  ne : ∀ k, 1 ≤ k → k ≤ h.n → k ≠ i → h.arr k ≠ node

/-- Moving the hole from `i` to another position `p`. -/
theorem Hole.move {h : Heap} {node i p : Nat} (H : Hole h node i) (hp1 : 1 ≤ p) (hpn : p ≤ h.n) (hpi : p ≠ i) :
    Hole (h.put i (h.arr p)) node p := by
  constructor
  · intro k k1 kn kp
    simp only [put_n] at kn
    by_cases hki : k = i
    · subst hki; simp
    · rw [put_arr_ne _ _ hki, put_idx_ne]
      · exact H.idx k k1 kn hki
      · intro he
        have h1 := H.idx k k1 kn hki
        have h2 := H.idx p hp1 hpn hpi
        rw [he] at h1; omega
  · intro k k1 kn kp
    simp only [put_n] at kn
    by_cases hki : k = i
    · subst hki; simp only [put_arr_same]; exact H.ne p hp1 hpn hpi
    · rw [put_arr_ne _ _ hki]; exact H.ne k k1 kn hki

theorem Hole.fill {h : Heap} {node i : Nat} (H : Hole h node i) : Indexed (h.put i node) := by
  intro k k1 kn
  simp only [put_n] at kn
  by_cases hki : k = i
  · subst hki; simp
  · rw [put_arr_ne _ _ hki, put_idx_ne _ _ (H.ne k k1 kn hki)]
    exact H.idx k k1 kn hki

/-- What placing a node in the hole does to content, indices and everything else. -/
structure Placed (h h' : Heap) (node i : Nat) : Prop where
  n : h'.n = h.n
  space : h'.space = h.space
  key : h'.key = h.key
  indexed : Indexed h'
  mem : ∀ x, x ∈ elems h' ↔ (x = node ∧ i ≤ h.n) ∨ ∃ k, 1 ≤ k ∧ k ≤ h.n ∧ k ≠ i ∧ h.arr k = x
  frame : ∀ x, x ≠ node → (∀ k, 1 ≤ k → k ≤ h.n → h.arr k ≠ x) → h'.idx x = h.idx x

theorem placed_put {h : Heap} {node i : Nat} (hi : 1 ≤ i) (H : Hole h node i) : Placed h (h.put i node) node i where
  n := rfl
  space := rfl
  key := rfl
  indexed := H.fill
  mem := by
    intro x
    rw [mem_elems]
    constructor
    · rintro ⟨k, k1, kn, rfl⟩
      simp only [put_n] at kn
      by_cases hki : k = i
      · subst hki; left; simp [kn]
      · right; exact ⟨k, k1, kn, hki, by rw [put_arr_ne _ _ hki]⟩
    · rintro (⟨rfl, hn⟩ | ⟨k, k1, kn, hki, rfl⟩)
      · exact ⟨i, hi, hn, by simp⟩
      · exact ⟨k, k1, kn, by rw [put_arr_ne _ _ hki]⟩
  frame := by
    intro x hx _
    exact put_idx_ne _ _ hx

theorem placed_move {h h' : Heap} {node i p : Nat} (hi1 : 1 ≤ i) (hp1 : 1 ≤ p) (hpn : p ≤ h.n) (hin : i ≤ h.n) (hpi : p ≠ i)
    (P : Placed (h.put i (h.arr p)) h' node p) : Placed h h' node i where
  n := P.n
  space := P.space
  key := P.key
  indexed := P.indexed
  mem := by
    intro x
    rw [P.mem]
    simp only [put_n]
    constructor
    · rintro (⟨rfl, _⟩ | ⟨k, k1, kn, kp, e⟩)
      · left; exact ⟨rfl, hin⟩
      · right
        by_cases hki : k = i
        · subst hki; simp only [put_arr_same] at e; exact ⟨p, hp1, hpn, hpi, e⟩
        · rw [put_arr_ne _ _ hki] at e; exact ⟨k, k1, kn, hki, e⟩
    · rintro (⟨rfl, _⟩ | ⟨k, k1, kn, ki, e⟩)
      · left; exact ⟨rfl, hpn⟩
      · right
        by_cases hkp : k = p
        · subst hkp; exact ⟨i, hi1, hin, Ne.symm hpi, by simp [e]⟩
        · exact ⟨k, k1, kn, hkp, by rw [put_arr_ne _ _ ki]; exact e⟩
  frame := by
    intro x hx hk
    rw [P.frame x hx]
    · exact put_idx_ne _ _ (Ne.symm (hk p hp1 hpn))
    · intro k k1 kn
      simp only [put_n] at kn
      by_cases hki : k = i
      · subst hki; simp only [put_arr_same]; exact hk p hp1 hpn
      · rw [put_arr_ne _ _ hki]; exact hk k k1 kn

theorem siftUp_placed (h : Heap) (node i : Nat) (hi : 1 ≤ i) (hin : i ≤ h.n) (H : Hole h node i) :
    Placed h (siftUp h node i) node i := by
  fun_induction siftUp h node i with
  | case1 h i hc ih =>
    exact placed_move hi (by omega) (by omega) hin (by omega)
      (ih (by omega) (by simp; omega) (H.move (by omega) (by omega) (by omega)))
  | case2 h i hc => exact placed_put hi H

theorem siftDown_placed (h : Heap) (node i : Nat) (hi : 1 ≤ i) (H : Hole h node i) :
    Placed h (siftDown h node i) node i := by
  fun_induction siftDown h node i with
  | case1 h i hc ih =>
    rcases childMin_eq h i with h2 | ⟨h2, h3⟩
    · rw [h2] at ih ⊢
      exact placed_move hi (by omega) (by omega) (by omega) (by omega)
        (ih (by omega) (H.move (by omega) (by omega) (by omega)))
    · rw [h2] at ih ⊢
      exact placed_move hi (by omega) (by omega) (by omega) (by omega)
        (ih (by omega) (H.move (by omega) (by omega) (by omega)))
  | case2 h i hc => exact placed_put hi H

/-- Order of everything except the edges at the hole. -/
structure HoleOrd (h : Heap) (i : Nat) : Prop where
  edge : ∀ k, 2 ≤ k → k ≤ h.n → k ≠ i → k / 2 ≠ i → h.key (h.arr (k / 2)) ≤ h.key (h.arr k)
  skip : ∀ k, 2 ≤ k → k ≤ h.n → k / 2 = i → 2 ≤ i → h.key (h.arr (i / 2)) ≤ h.key (h.arr k)

theorem siftUp_ordered (h : Heap) (node i : Nat) (hi : 1 ≤ i) (hin : i ≤ h.n) (O : HoleOrd h i)
    (hch : ∀ k, 2 ≤ k → k ≤ h.n → k / 2 = i → h.key node ≤ h.key (h.arr k)) : Ordered (siftUp h node i) := by
  fun_induction siftUp h node i with
  | case1 h i hc ih =>
    have hp : i / 2 ≠ i := by omega
    have a_i : (h.put i (h.arr (i / 2))).arr i = h.arr (i / 2) := put_arr_same _ _ _
    have a_ne : ∀ k, k ≠ i → (h.put i (h.arr (i / 2))).arr k = h.arr k := fun k hk => put_arr_ne _ _ hk
    refine ih (by omega) (by simp; omega) ⟨?_, ?_⟩ ?_
    · intro k k2 kn k1 k3
      simp only [put_n, put_key] at kn ⊢
      by_cases hki : k = i
      · subst hki; exact absurd rfl k3
      · rw [a_ne k hki]
        by_cases hk2 : k / 2 = i
        · rw [hk2, a_i]
          exact O.skip k k2 kn hk2 (by omega)
        · rw [a_ne _ hk2]; exact O.edge k k2 kn hki hk2
    · intro k k2 kn k3 hi2
      simp only [put_n, put_key] at kn ⊢
      have e1 : h.key (h.arr (i / 2 / 2)) ≤ h.key (h.arr (i / 2)) := O.edge (i / 2) hi2 (by omega) hp (by omega)
      have hne : i / 2 / 2 ≠ i := by omega
      rw [a_ne _ hne]
      by_cases hki : k = i
      · subst hki; rw [a_i]; exact e1
      · rw [a_ne k hki]
        have e2 := O.edge k k2 kn hki (by omega)
        rw [k3] at e2
        omega
    · intro k k2 kn k3
      simp only [put_n, put_key] at kn ⊢
      by_cases hki : k = i
      · subst hki; rw [a_i]; omega
      · rw [a_ne k hki]
        have e2 := O.edge k k2 kn hki (by omega)
        rw [k3] at e2
        omega
  | case2 h i hc =>
    intro k k2 kn
    simp only [put_n, put_key] at kn ⊢
    by_cases hki : k = i
    · subst hki
      rw [put_arr_same, put_arr_ne _ _ (by omega)]
      rw [not_and_or] at hc
      rcases hc with hc | hc
      · omega
      · omega
    · rw [put_arr_ne _ _ hki]
      by_cases hk2 : k / 2 = i
      · rw [hk2, put_arr_same]; exact hch k k2 kn hk2
      · rw [put_arr_ne _ _ hk2]; exact O.edge k k2 kn hki hk2

theorem childMin_le {h : Heap} {i k : Nat} (_ : i ≠ 0) (hk : k / 2 = i) (hkn : k ≤ h.n) :
    h.key (h.arr (childMin h i)) ≤ h.key (h.arr k) := by
  have : k = i * 2 ∨ k = i * 2 + 1 := by omega
  unfold childMin
  split
  · split
    · rcases this with rfl | rfl <;> omega
    · rcases this with rfl | rfl <;> omega
  · rcases this with rfl | rfl
    · omega
    · omega

theorem siftDown_ordered (h : Heap) (tail i : Nat) (_hi : 1 ≤ i) (O : HoleOrd h i)
    (hpar : 2 ≤ i → i ≤ h.n → h.key (h.arr (i / 2)) ≤ h.key tail) : Ordered (siftDown h tail i) := by
  fun_induction siftDown h tail i with
  | case1 h i hc ih =>
    have hcm := childMin_eq h i
    have hc2 : childMin h i / 2 = i := by rcases hcm with h2 | ⟨h2, _⟩ <;> omega
    have hcn : childMin h i ≤ h.n := by rcases hcm with h2 | ⟨h2, _⟩ <;> omega
    have hmin : ∀ k, k / 2 = i → k ≤ h.n → h.key (h.arr (childMin h i)) ≤ h.key (h.arr k) :=
      fun k hk hkn => childMin_le hc.1 hk hkn
    have hge := hc.2.2
    generalize childMin h i = c at *
    have a_i : (h.put i (h.arr c)).arr i = h.arr c := put_arr_same _ _ _
    have a_ne : ∀ k, k ≠ i → (h.put i (h.arr c)).arr k = h.arr k := fun k hk => put_arr_ne _ _ hk
    refine ih (by omega) ⟨?_, ?_⟩ ?_
    · intro k k2 kn k1 k3
      simp only [put_n, put_key] at kn ⊢
      by_cases hki : k = i
      · subst hki
        rw [a_i, a_ne _ (by omega)]
        exact O.skip c (by omega) hcn hc2 k2
      · rw [a_ne k hki]
        by_cases hk2 : k / 2 = i
        · rw [hk2, a_i]; exact hmin k hk2 kn
        · rw [a_ne _ hk2]; exact O.edge k k2 kn hki hk2
    · intro k k2 kn k3 _
      simp only [put_n, put_key] at kn ⊢
      rw [hc2, a_i, a_ne k (by omega)]
      have := O.edge k k2 kn (by omega) (by omega)
      rw [k3] at this; exact this
    · intro _ _
      simp only [put_key]
      rw [hc2, a_i]; exact hge
  | case2 h i hc =>
    intro k k2 kn
    simp only [put_n, put_key] at kn ⊢
    by_cases hki : k = i
    · subst hki
      rw [put_arr_same, put_arr_ne _ _ (by omega)]
      exact hpar k2 kn
    · rw [put_arr_ne _ _ hki]
      by_cases hk2 : k / 2 = i
      · rw [hk2, put_arr_same]
        have hm := childMin_le (h := h) (i := i) (k := k) (by omega) hk2 kn
        have : ¬ h.key tail ≥ h.key (h.arr (childMin h i)) := by
          intro hh; exact hc ⟨by omega, by omega, hh⟩
        omega
      · rw [put_arr_ne _ _ hk2]; exact O.edge k k2 kn hki hk2

/-- Insertion. -/
theorem add_spec {h : Heap} (H : Indexed h) {x : Nat} (hx : x ∉ elems h) (hs : h.n < h.space) :
    ∃ h', add h x = some h' ∧ h'.n = h.n + 1 ∧ h'.space = h.space ∧ h'.key = h.key ∧ Indexed h' ∧
      (∀ y, y ∈ elems h' ↔ y = x ∨ y ∈ elems h) ∧ (∀ y, y ≠ x → y ∉ elems h → h'.idx y = h.idx y) ∧
      (Ordered h → Ordered h') := by
  have hx' : ∀ k, 1 ≤ k → k ≤ h.n → h.arr k ≠ x := by
    intro k k1 kn e; exact hx (mem_elems.mpr ⟨k, k1, kn, e⟩)
  have hole : Hole { h with n := h.n + 1 } x (h.n + 1) :=
    ⟨fun k k1 kn kne => H k k1 (by simp only at kn; omega), fun k k1 kn kne => hx' k k1 (by simp only at kn; omega)⟩
  have P := siftUp_placed { h with n := h.n + 1 } x (h.n + 1) (by omega) (by simp) hole
  refine ⟨siftUp { h with n := h.n + 1 } x (h.n + 1), ?_, P.n, P.space, P.key, P.indexed, ?_, ?_, ?_⟩
  · unfold add; rw [if_neg (by omega)]
  · intro y
    rw [P.mem, mem_elems]
    constructor
    · rintro (⟨rfl, _⟩ | ⟨k, k1, kn, ki, e⟩)
      · exact Or.inl rfl
      · exact Or.inr ⟨k, k1, by simp only at kn; omega, e⟩
    · rintro (rfl | ⟨k, k1, kn, e⟩)
      · left; exact ⟨rfl, by simp⟩
      · right; exact ⟨k, k1, by simp only; omega, by omega, e⟩
  · intro y hy hm
    by_cases hlast : h.arr (h.n + 1) = y
    · -- the slot past the end is overwritten without being read
      have : ∀ (g : Heap) (i : Nat), 1 ≤ i → i ≤ g.n → (∀ k, 1 ≤ k → k ≤ g.n → k ≠ i → g.arr k ≠ y) →
          (siftUp g x i).idx y = g.idx y := by
        intro g i
        fun_induction siftUp g x i with
        | case1 g i hc ih =>
          intro i1 ig hg
          rw [ih (by omega) (by simp; omega) ?_]
          · exact put_idx_ne _ _ (Ne.symm (hg (i / 2) (by omega) (by omega) (by omega)))
          · intro k k1 kn ki
            simp only [put_n] at kn
            by_cases hki : k = i
            · subst hki; simp only [put_arr_same]; exact hg (k / 2) (by omega) (by omega) (by omega)
            · rw [put_arr_ne _ _ hki]; exact hg k k1 kn hki
        | case2 g i hc => intro _ _ _; exact put_idx_ne _ _ hy
      exact this { h with n := h.n + 1 } (h.n + 1) (by omega) (by simp) (by
        intro k k1 kn ki e
        exact hm (mem_elems.mpr ⟨k, k1, by simp only at kn; omega, e⟩))
    · apply P.frame y hy
      intro k k1 kn e
      simp only at kn e
      by_cases hk : k = h.n + 1
      · subst hk; exact hlast e
      · exact hm (mem_elems.mpr ⟨k, k1, by omega, e⟩)
  · intro O
    refine siftUp_ordered _ _ _ (by omega) (by simp) ⟨?_, ?_⟩ ?_
    · intro k k2 kn ki _
      simp only at kn
      exact O k k2 (by omega)
    · intro k k2 kn ki _
      simp only at kn; omega
    · intro k k2 kn ki
      simp only at kn; omega

theorem add_full {h : Heap} {x : Nat} (hs : h.space ≤ h.n) : add h x = none := by
  unfold add; rw [if_pos (by omega)]

/-- Deletion of the element at position `i`. -/
theorem del_spec {h : Heap} (H : Indexed h) {i : Nat} (hi : 1 ≤ i) (hin : i ≤ h.n) (hs : 1 ≤ h.space) :
    ∃ h', del h i = some (some h') ∧ h'.n = h.n - 1 ∧ h'.space = h.space ∧ h'.key = h.key ∧ Indexed h' ∧
      (∀ y, y ∈ elems h' ↔ y ≠ h.arr i ∧ y ∈ elems h) ∧ (∀ y, y ∉ elems h → h'.idx y = h.idx y) ∧
      (Ordered h → (Ordered h' ↔ i = 1 ∨ i = h.n ∨ h.key (h.arr (i / 2)) ≤ h.key (h.arr h.n))) := by
  have inj : ∀ a b, 1 ≤ a → a ≤ h.n → 1 ≤ b → b ≤ h.n → h.arr a = h.arr b → a = b := by
    intro a b a1 an b1 bn e
    have h1 := H a a1 an
    have h2 := H b b1 bn
    rw [e] at h1; omega
  have hole : Hole { h with n := h.n - 1 } (h.arr h.n) i :=
    ⟨fun k k1 kn kne => H k k1 (by simp only at kn; omega), fun k k1 kn kne e => by
      simp only at kn e
      have := inj k h.n k1 (by omega) (by omega) (by omega) e
      omega⟩
  have P := siftDown_placed { h with n := h.n - 1 } (h.arr h.n) i (by omega) hole
  refine ⟨siftDown { h with n := h.n - 1 } (h.arr h.n) i, ?_, P.n, P.space, P.key, P.indexed, ?_, ?_, ?_⟩
  · unfold del; rw [if_neg (by omega), if_neg (by omega), if_neg (by omega)]
  · intro y
    rw [P.mem, mem_elems]
    constructor
    · rintro (⟨rfl, hle⟩ | ⟨k, k1, kn, ki, e⟩)
      · refine ⟨?_, h.n, by omega, by omega, rfl⟩
        intro e
        have := inj h.n i (by omega) (by omega) hi hin e
        simp only at hle; omega
      · simp only at kn e
        refine ⟨?_, k, k1, by omega, e⟩
        rintro rfl
        exact ki (inj k i k1 (by omega) hi hin e)
    · rintro ⟨hne, k, k1, kn, rfl⟩
      by_cases hkn : k = h.n
      · subst hkn
        left
        refine ⟨rfl, ?_⟩
        simp only
        have : i ≠ h.n := by rintro rfl; exact hne rfl
        omega
      · right
        exact ⟨k, k1, by simp only; omega, by rintro rfl; exact hne rfl, rfl⟩
  · intro y hy
    apply P.frame y
    · rintro rfl; exact hy (mem_elems.mpr ⟨h.n, by omega, by omega, rfl⟩)
    · intro k k1 kn e
      simp only at kn
      exact hy (mem_elems.mpr ⟨k, k1, by omega, e⟩)
  · intro O
    constructor
    · intro O'
      by_cases h1 : i = 1
      · exact Or.inl h1
      · by_cases h2 : i = h.n
        · exact Or.inr (Or.inl h2)
        · right; right
          by_contra hlt
          -- the tail stays where it was put, below a larger parent
          have hstay : siftDown { h with n := h.n - 1 } (h.arr h.n) i = ({ h with n := h.n - 1 } : Heap).put i (h.arr h.n) := by
            rw [siftDown, dif_neg]
            rintro ⟨hne0, hle, hge⟩
            simp only at hle hge
            have e1 : h.key (h.arr i) ≤ h.key (h.arr (childMin { h with n := h.n - 1 } i)) := by
              rcases childMin_eq { h with n := h.n - 1 } i with hc | ⟨hc, hc2⟩
              · rw [hc]
                have := O (i * 2) (by omega) (by omega)
                rw [show i * 2 / 2 = i by omega] at this; exact this
              · rw [hc]
                simp only at hc2
                have := O (i * 2 + 1) (by omega) (by omega)
                rw [show (i * 2 + 1) / 2 = i by omega] at this; exact this
            have e2 := O i (by omega) (by omega)
            omega
          rw [hstay] at O'
          have := O' i (by omega) (by simp only [put_n]; omega)
          simp only [put_key, put_arr_same] at this
          rw [put_arr_ne _ _ (by omega)] at this
          exact hlt this
    · intro hsafe
      refine siftDown_ordered _ _ _ hi ⟨?_, ?_⟩ ?_
      · intro k k2 kn _ _
        simp only at kn
        exact O k k2 (by omega)
      · intro k k2 kn k3 i2
        simp only at kn
        have e1 := O k k2 (by omega)
        have e2 := O i i2 hin
        rw [k3] at e1
        simp only; omega
      · intro i2 hle
        simp only at hle ⊢
        rcases hsafe with h1 | h1 | h1
        · omega
        · omega
        · exact h1

theorem ordered_root {h : Heap} (O : Ordered h) : ∀ k, 1 ≤ k → k ≤ h.n → h.key (h.arr 1) ≤ h.key (h.arr k) := by
  intro k
  induction k using Nat.strong_induction_on with
  | _ k ih =>
    intro k1 kn
    by_cases h1 : k = 1
    · subst h1; omega
    · have e1 := ih (k / 2) (by omega) (by omega) (by omega)
      have e2 := O k (by omega) kn
      omega

end Verif.BHeap
