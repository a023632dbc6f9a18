import Verif.Proofs.Timer
import Verif.Spec.TimerLate
/-
A timer is never passed over for good: what deletions and insertions in the heap do to the nodes above another one, and to its position.
-/
namespace Verif.BHeap

/-- The positions from `p` up to the root. -/
inductive Anc (p : Nat) : Nat → Prop
  | self : Anc p p
  | up {j : Nat} : Anc p j → 2 ≤ j → Anc p (j / 2)

theorem Anc.le {p j : Nat} (h : Anc p j) : j ≤ p := by
  induction h with
  | self => exact Nat.le_refl _
  | up _ _ ih => omega

theorem Anc.pos {p j : Nat} (h : Anc p j) (hp : 1 ≤ p) : 1 ≤ j := by
  induction h with
  | self => exact hp
  | up _ _ ih => omega

theorem Anc.step {p j : Nat} (h : Anc p j) : j = p ∨ (2 ≤ p ∧ Anc (p / 2) j) := by
  induction h with
  | self => exact .inl rfl
  | up h1 h2 ih =>
    rcases ih with rfl | ⟨h3, h4⟩
    · exact .inr ⟨h2, .self⟩
    · exact .inr ⟨h3, .up h4 h2⟩

theorem Anc.under {p j : Nat} (h : Anc (p / 2) j) (hp : 2 ≤ p) : Anc p j := by
  induction h with
  | self => exact .up .self hp
  | up _ h2 ih => exact .up ih h2

theorem Anc.child {p i : Nat} (h : Anc p i) (hne : p ≠ i) : ∃ c, c / 2 = i ∧ 2 ≤ c ∧ Anc p c := by
  cases h with
  | self => exact absurd rfl hne
  | up h1 h2 => exact ⟨_, rfl, h2, h1⟩

theorem Anc.root {p : Nat} (hp : 1 ≤ p) : Anc p 1 := by
  induction p using Nat.strong_induction_on with
  | _ p ih =>
    by_cases h : p = 1
    · subst h; exact .self
    · exact (ih (p / 2) (by omega) (by omega)).under (by omega)

/-- Nothing above position `p`, nor what is there, has a key beyond `M`; position `i` is not looked at. -/
def OpenH (h : Heap) (M : Int) (i p : Nat) : Prop := ∀ j, Anc p j → j ≠ i → h.key (h.arr j) ≤ M

/-- The same with all positions. -/
def Open (h : Heap) (M : Int) (p : Nat) : Prop := ∀ j, Anc p j → h.key (h.arr j) ≤ M

theorem siftUp_open (h : Heap) (node i : Nat) (M : Int) (x p : Nat) (hi : 1 ≤ i) (hin : i ≤ h.n) (hx : h.arr p = x) (hpi : p ≠ i) (hp1 : 1 ≤ p) (hpn : p ≤ h.n)
    (ho : OpenH h M i p) (hd : Anc p i → h.key node ≤ M) :
    ∃ p', 1 ≤ p' ∧ p' ≤ h.n ∧ (siftUp h node i).arr p' = x ∧ Open (siftUp h node i) M p' ∧ (h.key x ≤ h.key node → p' = p) := by
  have keyM : ∀ (h : Heap) (i : Nat), (siftUp h node i).key = h.key := by
    intro h i
    fun_induction siftUp h node i with
    | case1 h i hc ih => rw [ih]; rfl
    | case2 h i hc => rfl
  fun_induction siftUp h node i generalizing p with
  | case1 h i hc ih =>
    have ai : (h.put i (h.arr (i / 2))).arr i = h.arr (i / 2) := put_arr_same _ _ _
    have ane : ∀ j, j ≠ i → (h.put i (h.arr (i / 2))).arr j = h.arr j := fun j hj => put_arr_ne _ _ hj
    have hlt := hc.2
    by_cases hp2 : p = i / 2
    · have hself : h.key (h.arr (i / 2)) ≤ M := ho (i / 2) (hp2 ▸ .self) (by omega)
      obtain ⟨p', q1, q2, q3, q4, q5⟩ := ih i (by omega) (by simp only [put_n]; omega) (by rw [ai, ← hp2]; exact hx) (by omega) hi hin
        (by
          intro j hj hne
          by_cases hji : j = i
          · subst hji; rw [ai]; exact hself
          · rw [ane j hji]
            rcases hj.step with e | ⟨-, e⟩
            · exact absurd e hji
            · exact ho j (hp2 ▸ e) hji)
        (fun _ => by simp only [put_key]; omega)
      refine ⟨p', q1, q2, q3, q4, fun hk => ?_⟩
      exfalso
      rw [← hx, hp2] at hk
      omega
    · exact ih p (by omega) (by simp only [put_n]; omega) (by rw [ane p hpi]; exact hx) hp2 hp1 hpn
        (by
          intro j hj hne
          by_cases hji : j = i
          · subst hji; rw [ai]; exact ho _ (.up hj (by omega)) (by omega)
          · rw [ane j hji]; exact ho j hj hji)
        (fun ha => by
          have := ho _ ha (by omega)
          simp only [put_key]; omega)
  | case2 h i hc =>
    refine ⟨p, hp1, hpn, by rw [put_arr_ne _ _ hpi]; exact hx, ?_, fun _ => rfl⟩
    intro j hj
    by_cases hji : j = i
    · subst hji; rw [put_arr_same]; exact hd hj
    · rw [put_arr_ne _ _ hji]; exact ho j hj hji

theorem siftDown_open (h : Heap) (tail i : Nat) (M : Int) (x p : Nat) (hi : 1 ≤ i) (hx : h.arr p = x) (hpi : p ≠ i) (hp1 : 1 ≤ p) (hpn : p ≤ h.n)
    (ho : OpenH h M i p) : ∃ p', 1 ≤ p' ∧ p' ≤ p ∧ (siftDown h tail i).arr p' = x ∧ Open (siftDown h tail i) M p' := by
  fun_induction siftDown h tail i generalizing p with
  | case1 h i hc ih =>
    have hcm := childMin_eq h i
    have hc2 : childMin h i / 2 = i := by rcases hcm with h2 | ⟨h2, _⟩ <;> omega
    have ai : (h.put i (h.arr (childMin h i))).arr i = h.arr (childMin h i) := put_arr_same _ _ _
    have ane : ∀ j, j ≠ i → (h.put i (h.arr (childMin h i))).arr j = h.arr j := fun j hj => put_arr_ne _ _ hj
    have hle : ∀ k, k / 2 = i → k ≤ h.n → h.key (h.arr (childMin h i)) ≤ h.key (h.arr k) := fun k hk hkn => childMin_le hc.1 hk hkn
    generalize childMin h i = c at *
    by_cases hpc : p = c
    · obtain ⟨p', q1, q2, q3, q4⟩ := ih i (by omega) (by rw [ai, ← hpc]; exact hx) (by omega) hi (by simp only [put_n]; omega)
        (by
          intro j hj hne
          by_cases hji : j = i
          · subst hji; rw [ai]; exact ho c (hpc ▸ .self) (by omega)
          · rw [ane j hji]
            refine ho j ?_ hji
            rw [hpc]
            exact (hc2 ▸ hj : Anc (c / 2) j).under (by omega))
      exact ⟨p', q1, by omega, q3, q4⟩
    · exact ih p (by omega) (by rw [ane p hpi]; exact hx) hpc hp1 hpn
        (by
          intro j hj hne
          by_cases hji : j = i
          · subst hji
            rw [ai]
            obtain ⟨k, k1, k2, k3⟩ := hj.child hpi
            have h1 := hle k k1 (by have := k3.le; omega)
            have h2 := ho k k3 (by omega)
            simp only [put_key]; omega
          · rw [ane j hji]; exact ho j hj hji)
  | case2 h i hc =>
    refine ⟨p, hp1, Nat.le_refl _, by rw [put_arr_ne _ _ hpi]; exact hx, ?_⟩
    intro j hj
    by_cases hji : j = i
    · subst hji
      rw [put_arr_same]
      obtain ⟨k, k1, k2, k3⟩ := hj.child hpi
      have hkn : k ≤ h.n := by have := k3.le; omega
      have h2 := ho k k3 (by omega)
      have h1 := childMin_le (h := h) (i := j) (by omega) k1 hkn
      have : ¬ h.key tail ≥ h.key (h.arr (childMin h j)) := fun hge => hc ⟨by omega, by omega, hge⟩
      simp only [put_key]; omega
    · rw [put_arr_ne _ _ hji]; exact ho j hj hji

theorem siftDown_tail (h : Heap) (tail i : Nat) (M : Int) (hi : 1 ≤ i) (hin : i ≤ h.n) (ht : h.key tail ≤ M) (ho : OpenH h M i i) :
    ∃ p', 1 ≤ p' ∧ p' ≤ h.n ∧ (siftDown h tail i).arr p' = tail ∧ Open (siftDown h tail i) M p' := by
  fun_induction siftDown h tail i with
  | case1 h i hc ih =>
    have hcm := childMin_eq h i
    have hc2 : childMin h i / 2 = i := by rcases hcm with h2 | ⟨h2, _⟩ <;> omega
    have hcn : childMin h i ≤ h.n := by rcases hcm with h2 | ⟨h2, _⟩ <;> omega
    refine ih (by omega) hcn ht ?_
    intro j hj hne
    rcases hj.step with e | ⟨-, e⟩
    · exact absurd e hne
    · rw [hc2] at e
      by_cases hji : j = i
      · subst hji; rw [put_arr_same]; have := hc.2.2; simp only [put_key]; omega
      · rw [put_arr_ne _ _ hji]; exact ho j e hji
  | case2 h i hc =>
    refine ⟨i, hi, hin, put_arr_same _ _ _, ?_⟩
    intro j hj
    by_cases hji : j = i
    · subst hji; rw [put_arr_same]; exact ht
    · rw [put_arr_ne _ _ hji]; exact ho j hj hji

/-- Insertion of another node, and the node at position `p`. -/
theorem add_open {h h' : Heap} {node p : Nat} {M : Int} (hadd : add h node = some h') (hp1 : 1 ≤ p) (hpn : p ≤ h.n) (ho : Open h M p) :
    ∃ p', 1 ≤ p' ∧ p' ≤ h'.n ∧ h'.arr p' = h.arr p ∧ Open h' M p' ∧ (h.key (h.arr p) ≤ h.key node → p' = p) := by
  unfold add at hadd
  split at hadd
  · cases hadd
  · cases hadd
    obtain ⟨p', q1, q2, q3, q4, q5⟩ := siftUp_open { h with n := h.n + 1 } node (h.n + 1) M (h.arr p) p (by omega) (Nat.le_refl _) rfl (by omega) hp1 (by dsimp only; omega)
      (fun j hj _ => ho j hj) (fun ha => by have := ha.le; omega)
    have hn : (siftUp { h with n := h.n + 1 } node (h.n + 1)).n = h.n + 1 := by
      have : ∀ (h : Heap) (i : Nat), (siftUp h node i).n = h.n := by
        intro h i
        fun_induction siftUp h node i with
        | case1 h i hc ih => rw [ih]; rfl
        | case2 h i hc => rfl
      rw [this]
    exact ⟨p', q1, by rw [hn]; exact q2, q3, q4, q5⟩

/-- Deletion at position `i`, and the node at another position `p`: it stays or rises, with nothing later above it than before; the last node takes the place of the deleted one. -/
theorem del_open {h h' : Heap} {i p : Nat} {M : Int} (hdel : del h i = some (some h')) (hp1 : 1 ≤ p) (hpn : p ≤ h.n) (hpi : p ≠ i) (ho : Open h M p) :
    ∃ p', 1 ≤ p' ∧ p' ≤ p ∧ p' ≤ h'.n ∧ h'.arr p' = h.arr p ∧ (Open h' M p' ∨ (p' < p ∧ i ≠ 1)) := by
  have hN : ∀ (tail : Nat) (h : Heap) (i : Nat), (siftDown h tail i).n = h.n := by
    intro tail h i
    fun_induction siftDown h tail i with
    | case1 h i hc ih => rw [ih]; rfl
    | case2 h i hc => rfl
  unfold del at hdel
  split at hdel
  · cases hdel
  · split at hdel
    · cases hdel
    · split at hdel
      · cases hdel
      · cases hdel
        rw [hN]
        dsimp only
        by_cases hpl : p = h.n
        · by_cases hi1 : i = 1
          · obtain ⟨p', q1, q2, q3, q4⟩ := siftDown_tail { h with n := h.n - 1 } (h.arr h.n) i M (by omega) (by dsimp only; omega) (ho _ (hpl ▸ .self))
              (fun j hj hne => by
                rcases hj.step with e | ⟨e, -⟩
                · exact absurd e hne
                · omega)
            dsimp only at q2
            exact ⟨p', q1, by omega, q2, by rw [q3, hpl], .inl q4⟩
          · have hmem : ∃ p', 1 ≤ p' ∧ p' ≤ h.n - 1 ∧ (siftDown { h with n := h.n - 1 } (h.arr h.n) i).arr p' = h.arr h.n := by
              have key : ∀ (tail : Nat) (h : Heap) (i : Nat), 1 ≤ i → i ≤ h.n → ∃ p', 1 ≤ p' ∧ p' ≤ h.n ∧ (siftDown h tail i).arr p' = tail := by
                intro tail h i
                fun_induction siftDown h tail i with
                | case1 h i hc ih =>
                  intro h1 h2
                  exact ih (by rcases childMin_eq h i with e | ⟨e, _⟩ <;> omega) (by rcases childMin_eq h i with e | ⟨e, _⟩ <;> simp only [put_n] <;> omega)
                | case2 h i hc => intro h1 h2; exact ⟨i, h1, h2, put_arr_same _ _ _⟩
              exact key _ { h with n := h.n - 1 } i (by omega) (by dsimp only; omega)
            obtain ⟨p', q1, q2, q3⟩ := hmem
            exact ⟨p', q1, by omega, q2, by rw [q3, hpl], .inr ⟨by omega, hi1⟩⟩
        · obtain ⟨p', q1, q2, q3, q4⟩ := siftDown_open { h with n := h.n - 1 } (h.arr h.n) i M (h.arr p) p (by omega) rfl hpi hp1 (by dsimp only; omega) (fun j hj _ => ho j hj)
          exact ⟨p', q1, q2, by omega, q3, .inl q4⟩

end Verif.BHeap

namespace Verif.Timer
open Verif.BHeap (Indexed Open elems mem_elems elems_nodup elems_length add_spec del_spec add_open del_open Anc)

/-- Timer `t` is in the heap, at position `q` or above it, and nothing above it is due later than `M`. -/
def Left (s : St) (t : Nat) (M : Int) (q : Nat) : Prop := ∃ p, 1 ≤ p ∧ p ≤ s.heap.n ∧ p ≤ q ∧ s.heap.arr p = t ∧ Open s.heap M p

theorem tmDel_left {U : List Nat} {s s' : St} {a : Armed} (I : Inv U s a) {t u : Nat} {M : Int} {q : Nat} (hne : u ≠ t) (hL : Left s t M q) (h : tmDel s u = some s') :
    Left s' t M q ∨ ((∀ K, (∀ x ∈ elems s'.heap, s'.heap.key x ≤ K) → Left s' t K (q - 1)) ∧ s.heap.arr 1 ≠ u ∧ 2 ≤ q) := by
  unfold tmDel at h
  split at h
  · rename_i hset
    obtain ⟨k, k1, kn, hk⟩ := mem_elems.mp ((I.mem u).mpr hset)
    have hidx : s.heap.idx u = k := by rw [← hk]; exact I.indexed k k1 kn
    obtain ⟨h', e1, e2, e3, e4, e5, e6, e7, e8⟩ := del_spec I.indexed k1 kn I.pos
    rw [hidx, e1] at h
    cases h
    obtain ⟨p, p1, p2, p3, p4, p5⟩ := hL
    have hpk : p ≠ k := by rintro rfl; exact hne (hk.symm.trans p4)
    obtain ⟨p', q1, q2, q3, q4, q5⟩ := del_open e1 p1 p2 hpk p5
    rcases q5 with q5 | ⟨q5, q6⟩
    · exact .inl ⟨p', q1, q3, by omega, by rw [← p4]; exact q4, q5⟩
    · refine .inr ⟨fun K hK => ⟨p', q1, q3, by omega, by rw [← p4]; exact q4, fun j hj => hK _ (mem_elems.mpr ⟨j, hj.pos q1, ?_, rfl⟩)⟩, ?_, by omega⟩
      · have := hj.le
        simp only [Option.getD_some]
        omega
      · intro e
        have h1 := I.indexed 1 (by omega) (by omega)
        rw [e, hidx] at h1
        exact q6 h1
  · cases h; exact .inl hL

theorem tmAdd_left {U : List Nat} {s s' : St} {a : Armed} (I : Inv U s a) {t u : Nat} {M : Int} {q : Nat} {d D : Int} (hu : u ∈ U) (hne : u ≠ t) (hL : Left s t M q)
    (ht : s.heap.key t ≤ s.now) (hd : 0 ≤ d) (hK : ∀ x e, a x = some e → e ≤ s.now + D) (h : tmAdd s u d = some s') :
    Left s' t M q ∨ (Left s' t (s.now + D) (q - 1) ∧ 2 ≤ q) := by
  obtain ⟨s1, e1, I1, n1, f1, -, -⟩ := tmDel_spec I u
  have hL1 : Left s1 t M q ∨ (Left s1 t (s.now + D) (q - 1) ∧ 2 ≤ q) := by
    rcases tmDel_left I hne hL e1 with g | ⟨g, -, g3⟩
    · exact .inl g
    · refine .inr ⟨g _ ?_, g3⟩
      intro x hx
      have hs := (I1.mem x).mp hx
      have h2 := I1.armed x
      rw [hs, if_pos rfl] at h2
      simp only [after] at h2
      split at h2
      · cases h2
      · exact hK x _ h2
  have hkt : s1.heap.key = s.heap.key := by
    unfold tmDel at e1
    split at e1
    · rename_i hset
      obtain ⟨k, k1, kn, hk⟩ := mem_elems.mp ((I.mem u).mpr hset)
      have hidx : s.heap.idx u = k := by rw [← hk]; exact I.indexed k k1 kn
      obtain ⟨h', c1, c2, c3, c4, -⟩ := del_spec I.indexed k1 kn I.pos
      rw [hidx, c1] at e1
      cases e1
      exact c4
    · cases e1; rfl
  have hnm : u ∉ elems s1.heap := fun h => by rw [(I1.mem u).mp h] at f1; cases f1
  have hroom : s1.heap.n < s1.heap.space := by
    have hnd : (u :: elems s1.heap).Nodup := List.nodup_cons.mpr ⟨hnm, elems_nodup I1.indexed⟩
    have hsub : (u :: elems s1.heap) ⊆ U := by
      intro x hx
      rw [List.mem_cons] at hx
      rcases hx with rfl | hx
      · exact hu
      · exact I1.univ x ((I1.mem x).mp hx)
    have := (hnd.subperm hsub).length_le
    rw [List.length_cons, elems_length] at this
    have := I1.room
    omega
  obtain ⟨h', a1, -⟩ := add_spec (x := u) (h := { s1.heap with key := BHeap.set s1.heap.key u (s1.now + d) }) I1.indexed hnm hroom
  unfold tmAdd at h
  rw [e1] at h
  simp only [Option.map_some, a1, Option.getD_some] at h
  cases h
  have key : ∀ M q, Left s1 t M q → Left { s1 with heap := h', set := BHeap.set s1.set u true } t M q := by
    rintro M q ⟨p, p1, p2, p3, p4, p5⟩
    have hu' : ∀ j, 1 ≤ j → j ≤ s1.heap.n → s1.heap.arr j ≠ u := fun j j1 jn e => hnm (mem_elems.mpr ⟨j, j1, jn, e⟩)
    have ho : Open { s1.heap with key := BHeap.set s1.heap.key u (s1.now + d) } M p := by
      intro j hj
      have := p5 j hj
      dsimp only
      rw [BHeap.set_ne _ _ (hu' j (hj.pos p1) (by have := hj.le; omega))]
      exact this
    obtain ⟨p', q1, q2, q3, q4, q5⟩ := add_open a1 p1 p2 ho
    refine ⟨p', q1, q2, ?_, by rw [q3]; exact p4, q4⟩
    have : p' = p := q5 (by
      dsimp only
      rw [p4, BHeap.set_ne _ _ (Ne.symm hne), BHeap.set_same, hkt, n1]
      omega)
    omega
  rcases hL1 with g | ⟨g, g2⟩
  · exact .inl (key _ _ g)
  · exact .inr ⟨key _ _ g, g2⟩

/-- What is known of a timer that was armed for `d` and not touched since: it will run by `B`. -/
structure Track (D g B : Int) (N t : Nat) (d last : Int) (s : St) (a : Armed) : Prop where
  armed : a t = some d
  seen : last ≤ s.now
  gap : s.now ≤ last + g
  all : ∀ x e, a x = some e → e ≤ s.now + D
  due : d ≤ s.now → ∃ M q, Left s t M q ∧ 1 ≤ q ∧ M + (q : Int) * (D + g) ≤ B + (D + g) ∧ last ≤ M

theorem Track.less {D g B : Int} {N t : Nat} {d last : Int} {s s' : St} {a a' : Armed} (T : Track D g B N t d last s a) (hn : s'.now = s.now) (ha : a' t = a t)
    (hall : ∀ x e, a' x = some e → e ≤ s.now + D)
    (hL : ∀ M q, d ≤ s.now → Left s t M q → Left s' t M q ∨ (Left s' t (s.now + D) (q - 1) ∧ 2 ≤ q)) (hD : 0 ≤ D) : Track D g B N t d last s' a' where
  armed := ha.trans T.armed
  seen := by rw [hn]; exact T.seen
  gap := by rw [hn]; exact T.gap
  all := by rw [hn]; exact hall
  due := by
    rw [hn]
    intro h
    obtain ⟨M, q, h1, h2, h3, h4⟩ := T.due h
    rcases hL M q h h1 with g1 | ⟨g1, g2⟩
    · exact ⟨M, q, g1, h2, h3, h4⟩
    · refine ⟨_, _, g1, by omega, ?_, by have := T.seen; omega⟩
      have h5 := T.gap
      have h6 : ((q - 1 : Nat) : Int) = (q : Int) - 1 := by omega
      rw [h6, Int.sub_mul]
      omega

theorem tmDel_track {D g B : Int} {N t u : Nat} {d last : Int} {U : List Nat} {s s' : St} {a : Armed} (I : Inv U s a) (T : Track D g B N t d last s a) (hD : 0 ≤ D)
    (hne : u ≠ t) (h : tmDel s u = some s') : Track D g B N t d last s' (after a (.cancel u)) := by
  obtain ⟨s1, e1, I1, n1, -⟩ := tmDel_spec I u
  rw [e1] at h; cases h
  have hall : ∀ x e, after a (.cancel u) x = some e → e ≤ s.now + D := by
    intro x e hx
    simp only [after] at hx
    split at hx
    · cases hx
    · exact T.all x e hx
  refine T.less n1 (by simp [after, Ne.symm hne]) hall ?_ hD
  intro M q _ hL
  rcases tmDel_left I hne hL e1 with g1 | ⟨g1, -, g3⟩
  · exact .inl g1
  · refine .inr ⟨g1 _ ?_, g3⟩
    intro x hx
    have hs := (I1.mem x).mp hx
    have h2 := I1.armed x
    rw [hs, if_pos rfl] at h2
    exact hall x _ h2

theorem act_track {D g B : Int} {N t : Nat} {d last : Int} {U : List Nat} {s s' : St} {a : Armed} {x : Act} {es : List Ev} (I : Inv U s a) (T : Track D g B N t d last s a)
    (hD : 0 ≤ D) (hx : x.timer ∈ U) (hne : x.timer ≠ t) (hw : x.within D) (h : act s x = some (es, s')) : Track D g B N t d last s' (es.foldl after a) := by
  cases x with
  | del u =>
    simp only [act, Option.map_eq_some_iff] at h
    obtain ⟨s1, h1, h2⟩ := h
    cases h2
    exact tmDel_track I T hD hne h1
  | add u e =>
    simp only [act, Option.map_eq_some_iff] at h
    obtain ⟨s1, h1, h2⟩ := h
    cases h2
    obtain ⟨s2, e1, I1, n1, -⟩ := tmAdd_spec I (t := u) hx e
    rw [e1] at h1; cases h1
    obtain ⟨w1, w2⟩ := hw
    replace hne : u ≠ t := hne
    refine T.less n1 (by simp [after, Ne.symm hne]) ?_ ?_ hD
    · intro x f hx
      simp only [List.foldl_cons, List.foldl_nil, after] at hx
      split at hx
      · cases hx; omega
      · exact T.all x f hx
    · intro M q hdue hL
      refine tmAdd_left I hx hne hL ?_ w1 T.all e1
      have h3 := I.armed t
      rw [T.armed] at h3
      split at h3
      · cases h3; exact hdue
      · cases h3

theorem acts_track {D g B : Int} {N t : Nat} {d last : Int} {U : List Nat} (hD : 0 ≤ D) : ∀ (xs : List Act) {s s' : St} {a : Armed} {es : List Ev}, Inv U s a →
    Track D g B N t d last s a → (∀ x ∈ xs, x.timer ∈ U ∧ x.timer ≠ t ∧ x.within D) → acts s xs = some (es, s') →
    Track D g B N t d last s' (es.foldl after a) ∧ s'.now = s.now
  | [], s, s', a, es, I, T, _, h => by cases h; exact ⟨T, rfl⟩
  | x :: xs, s, s', a, es, I, T, hx, h => by
    simp only [acts, Option.bind_eq_some_iff, Option.map_eq_some_iff] at h
    obtain ⟨⟨e1, s1⟩, h1, ⟨e2, s2⟩, h2, h3⟩ := h
    cases h3
    obtain ⟨e1', s1', r1, I1, n1, -⟩ := act_spec I (hx x (by simp)).1
    rw [r1] at h1; cases h1
    have T1 := act_track I T hD (hx x (by simp)).1 (hx x (by simp)).2.1 (hx x (by simp)).2.2 r1
    rw [List.foldl_append]
    obtain ⟨T2, n2⟩ := acts_track hD xs I1 T1 (fun y hy => hx y (by simp [hy])) h2
    exact ⟨T2, n2.trans n1⟩

/-- The end of a pass. -/
theorem Track.ended {D g B : Int} {N t : Nat} {d last : Int} {U : List Nat} {s : St} {a : Armed} {w : Int} (I : Inv U s a) (T : Track D g B N t d last s a) (hg : 0 ≤ g)
    (hE : Ended s w) : Track D g B N t d s.now s a := by
  refine ⟨T.armed, Int.le_refl _, by omega, T.all, fun h => ?_⟩
  obtain ⟨M, q, ⟨p, p1, p2, p3, p4, p5⟩, h2, h3, h4⟩ := T.due h
  refine ⟨M, q, ⟨p, p1, p2, p3, p4, p5⟩, h2, h3, ?_⟩
  rcases hE with ⟨hm, -⟩ | ⟨m, hm, hlt, -⟩
  · have := I.pos
    unfold BHeap.minNode at hm
    rw [if_neg (by omega)] at hm
    cases hm
  · obtain ⟨-, rfl, -⟩ := minNode_mem hm
    have := p5 1 (.root p1)
    omega

theorem expireQuiet_track {D g B : Int} {N t : Nat} {d last : Int} {U : List Nat} (hD : 0 ≤ D) (hg : 0 ≤ g) (s : St) : ∀ {s' : St} {a : Armed} {es : List Ev} {w : Int}, Inv U s a →
    Track D g B N t d last s a → expireQuiet s = some (es, w, s') → (∃ time, .fire t time ∈ es) ∨ Track D g B N t d s'.now s' (es.foldl after a) := by
  fun_induction expireQuiet s with
  | case1 s hm =>
    intro s' a es w I T h
    cases h
    exact .inr (T.ended I hg (.inl ⟨hm, rfl⟩))
  | case2 s m hm hk =>
    intro s' a es w I T h
    cases h
    exact .inr (T.ended I hg (.inr ⟨m, hm, by omega, rfl⟩))
  | case3 s m hm hk hd => intro s' a es w I T h; cases h
  | case4 s m hm hk s1 hd hlt ih =>
    intro s' a es w I T h
    simp only [Option.map_eq_some_iff] at h
    obtain ⟨⟨es', w', s3⟩, h1, h2⟩ := h
    cases h2
    obtain ⟨s1', e1, I1, n1, -⟩ := tmDel_spec I m
    rw [e1] at hd; cases hd
    by_cases hmt : m = t
    · subst hmt; exact .inl ⟨_, by simp; exact .inl rfl⟩
    · rcases ih I1 (tmDel_track I T hD hmt e1) h1 with ⟨time, g1⟩ | g1
      · exact .inl ⟨time, by simp [g1]⟩
      · exact .inr (by simpa [after] using g1)
  | case5 s m hm hk s1 hd hlt => intro s' a es w I T h; cases h

theorem expire_track {D g B : Int} {N t : Nat} {d last : Int} {U : List Nat} (hD : 0 ≤ D) (hg : 0 ≤ g) (s : St) (cbs : List (List Act)) : ∀ {s' : St} {a : Armed} {es : List Ev} {w : Int},
    Inv U s a → Track D g B N t d last s a → (∀ x ∈ cbs.flatten, x.timer ∈ U ∧ x.timer ≠ t ∧ x.within D) → expire s cbs = some (es, w, s') →
    (∃ time, .fire t time ∈ es) ∨ Track D g B N t d s'.now s' (es.foldl after a) := by
  fun_induction expire s cbs with
  | case1 s =>
    intro s' a es w I T _ h
    exact expireQuiet_track hD hg s I T h
  | case2 s cb rest hm =>
    intro s' a es w I T _ h
    cases h
    exact .inr (T.ended I hg (.inl ⟨hm, rfl⟩))
  | case3 s cb rest m hm hk =>
    intro s' a es w I T _ h
    cases h
    exact .inr (T.ended I hg (.inr ⟨m, hm, by omega, rfl⟩))
  | case4 s cb rest m hm hk hd => intro s' a es w I T _ h; cases h
  | case5 s cb rest m hm hk s1 hd ih =>
    intro s' a es w I T hU h
    obtain ⟨s1', e1, I1, n1, -⟩ := tmDel_spec I m
    rw [e1] at hd; cases hd
    simp only [Option.bind_eq_some_iff, Option.map_eq_some_iff] at h
    obtain ⟨⟨e2, s2⟩, h2, ⟨e3, w3, s3⟩, h3, h4⟩ := h
    cases h4
    by_cases hmt : m = t
    · subst hmt; exact .inl ⟨_, by simp; exact .inl rfl⟩
    · obtain ⟨es2, s2', r2, I2, n2, -⟩ := acts_spec cb I1 (fun x hx => (hU x (by simp [hx])).1)
      rw [r2] at h2; cases h2
      obtain ⟨T2, -⟩ := acts_track hD cb I1 (tmDel_track I T hD hmt e1) (fun x hx => hU x (by simp [hx])) r2
      rcases ih s2 I2 T2 (fun x hx => hU x (by simp at hx ⊢; right; exact hx)) h3 with ⟨time, g1⟩ | g1
      · exact .inl ⟨time, by simp [g1]⟩
      · exact .inr (by simpa [List.foldl_append, after] using g1)

/-- The clock goes on. -/
theorem Track.clock {D g B : Int} {N t : Nat} {d last n : Int} {U : List Nat} {s : St} {a : Armed} (hD : 0 ≤ D) (hU : U.length ≤ N) (hB : d + (N : Int) * (D + g) ≤ B)
    (I : Inv U s a) (T : Track D g B N t d last s a) (t1 : s.now ≤ n) (t2 : n ≤ last + g) : Track D g B N t d last { s with now := n } a := by
  refine ⟨T.armed, by have := T.seen; dsimp only; omega, t2, fun x e hx => by have := T.all x e hx; dsimp only; omega, fun hdue => ?_⟩
  dsimp only at hdue
  by_cases h0 : d ≤ s.now
  · exact T.due h0
  · have hset : s.set t = true := by
      have h3 := I.armed t
      rw [T.armed] at h3
      split at h3
      · assumption
      · cases h3
    obtain ⟨p, p1, p2, p3⟩ := mem_elems.mp ((I.mem t).mpr hset)
    have hnN : s.heap.n ≤ N := by
      have hsub : elems s.heap ⊆ U := fun x hx => I.univ x ((I.mem x).mp hx)
      have := ((elems_nodup I.indexed).subperm hsub).length_le
      rw [elems_length] at this
      omega
    refine ⟨n + D, N, ⟨p, p1, p2, by omega, p3, fun j hj => ?_⟩, by omega, ?_, by have := T.seen; omega⟩
    · have hs : s.set (s.heap.arr j) = true := (I.mem _).mp (mem_elems.mpr ⟨j, hj.pos p1, by have := hj.le; omega, rfl⟩)
      have h3 := I.armed (s.heap.arr j)
      rw [hs, if_pos rfl] at h3
      have := T.all _ _ h3
      dsimp only
      omega
    · have := T.seen; omega

theorem run_track {D g B : Int} {N t : Nat} {d : Int} {U : List Nat} (hD : 0 ≤ D) (hg : 0 ≤ g) (hU : U.length ≤ N) (hB : d + (N : Int) * (D + g) ≤ B) : ∀ (ops : List Op) {s s' : St} {a : Armed}
    {es : List Ev} {last : Int}, Inv U s a → Track D g B N t d last s a → (∀ op ∈ ops, ∀ u ∈ op.timers, u ∈ U ∧ u ≠ t) → Timely D g last s.now ops → run s ops = some (es, s') →
    (∃ time, .fire t time ∈ es) ∨ (Track D g B N t d (lastOf last s.now ops).1 s' (es.foldl after a) ∧ Inv U s' (es.foldl after a))
  | [], s, s', a, es, last, I, T, _, _, h => by cases h; exact .inr ⟨T, I⟩
  | .act x :: ops, s, s', a, es, last, I, T, hU', hT, h => by
    simp only [run, step, Option.bind_eq_some_iff, Option.map_eq_some_iff] at h
    obtain ⟨⟨e1, s1⟩, h1, ⟨e2, s2⟩, h2, h3⟩ := h
    cases h3
    have hx := hU' (.act x) (by simp) x.timer (by simp [Op.timers])
    obtain ⟨e1', s1', r1, I1, n1, -⟩ := act_spec I hx.1
    rw [r1] at h1; cases h1
    have T1 := act_track I T hD hx.1 hx.2 hT.1 r1
    rcases run_track hD hg hU hB ops I1 T1 (fun o ho => hU' o (by simp [ho])) (by rw [n1]; exact hT.2) h2 with ⟨time, g1⟩ | ⟨g1, g2⟩
    · exact .inl ⟨time, by simp [g1]⟩
    · rw [n1] at g1
      rw [List.foldl_append]
      exact .inr ⟨g1, g2⟩
  | .clock n :: ops, s, s', a, es, last, I, T, hU', hT, h => by
    simp only [run, step, Option.bind_some, Option.map_eq_some_iff] at h
    obtain ⟨⟨e2, s2⟩, h2, h3⟩ := h
    cases h3
    obtain ⟨t1, t2, t3⟩ := hT
    have I1 : Inv U { s with now := n } a := ⟨I.indexed, I.room, I.pos, I.mem, I.armed, I.univ⟩
    have T1 : Track D g B N t d last { s with now := n } a := T.clock hD hU hB I t1 t2
    rcases run_track hD hg hU hB ops I1 T1 (fun o ho => hU' o (by simp [ho])) t3 h2 with ⟨time, g1⟩ | ⟨g1, g2⟩
    · exact .inl ⟨time, by simp [g1]⟩
    · exact .inr ⟨by simpa [lastOf] using g1, by simpa using g2⟩
  | .expire cbs :: ops, s, s', a, es, last, I, T, hU', hT, h => by
    simp only [run, step, Option.bind_eq_some_iff, Option.map_eq_some_iff] at h
    obtain ⟨⟨e1, s1⟩, ⟨⟨e1', w, s1'⟩, h0, h1⟩, ⟨e2, s2⟩, h2, h3⟩ := h
    cases h3
    cases h1
    have hx : ∀ x ∈ cbs.flatten, x.timer ∈ U ∧ x.timer ≠ t := fun x hx => hU' (.expire cbs) (by simp) x.timer (by simp only [Op.timers, List.mem_map]; exact ⟨x, hx, rfl⟩)
    obtain ⟨es1, w1, s1', r1, I1, n1, -⟩ := expire_spec s cbs I (fun x h => (hx x h).1)
    rw [r1] at h0; cases h0
    rcases expire_track hD hg s cbs I T (fun x h => ⟨(hx x h).1, (hx x h).2, hT.1 x h⟩) r1 with ⟨time, g1⟩ | T1
    · exact .inl ⟨time, by simp [g1]⟩
    · rcases run_track hD hg hU hB ops I1 T1 (fun o ho => hU' o (by simp [ho])) (by rw [n1]; exact hT.2) h2 with ⟨time, g1⟩ | ⟨g1, g2⟩
      · exact .inl ⟨time, by simp [g1]⟩
      · rw [List.foldl_append]
        rw [n1] at g1
        exact .inr ⟨g1, g2⟩

/-! ### Deadlines of all timers -/

theorem after_all {K : Int} : ∀ (es : List Ev) {a : Armed}, (∀ x e, a x = some e → e ≤ K) → (∀ x e, .arm x e ∈ es → e ≤ K) → ∀ x e, (es.foldl after a) x = some e → e ≤ K
  | [], a, ha, _ => ha
  | ev :: es, a, ha, h => by
    refine after_all es (a := after a ev) ?_ (fun x e hx => h x e (by simp [hx]))
    intro x e hx
    cases ev with
    | arm u f =>
      simp only [after] at hx
      split at hx
      · cases hx; exact h u e (by simp)
      · exact ha x e hx
    | cancel u => simp only [after] at hx; split at hx; cases hx; exact ha x e hx
    | fire u f => simp only [after] at hx; split at hx; cases hx; exact ha x e hx

theorem act_near {D : Int} {s s' : St} {x : Act} {es : List Ev} (hw : x.within D) (h : act s x = some (es, s')) : ∀ u e, .arm u e ∈ es → e ≤ s.now + D := by
  intro u e hm
  cases x with
  | add t d =>
    simp only [act, Option.map_eq_some_iff] at h
    obtain ⟨s1, -, h2⟩ := h
    cases h2
    simp at hm
    obtain ⟨-, rfl⟩ := hm
    have := hw.2
    omega
  | del t =>
    simp only [act, Option.map_eq_some_iff] at h
    obtain ⟨s1, -, h2⟩ := h
    cases h2
    simp at hm

theorem acts_near {D : Int} {U : List Nat} : ∀ (xs : List Act) {s s' : St} {a : Armed} {es : List Ev}, Inv U s a → (∀ x ∈ xs, x.timer ∈ U ∧ x.within D) → acts s xs = some (es, s') →
    ∀ u e, .arm u e ∈ es → e ≤ s.now + D
  | [], s, s', a, es, I, _, h => by cases h; simp
  | x :: xs, s, s', a, es, I, hx, h => by
    simp only [acts, Option.bind_eq_some_iff, Option.map_eq_some_iff] at h
    obtain ⟨⟨e1, s1⟩, h1, ⟨e2, s2⟩, h2, h3⟩ := h
    cases h3
    obtain ⟨e1', s1', r1, I1, n1, -⟩ := act_spec I (hx x (by simp)).1
    rw [r1] at h1; cases h1
    intro u e hm
    rcases List.mem_append.mp hm with hm | hm
    · exact act_near (hx x (by simp)).2 r1 u e hm
    · rw [← n1]; exact acts_near xs I1 (fun y hy => hx y (by simp [hy])) h2 u e hm

theorem expireQuiet_near (s : St) : ∀ {s' : St} {es : List Ev} {w : Int}, expireQuiet s = some (es, w, s') → ∀ u e, .arm u e ∉ es := by
  fun_induction expireQuiet s with
  | case1 s hm => intro s' es w h; cases h; simp
  | case2 s m hm hk => intro s' es w h; cases h; simp
  | case3 s m hm hk hd => intro s' es w h; cases h
  | case4 s m hm hk s1 hd hlt ih =>
    intro s' es w h
    simp only [Option.map_eq_some_iff] at h
    obtain ⟨⟨es', w', s3⟩, h1, h2⟩ := h
    cases h2
    intro u e hm
    exact ih h1 u e (by simpa using hm)
  | case5 s m hm hk s1 hd hlt => intro s' es w h; cases h

theorem expire_near {D : Int} {U : List Nat} (s : St) (cbs : List (List Act)) : ∀ {s' : St} {a : Armed} {es : List Ev} {w : Int}, Inv U s a →
    (∀ x ∈ cbs.flatten, x.timer ∈ U ∧ x.within D) → expire s cbs = some (es, w, s') → ∀ u e, .arm u e ∈ es → e ≤ s.now + D := by
  fun_induction expire s cbs with
  | case1 s => intro s' a es w _ _ h u e hm; exact absurd hm (expireQuiet_near s h u e)
  | case2 s cb rest hm => intro s' a es w _ _ h; cases h; simp
  | case3 s cb rest m hm hk => intro s' a es w _ _ h; cases h; simp
  | case4 s cb rest m hm hk hd => intro s' a es w _ _ h; cases h
  | case5 s cb rest m hm hk s1 hd ih =>
    intro s' a es w I hU h
    obtain ⟨s1', e1, I1, n1, -⟩ := tmDel_spec I m
    rw [e1] at hd; cases hd
    simp only [Option.bind_eq_some_iff, Option.map_eq_some_iff] at h
    obtain ⟨⟨e2, s2⟩, h2, ⟨e3, w3, s3⟩, h3, h4⟩ := h
    cases h4
    obtain ⟨es2, s2', r2, I2, n2, -⟩ := acts_spec cb I1 (fun x hx => (hU x (by simp [hx])).1)
    rw [r2] at h2; cases h2
    intro u e hm
    have hm' : Ev.arm u e ∈ e2 ∨ Ev.arm u e ∈ e3 := by simpa using hm
    rcases hm' with hm | hm
    · rw [← n1]; exact acts_near cb I1 (fun x hx => hU x (by simp [hx])) r2 u e hm
    · rw [← n1, ← n2]; exact ih s2 I2 (fun x hx => hU x (by simp at hx ⊢; right; exact hx)) h3 u e hm

theorem timely_append {D g : Int} : ∀ (xs ys : List Op) (last now : Int),
    Timely D g last now (xs ++ ys) ↔ Timely D g last now xs ∧ Timely D g (lastOf last now xs).1 (lastOf last now xs).2 ys
  | [], ys, last, now => by simp [Timely, lastOf]
  | .act x :: xs, ys, last, now => by simp only [List.cons_append, Timely, lastOf, timely_append xs ys, and_assoc]
  | .clock n :: xs, ys, last, now => by simp only [List.cons_append, Timely, lastOf, timely_append xs ys, and_assoc]
  | .expire c :: xs, ys, last, now => by simp only [List.cons_append, Timely, lastOf, timely_append xs ys, and_assoc]

theorem run_all {D g : Int} {U : List Nat} (hD : 0 ≤ D) (hg : 0 ≤ g) : ∀ (ops : List Op) {s s' : St} {a : Armed} {es : List Ev} {last : Int}, Inv U s a →
    (∀ op ∈ ops, ∀ u ∈ op.timers, u ∈ U) → Timely D g last s.now ops → last ≤ s.now → s.now ≤ last + g → (∀ x e, a x = some e → e ≤ s.now + D) → run s ops = some (es, s') →
    (lastOf last s.now ops).2 = s'.now ∧ (lastOf last s.now ops).1 ≤ s'.now ∧ s'.now ≤ (lastOf last s.now ops).1 + g ∧ (∀ x e, (es.foldl after a) x = some e → e ≤ s'.now + D) ∧
      Inv U s' (es.foldl after a)
  | [], s, s', a, es, last, I, _, _, h1, h2, h3, h => by cases h; exact ⟨rfl, h1, h2, h3, I⟩
  | .act x :: ops, s, s', a, es, last, I, hU, hT, p1, p2, p3, h => by
    simp only [run, step, Option.bind_eq_some_iff, Option.map_eq_some_iff] at h
    obtain ⟨⟨e1, s1⟩, h1, ⟨e2, s2⟩, h2, h3⟩ := h
    cases h3
    have hx := hU (.act x) (by simp) x.timer (by simp [Op.timers])
    obtain ⟨e1', s1', r1, I1, n1, -⟩ := act_spec I hx
    rw [r1] at h1; cases h1
    have := run_all hD hg ops I1 (fun o ho => hU o (by simp [ho])) (by rw [n1]; exact hT.2) (by rw [n1]; exact p1) (by rw [n1]; exact p2)
      (by rw [n1]; exact after_all e1 p3 (act_near hT.1 r1)) h2
    rw [n1] at this
    rw [List.foldl_append]
    exact this
  | .clock n :: ops, s, s', a, es, last, I, hU, hT, p1, p2, p3, h => by
    simp only [run, step, Option.bind_some, Option.map_eq_some_iff] at h
    obtain ⟨⟨e2, s2⟩, h2, h3⟩ := h
    cases h3
    obtain ⟨t1, t2, t3⟩ := hT
    have I1 : Inv U { s with now := n } a := ⟨I.indexed, I.room, I.pos, I.mem, I.armed, I.univ⟩
    have := run_all hD hg ops I1 (fun o ho => hU o (by simp [ho])) t3 (by dsimp only; omega) t2 (fun x e hx => by have := p3 x e hx; dsimp only; omega) h2
    simpa [lastOf] using this
  | .expire cbs :: ops, s, s', a, es, last, I, hU, hT, p1, p2, p3, h => by
    simp only [run, step, Option.bind_eq_some_iff, Option.map_eq_some_iff] at h
    obtain ⟨⟨e1, s1⟩, ⟨⟨e1', w, s1'⟩, h0, h1⟩, ⟨e2, s2⟩, h2, h3⟩ := h
    cases h3
    cases h1
    have hx : ∀ x ∈ cbs.flatten, x.timer ∈ U := fun x hx => hU (.expire cbs) (by simp) x.timer (by simp only [Op.timers, List.mem_map]; exact ⟨x, hx, rfl⟩)
    obtain ⟨es1, w1, s1', r1, I1, n1, -⟩ := expire_spec s cbs I hx
    rw [r1] at h0; cases h0
    have hle : s.now ≤ s.now := Int.le_refl _
    have := run_all hD hg ops (last := s.now) I1 (fun o ho => hU o (by simp [ho])) (by rw [n1]; exact hT.2) (by rw [n1]; exact hle) (by rw [n1]; omega)
      (by rw [n1]; exact after_all e1' p3 (expire_near s cbs I (fun x h => ⟨hx x h, hT.1 x h⟩) r1)) h2
    rw [n1] at this
    rw [List.foldl_append]
    exact this

theorem run_app : ∀ (xs ys : List Op) (s : St), run s (xs ++ ys) = (run s xs).bind fun (e, s1) => (run s1 ys).map fun (es, s2) => (e ++ es, s2)
  | [], ys, s => by simp [run]
  | x :: xs, ys, s => by
    simp only [List.cons_append, run]
    cases hx : step s x with
    | none => rfl
    | some r =>
      simp only [Option.bind_some, run_app xs ys]
      cases hy : run r.2 xs with
      | none => rfl
      | some q =>
        simp only [Option.bind_some, Option.map_some]
        cases run q.2 ys with
        | none => rfl
        | some z => simp

/-- A timer just armed. -/
theorem armed_track {U : List Nat} {D g : Int} {t : Nat} {δ last : Int} {s s' : St} {a : Armed} {es : List Ev} (I : Inv U s a) (hD : 0 ≤ D) (hg : 0 ≤ g) (ht : t ∈ U)
    (hw : (Act.add t δ).within D) (p1 : last ≤ s.now) (p2 : s.now ≤ last + g) (p3 : ∀ x e, a x = some e → e ≤ s.now + D) (h : act s (.add t δ) = some (es, s')) :
    Track D g (s.now + δ + (U.length : Int) * (D + g)) U.length t (s.now + δ) last s' (es.foldl after a) ∧ Inv U s' (es.foldl after a) ∧ s'.now = s.now := by
  obtain ⟨es', s1, r1, I1, n1, -⟩ := act_spec I (x := .add t δ) ht
  rw [r1] at h; cases h
  have hes : es = [.arm t (s.now + δ)] := by
    simp only [act, Option.map_eq_some_iff] at r1
    obtain ⟨s2, -, r2⟩ := r1
    cases r2; rfl
  have hall := after_all es p3 (act_near hw r1)
  refine ⟨⟨by rw [hes]; simp [after], by rw [n1]; exact p1, by rw [n1]; exact p2, by rw [n1]; exact hall, fun hdue => ?_⟩, I1, n1⟩
  have hset : s'.set t = true := by
    have h1 := I1.armed t
    rw [hes] at h1
    simp only [List.foldl_cons, List.foldl_nil, after, if_true] at h1
    split at h1
    · assumption
    · cases h1
  obtain ⟨p, q1, q2, q3⟩ := mem_elems.mp ((I1.mem t).mpr hset)
  have hN : s'.heap.n ≤ U.length := by
    have := ((elems_nodup I1.indexed).subperm (fun x hx => I1.univ x ((I1.mem x).mp hx))).length_le
    rwa [elems_length] at this
  refine ⟨s.now + D, U.length, ⟨p, q1, q2, by omega, q3, fun j hj => ?_⟩, by omega, ?_, by omega⟩
  · have hm : s'.heap.arr j ∈ elems s'.heap := mem_elems.mpr ⟨j, hj.pos q1, by have := hj.le; omega, rfl⟩
    have hs := (I1.mem _).mp hm
    have h2 := I1.armed (s'.heap.arr j)
    rw [hs, if_pos rfl] at h2
    exact hall _ _ h2
  · have := hw.1
    omega

/-! ### All timers at once -/

/-- Every armed timer will run by its deadline and `N·(D + g)`. -/
structure Kept (D g : Int) (U : List Nat) (last : Int) (s : St) (a : Armed) : Prop where
  seen : last ≤ s.now
  gap : s.now ≤ last + g
  all : ∀ x e, a x = some e → e ≤ s.now + D
  each : ∀ t d, a t = some d → Track D g (d + (U.length : Int) * (D + g)) U.length t d last s a

theorem Track.bound {D g B : Int} {N t : Nat} {d last : Int} {s : St} {a : Armed} (T : Track D g B N t d last s a) (hD : 0 ≤ D) (hg : 0 ≤ g) (hB : d ≤ B) : last ≤ B := by
  by_cases h : d ≤ s.now
  · obtain ⟨M, q, -, q1, q2, q3⟩ := T.due h
    have : (1 : Int) * (D + g) ≤ (q : Int) * (D + g) := Int.mul_le_mul_of_nonneg_right (by omega) (by omega)
    omega
  · have := T.seen
    omega

theorem act_kept {D g : Int} {U : List Nat} {last : Int} {s s' : St} {a : Armed} {x : Act} {es : List Ev} (I : Inv U s a) (K : Kept D g U last s a) (hD : 0 ≤ D) (hg : 0 ≤ g)
    (hx : x.timer ∈ U) (hw : x.within D) (h : act s x = some (es, s')) : Kept D g U last s' (es.foldl after a) ∧ s'.now = s.now := by
  obtain ⟨es1, s1, r1, I1, n1, -⟩ := act_spec I hx
  rw [r1] at h; cases h
  refine ⟨⟨by rw [n1]; exact K.seen, by rw [n1]; exact K.gap, by rw [n1]; exact after_all es K.all (act_near hw r1), fun t d ht => ?_⟩, n1⟩
  by_cases hne : x.timer = t
  · cases x with
    | add u δ =>
      replace hne : u = t := hne
      subst hne
      have hes : es = [.arm u (s.now + δ)] := by
        simp only [act, Option.map_eq_some_iff] at r1
        obtain ⟨s2, -, r2⟩ := r1
        cases r2; rfl
      have hd : d = s.now + δ := by
        rw [hes] at ht
        simp [after] at ht
        exact ht.symm
      rw [hd]
      exact (armed_track I hD hg hx hw K.seen K.gap K.all r1).1
    | del u =>
      replace hne : u = t := hne
      subst hne
      simp only [act, Option.map_eq_some_iff] at r1
      obtain ⟨s2, -, r2⟩ := r1
      cases r2
      simp [after] at ht
  · have hold : a t = some d := by
      cases x with
      | add u δ =>
        simp only [act, Option.map_eq_some_iff] at r1
        obtain ⟨s2, -, r2⟩ := r1
        cases r2
        replace hne : ¬ u = t := hne
        simpa [after, Ne.symm hne] using ht
      | del u =>
        simp only [act, Option.map_eq_some_iff] at r1
        obtain ⟨s2, -, r2⟩ := r1
        cases r2
        replace hne : ¬ u = t := hne
        simpa [after, Ne.symm hne] using ht
    exact act_track I (K.each t d hold) hD hx hne hw r1

theorem acts_kept {D g : Int} {U : List Nat} {last : Int} (hD : 0 ≤ D) (hg : 0 ≤ g) : ∀ (xs : List Act) {s s' : St} {a : Armed} {es : List Ev}, Inv U s a → Kept D g U last s a →
    (∀ x ∈ xs, x.timer ∈ U ∧ x.within D) → acts s xs = some (es, s') → Kept D g U last s' (es.foldl after a) ∧ s'.now = s.now ∧ ∀ t time, .fire t time ∉ es
  | [], s, s', a, es, I, K, _, h => by cases h; exact ⟨K, rfl, by simp⟩
  | x :: xs, s, s', a, es, I, K, hx, h => by
    simp only [acts, Option.bind_eq_some_iff, Option.map_eq_some_iff] at h
    obtain ⟨⟨e1, s1⟩, h1, ⟨e2, s2⟩, h2, h3⟩ := h
    cases h3
    obtain ⟨e1', s1', r1, I1, n1, -⟩ := act_spec I (hx x (by simp)).1
    rw [r1] at h1; cases h1
    obtain ⟨K1, -⟩ := act_kept I K hD hg (hx x (by simp)).1 (hx x (by simp)).2 r1
    obtain ⟨K2, n2, f2⟩ := acts_kept hD hg xs I1 K1 (fun y hy => hx y (by simp [hy])) h2
    rw [List.foldl_append]
    refine ⟨K2, n2.trans n1, fun t time hm => ?_⟩
    rcases List.mem_append.mp hm with hm | hm
    · cases x with
      | add u δ =>
        simp only [act, Option.map_eq_some_iff] at r1
        obtain ⟨s2, -, r2⟩ := r1
        cases r2
        simp at hm
      | del u =>
        simp only [act, Option.map_eq_some_iff] at r1
        obtain ⟨s2, -, r2⟩ := r1
        cases r2
        simp at hm
    · exact f2 t time hm

theorem notLater_quiet {K : Int} : ∀ (es es' : List Ev) (a : Armed), (∀ t time, .fire t time ∉ es) → NotLater K (es.foldl after a) es' → NotLater K a (es ++ es')
  | [], _, _, _, h => h
  | e :: es, es', a, hf, h => by
    refine ⟨?_, notLater_quiet es es' (after a e) (fun t time hm => hf t time (by simp [hm])) h⟩
    cases e with
    | fire t time => exact absurd (by simp) (hf t time)
    | arm t d => trivial
    | cancel t => trivial

theorem notLater_append {K : Int} : ∀ (es es' : List Ev) (a : Armed), NotLater K a es → NotLater K (es.foldl after a) es' → NotLater K a (es ++ es')
  | [], _, _, _, h => h
  | e :: es, es', a, h1, h2 => ⟨h1.1, notLater_append es es' (after a e) h1.2 h2⟩

/-- One callback: the timer at the root is taken out. -/
theorem fire_kept {D g : Int} {U : List Nat} {last : Int} {s s' : St} {a : Armed} {m : Nat} (hD : 0 ≤ D) (hg : 0 ≤ g) (I : Inv U s a) (K : Kept D g U last s a)
    (hm : BHeap.minNode s.heap = some m) (h : tmDel s m = some s') :
    Kept D g U last s' (after a (.fire m s.now)) ∧ s'.now = s.now ∧ ∃ d, a m = some d ∧ s.now ≤ d + ((U.length : Int) * (D + g) + g) := by
  obtain ⟨s1, e1, I1, n1, -⟩ := tmDel_spec I m
  rw [e1] at h; cases h
  have hset : s.set m = true := (I.mem m).mp (minNode_mem hm).2.2
  have ham : a m = some (s.heap.key m) := by rw [I.armed, hset]; rfl
  have hp : (0 : Int) ≤ (U.length : Int) * (D + g) := Int.mul_nonneg (by omega) (by omega)
  refine ⟨⟨by rw [n1]; exact K.seen, by rw [n1]; exact K.gap, ?_, fun t d ht => ?_⟩, n1, _, ham, ?_⟩
  · intro x e hx
    simp only [after] at hx
    split at hx
    · cases hx
    · rw [n1]; exact K.all x e hx
  · by_cases hne : m = t
    · subst hne; simp [after] at ht
    · have hold : a t = some d := by simpa [after, Ne.symm hne] using ht
      exact tmDel_track I (K.each t d hold) hD hne e1
  · have := (K.each m _ ham).bound hD hg (by omega)
    have := K.gap
    omega

theorem Kept.ended {D g : Int} {U : List Nat} {last : Int} {s : St} {a : Armed} {w : Int} (hg : 0 ≤ g) (I : Inv U s a) (K : Kept D g U last s a) (hE : Ended s w) : Kept D g U s.now s a :=
  ⟨Int.le_refl _, by omega, K.all, fun t d ht => (K.each t d ht).ended I hg hE⟩

theorem expireQuiet_kept {D g : Int} {U : List Nat} {last : Int} (hD : 0 ≤ D) (hg : 0 ≤ g) (s : St) : ∀ {s' : St} {a : Armed} {es : List Ev} {w : Int}, Inv U s a → Kept D g U last s a →
    expireQuiet s = some (es, w, s') → Kept D g U s.now s' (es.foldl after a) ∧ NotLater ((U.length : Int) * (D + g) + g) a es ∧ s'.now = s.now := by
  fun_induction expireQuiet s with
  | case1 s hm => intro s' a es w I K h; cases h; exact ⟨K.ended hg I (.inl ⟨hm, rfl⟩), trivial, rfl⟩
  | case2 s m hm hk => intro s' a es w I K h; cases h; exact ⟨K.ended hg I (.inr ⟨m, hm, by omega, rfl⟩), trivial, rfl⟩
  | case3 s m hm hk hd => intro s' a es w I K h; cases h
  | case4 s m hm hk s1 hd hlt ih =>
    intro s' a es w I K h
    simp only [Option.map_eq_some_iff] at h
    obtain ⟨⟨es', w', s3⟩, h1, h2⟩ := h
    cases h2
    obtain ⟨s1', e1, I1, -⟩ := tmDel_spec I m
    rw [e1] at hd; cases hd
    obtain ⟨K1, n1, late⟩ := fire_kept hD hg I K hm e1
    obtain ⟨K2, l2, n2⟩ := ih (a := after a (.fire m s.now)) I1 K1 h1
    rw [n1] at K2
    exact ⟨by simpa using K2, ⟨late, l2⟩, n2.trans n1⟩
  | case5 s m hm hk s1 hd hlt => intro s' a es w I K h; cases h

theorem expire_kept {D g : Int} {U : List Nat} {last : Int} (hD : 0 ≤ D) (hg : 0 ≤ g) (s : St) (cbs : List (List Act)) : ∀ {s' : St} {a : Armed} {es : List Ev} {w : Int}, Inv U s a →
    Kept D g U last s a → (∀ x ∈ cbs.flatten, x.timer ∈ U ∧ x.within D) → expire s cbs = some (es, w, s') →
    Kept D g U s.now s' (es.foldl after a) ∧ NotLater ((U.length : Int) * (D + g) + g) a es ∧ s'.now = s.now := by
  fun_induction expire s cbs with
  | case1 s => intro s' a es w I K _ h; exact expireQuiet_kept hD hg s I K h
  | case2 s cb rest hm => intro s' a es w I K _ h; cases h; exact ⟨K.ended hg I (.inl ⟨hm, rfl⟩), trivial, rfl⟩
  | case3 s cb rest m hm hk => intro s' a es w I K _ h; cases h; exact ⟨K.ended hg I (.inr ⟨m, hm, by omega, rfl⟩), trivial, rfl⟩
  | case4 s cb rest m hm hk hd => intro s' a es w I K _ h; cases h
  | case5 s cb rest m hm hk s1 hd ih =>
    intro s' a es w I K hU h
    obtain ⟨s1', e1, I1, -⟩ := tmDel_spec I m
    rw [e1] at hd; cases hd
    simp only [Option.bind_eq_some_iff, Option.map_eq_some_iff] at h
    obtain ⟨⟨e2, s2⟩, h2, ⟨e3, w3, s3⟩, h3, h4⟩ := h
    cases h4
    obtain ⟨K1, n1, late⟩ := fire_kept hD hg I K hm e1
    replace I1 : Inv U s1 (after a (.fire m s.now)) := I1
    obtain ⟨es2, s2', r2, I2, -⟩ := acts_spec cb I1 (fun x hx => (hU x (by simp [hx])).1)
    rw [r2] at h2; cases h2
    obtain ⟨K2, n2, f2⟩ := acts_kept hD hg cb I1 K1 (fun x hx => hU x (by simp [hx])) r2
    obtain ⟨K3, l3, n3⟩ := ih s2 I2 K2 (fun x hx => hU x (by simp at hx ⊢; right; exact hx)) h3
    rw [n2, n1] at K3 n3
    refine ⟨by simpa [List.foldl_append] using K3, ⟨late, notLater_quiet _ _ _ f2 l3⟩, n3⟩

theorem Kept.clock {D g : Int} {U : List Nat} {last n : Int} {s : St} {a : Armed} (hD : 0 ≤ D) (I : Inv U s a) (K : Kept D g U last s a) (t1 : s.now ≤ n) (t2 : n ≤ last + g) :
    Kept D g U last { s with now := n } a :=
  ⟨by have := K.seen; dsimp only; omega, t2, fun x e hx => by have := K.all x e hx; dsimp only; omega, fun t d ht => (K.each t d ht).clock hD (Nat.le_refl _) (Int.le_refl _) I t1 t2⟩

theorem run_kept {D g : Int} {U : List Nat} (hD : 0 ≤ D) (hg : 0 ≤ g) : ∀ (ops : List Op) {s s' : St} {a : Armed} {es : List Ev} {last : Int}, Inv U s a → Kept D g U last s a →
    (∀ op ∈ ops, ∀ u ∈ op.timers, u ∈ U) → Timely D g last s.now ops → run s ops = some (es, s') →
    Kept D g U (lastOf last s.now ops).1 s' (es.foldl after a) ∧ NotLater ((U.length : Int) * (D + g) + g) a es ∧ (lastOf last s.now ops).2 = s'.now
  | [], s, s', a, es, last, I, K, _, _, h => by cases h; exact ⟨K, trivial, rfl⟩
  | .act x :: ops, s, s', a, es, last, I, K, hU, hT, h => by
    simp only [run, step, Option.bind_eq_some_iff, Option.map_eq_some_iff] at h
    obtain ⟨⟨e1, s1⟩, h1, ⟨e2, s2⟩, h2, h3⟩ := h
    cases h3
    have hx := hU (.act x) (by simp) x.timer (by simp [Op.timers])
    obtain ⟨e1', s1', r1, I1, n1, -⟩ := act_spec I hx
    rw [r1] at h1; cases h1
    obtain ⟨K1, n1⟩ := act_kept I K hD hg hx hT.1 r1
    obtain ⟨K2, l2, n2⟩ := run_kept hD hg ops I1 K1 (fun o ho => hU o (by simp [ho])) (by rw [n1]; exact hT.2) h2
    rw [n1] at K2 n2
    rw [List.foldl_append]
    have hf : ∀ t time, .fire t time ∉ e1 := by
      have := (acts_kept (es := e1) (s' := s1) hD hg [x] I K (by simp; exact ⟨hx, hT.1⟩) (by simp [acts, r1])).2.2
      exact this
    exact ⟨K2, notLater_quiet _ _ _ hf l2, n2⟩
  | .clock n :: ops, s, s', a, es, last, I, K, hU, hT, h => by
    simp only [run, step, Option.bind_some, Option.map_eq_some_iff] at h
    obtain ⟨⟨e2, s2⟩, h2, h3⟩ := h
    cases h3
    obtain ⟨t1, t2, t3⟩ := hT
    have I1 : Inv U { s with now := n } a := ⟨I.indexed, I.room, I.pos, I.mem, I.armed, I.univ⟩
    obtain ⟨K2, l2, n2⟩ := run_kept hD hg ops I1 (K.clock hD I t1 t2) (fun o ho => hU o (by simp [ho])) t3 h2
    exact ⟨by simpa [lastOf] using K2, by simpa using l2, n2⟩
  | .expire cbs :: ops, s, s', a, es, last, I, K, hU, hT, h => by
    simp only [run, step, Option.bind_eq_some_iff, Option.map_eq_some_iff] at h
    obtain ⟨⟨e1, s1⟩, ⟨⟨e1', w, s1'⟩, h0, h1⟩, ⟨e2, s2⟩, h2, h3⟩ := h
    cases h3
    cases h1
    have hx : ∀ x ∈ cbs.flatten, x.timer ∈ U := fun x hx => hU (.expire cbs) (by simp) x.timer (by simp only [Op.timers, List.mem_map]; exact ⟨x, hx, rfl⟩)
    obtain ⟨es1, w1, s1', r1, I1, -⟩ := expire_spec s cbs I hx
    rw [r1] at h0; cases h0
    obtain ⟨K1, l1, n1⟩ := expire_kept hD hg s cbs I K (fun x h => ⟨hx x h, hT.1 x h⟩) r1
    obtain ⟨K2, l2, n2⟩ := run_kept hD hg ops I1 K1 (fun o ho => hU o (by simp [ho])) (by rw [n1]; exact hT.2) h2
    rw [n1] at K2 n2
    rw [List.foldl_append]
    exact ⟨K2, notLater_append _ _ _ l1 l2, n2⟩

end Verif.Timer
