import Verif.Model.AhoFree
import Verif.Proofs.Aho
import Mathlib.Data.List.Perm.Basic
import Mathlib.Data.List.Nodup
/-
Depth-first release of the trie.
-/
namespace Verif.Aho
open scoped List

/-- Children of `p`, in the order the loop pushes them. -/
def kids (t : Trie) (p : Path) (is : List Nat) : List Path := (is.filter (fun i => i :: p ∈ t.nodes)).map (· :: p)

theorem pushKids_ok {t : Trie} {p : Path} : ∀ (is : List Nat) (stack : List Path), (kids t p is).length + stack.length ≤ 4096 →
    pushKids t p is stack = .ok ((kids t p is).reverse ++ stack)
  | [], stack, _ => by simp [pushKids, kids]
  | i :: is, stack, h => by
    unfold pushKids
    by_cases hi : i :: p ∈ t.nodes
    · have hk : kids t p (i :: is) = (i :: p) :: kids t p is := by simp [kids, hi]
      rw [hk, List.length_cons] at h
      rw [if_pos hi]
      unfold push stackMax
      rw [if_pos (by omega)]
      simp only
      rw [pushKids_ok is _ (by simp only [List.length_cons]; omega), hk]
      simp
    · have hk : kids t p (i :: is) = kids t p is := by simp [kids, hi]
      rw [if_neg hi, hk]
      exact pushKids_ok is stack (by rw [← hk]; exact h)

/-- The nodes at or below `p`. -/
def sub (t : Trie) (p : Path) : List Path := ([] :: t.nodes).filter (fun q => p.isSuffixOf q)

theorem mem_sub {t : Trie} {p q : Path} : q ∈ sub t p ↔ (q = [] ∨ q ∈ t.nodes) ∧ p <:+ q := by
  simp [sub, List.isSuffixOf_iff_suffix]

theorem sub_nodup {t : Trie} (ht : TrieOk t) (p : Path) : (sub t p).Nodup := by
  unfold sub
  exact List.Nodup.filter _ (List.nodup_cons.mpr ⟨ht.ne, ht.nodup⟩)

/-- Ancestors of a node are nodes. -/
theorem anc {t : Trie} (ht : TrieOk t) : ∀ (u p : Path), u ++ p ∈ t.nodes → p = [] ∨ p ∈ t.nodes
  | [], p, h => Or.inr h
  | i :: u, p, h => by
    rcases ht.parent i (u ++ p) h with h0 | h0
    · simp only [List.append_eq_nil_iff] at h0; exact Or.inl h0.2
    · exact anc ht u p h0

theorem kids_nodup (t : Trie) (p : Path) {is : List Nat} (h : is.Nodup) : (kids t p is).Nodup := by
  unfold kids
  exact (h.filter _).map (fun a b e => by simpa using e)

theorem sub_split {t : Trie} (ht : TrieOk t) {p : Path} (hp : p = [] ∨ p ∈ t.nodes) :
    p :: (kids t p (List.range 128)).flatMap (sub t) ~ sub t p := by
  have hkid : ∀ x, x ∈ kids t p (List.range 128) ↔ ∃ i, x = i :: p ∧ x ∈ t.nodes := by
    intro x
    simp only [kids, List.mem_map, List.mem_filter, List.mem_range, decide_eq_true_eq]
    constructor
    · rintro ⟨i, ⟨_, h⟩, rfl⟩; exact ⟨i, rfl, h⟩
    · rintro ⟨i, rfl, h⟩; exact ⟨i, ⟨ht.small i p h, h⟩, rfl⟩
  refine (List.perm_ext_iff_of_nodup ?_ (sub_nodup ht p)).mpr ?_
  · rw [List.nodup_cons]
    refine ⟨?_, ?_⟩
    · rw [List.mem_flatMap]
      rintro ⟨x, hx, hm⟩
      obtain ⟨i, rfl, -⟩ := (hkid x).mp hx
      have := (mem_sub.mp hm).2.length_le
      simp only [List.length_cons] at this
      omega
    · rw [List.nodup_flatMap]
      refine ⟨fun x _ => sub_nodup ht x, ?_⟩
      refine List.Pairwise.imp_of_mem ?_ (kids_nodup t p List.nodup_range)
      intro a b ha hb hab q hqa hqb
      obtain ⟨i, rfl, -⟩ := (hkid a).mp ha
      obtain ⟨j, rfl, -⟩ := (hkid b).mp hb
      obtain ⟨u, hu⟩ := (mem_sub.mp hqa).2
      obtain ⟨v, hv⟩ := (mem_sub.mp hqb).2
      have h1 : (u ++ [i]) ++ p = (v ++ [j]) ++ p := by simpa using hu.trans hv.symm
      have h2 := List.append_cancel_right h1
      have h3 := List.append_inj_right' h2 rfl
      simp only [List.cons.injEq, and_true] at h3
      exact hab (by rw [h3])
  · intro q
    rw [List.mem_cons, List.mem_flatMap, mem_sub]
    constructor
    · rintro (rfl | ⟨x, hx, hm⟩)
      · exact ⟨hp, List.suffix_refl _⟩
      · obtain ⟨i, rfl, -⟩ := (hkid x).mp hx
        obtain ⟨h1, h2⟩ := mem_sub.mp hm
        exact ⟨h1, (List.suffix_cons i p).trans h2⟩
    · rintro ⟨hq, u, hu⟩
      rcases List.eq_nil_or_concat u with rfl | ⟨v, i, rfl⟩
      · left; simpa using hu.symm
      · right
        have he : v ++ i :: p = q := by simpa using hu
        have hqn : q ∈ t.nodes := by
          rcases hq with h | h
          · rw [h] at he; simp at he
          · exact h
        have hin : i :: p ∈ t.nodes := by
          rcases anc ht v (i :: p) (by rw [he]; exact hqn) with h | h
          · simp at h
          · exact h
        exact ⟨i :: p, (hkid _).mpr ⟨i, rfl, hin⟩, mem_sub.mpr ⟨Or.inr hqn, ⟨v, he⟩⟩⟩

theorem length_le_flatMap {t : Trie} : ∀ (l : List Path), (∀ p ∈ l, p = [] ∨ p ∈ t.nodes) → l.length ≤ (l.flatMap (sub t)).length
  | [], _ => by simp
  | p :: l, h => by
    have h1 := length_le_flatMap l (fun q hq => h q (by simp [hq]))
    have h2 : 0 < (sub t p).length := List.length_pos_of_mem (mem_sub.mpr ⟨h p (by simp), List.suffix_refl _⟩)
    simp only [List.length_cons, List.flatMap_cons, List.length_append]
    omega

theorem freeLoop_ok {t : Trie} (ht : TrieOk t) (hsz : t.nodes.length ≤ 4096) : ∀ (k : Nat) (stack freed : List Path),
    (∀ p ∈ stack, p = [] ∨ p ∈ t.nodes) → (stack.flatMap (sub t)).length ≤ k → (stack.flatMap (sub t)).length ≤ 4097 →
    ∃ out, freeLoop t k stack freed = .ok (freed ++ out) ∧ out ~ (stack.flatMap (sub t)).filter (· ≠ [])
  | k, [], freed, _, _, _ => ⟨[], by cases k <;> simp [freeLoop], by simp⟩
  | 0, p :: stack, freed, hs, hk, _ => by
    have := length_le_flatMap (p :: stack) hs
    simp only [List.length_cons] at this
    omega
  | k + 1, p :: stack, freed, hs, hk, hb => by
    have hp := hs p (by simp)
    have hsplit := sub_split ht hp
    have hlen := hsplit.length_eq
    have hkn : ∀ q ∈ kids t p (List.range 128), q = [] ∨ q ∈ t.nodes := by
      intro q hq
      simp only [kids, List.mem_map, List.mem_filter, decide_eq_true_eq] at hq
      obtain ⟨i, ⟨_, h⟩, rfl⟩ := hq
      exact Or.inr h
    have hst : ∀ q ∈ stack, q = [] ∨ q ∈ t.nodes := fun q hq => hs q (by simp [hq])
    have l1 := length_le_flatMap _ hkn
    have l2 := length_le_flatMap _ hst
    simp only [List.length_cons] at hlen
    simp only [List.flatMap_cons, List.length_append] at hk hb
    have hns : ∀ q ∈ (kids t p (List.range 128)).reverse ++ stack, q = [] ∨ q ∈ t.nodes := by
      intro q hq
      rw [List.mem_append, List.mem_reverse] at hq
      rcases hq with hq | hq
      · exact hkn q hq
      · exact hst q hq
    have hperm : ((kids t p (List.range 128)).reverse ++ stack).flatMap (sub t) ~
        (kids t p (List.range 128)).flatMap (sub t) ++ stack.flatMap (sub t) := by
      rw [List.flatMap_append]
      exact List.Perm.append_right _ ((List.reverse_perm _).flatMap_right _)
    have hpl := hperm.length_eq
    rw [List.length_append] at hpl
    obtain ⟨out, e1, e2⟩ := freeLoop_ok ht hsz k ((kids t p (List.range 128)).reverse ++ stack)
      (if p ≠ [] then freed ++ [p] else freed) hns (by omega) (by omega)
    have hgoal : (p :: stack).flatMap (sub t) ~ p :: ((kids t p (List.range 128)).reverse ++ stack).flatMap (sub t) := by
      rw [List.flatMap_cons]
      refine (List.Perm.append_right _ hsplit.symm).trans ?_
      rw [List.cons_append]
      exact List.Perm.cons _ hperm.symm
    have hf := hgoal.filter (· ≠ [])
    unfold freeLoop
    rw [pushKids_ok _ _ (by omega)]
    simp only [e1]
    by_cases h0 : p = []
    · subst h0
      refine ⟨out, by simp, e2.trans ?_⟩
      simpa using hf.symm
    · refine ⟨p :: out, by simp [h0], ?_⟩
      refine (List.Perm.cons p e2).trans ?_
      simpa [List.filter_cons, h0] using hf.symm

theorem freeAll_ok {t : Trie} (ht : TrieOk t) (hsz : t.nodes.length ≤ 4096) : ∃ out, freeAll t = .ok out ∧ out ~ t.nodes := by
  have hroot : sub t [] = [] :: t.nodes := by
    unfold sub
    rw [List.filter_eq_self]
    intro q _
    simp
  obtain ⟨out, h1, h2⟩ := freeLoop_ok ht hsz (t.nodes.length + 1) [[]] [] (by simp) (by simp [hroot]) (by simp [hroot]; omega)
  refine ⟨out, by simpa [freeAll] using h1, h2.trans ?_⟩
  rw [List.flatMap_cons, List.flatMap_nil, List.append_nil, hroot]
  have : t.nodes.filter (· ≠ []) = t.nodes := by
    rw [List.filter_eq_self]
    intro q hq
    simp only [decide_eq_true_eq]
    rintro rfl
    exact ht.ne hq
  rw [List.filter_cons_of_neg (by simp), this]

end Verif.Aho
