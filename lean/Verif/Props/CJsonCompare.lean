import Verif.Proofs.CJsonCompare
import Verif.Proofs.CJsonDup
/-
C119: comparing two documents.
-/
namespace Verif.CJsonCompare
open Verif.CJson (J)
open Verif.CJsonPrint (Dbl)
open Spec

/-- C119: for documents in which no object has two members of the same name and every number is finite, `cJSON_Compare` says yes exactly if they are the same: arrays element by element,
objects by name in any order. Missing: documents with such objects or with infinite numbers, for which this is false (below). -/
theorem c119_compare_partial (cs : Bool) (n : Nat) (a b : J Dbl) (ha : Clear cs a) (hb : Clear cs b) (hn : Depth n a ∨ Depth n b) : (compare cs n a b).1 = true ↔ Same cs a b :=
  compare_iff cs n a b ha hb hn

/-- C119: the answer does not depend on which document comes first, for all documents. -/
theorem c119_symmetric (cs : Bool) (n : Nat) (a b : J Dbl) : (compare cs n a b).1 = (compare cs n b a).1 := compare_symm cs n a b

/-- C119: such a document is the same as its copy (C118), also if a string has a zero byte in it. Missing: as above. -/
theorem c119_copy_partial (cs : Bool) (n : Nat) (a : J Dbl) (ha : Clear cs a) (hn : Depth n a) : (compare cs n a a).1 = true ∧ (compare cs n a (CJsonMem.seen a)).1 = true := by
  have key : ∀ {a : J Dbl}, Clear cs a → Clear cs (CJsonMem.seen a) ∧ Same cs a (CJsonMem.seen a) := by
    intro a ha
    have hc : ∀ s, CJsonMem.cstr s = cstr s := fun _ => rfl
    induction ha with
    | null => rw [CJsonMem.seen, Same]; exact ⟨.null, trivial⟩
    | bool b => rw [CJsonMem.seen, Same]; exact ⟨.bool b, rfl⟩
    | num q => rw [CJsonMem.seen, Same]; exact ⟨.num q, NumEq.refl q⟩
    | str s => rw [CJsonMem.seen, Same, hc, cstr_cstr]; exact ⟨.str _, rfl⟩
    | @arr xs _ ih =>
      rw [CJsonMem.seen_arr, Same]
      refine ⟨.arr fun y hy => ?_, by simp, fun i hi => ?_⟩
      · obtain ⟨x, hx, rfl⟩ := List.mem_map.mp hy
        exact (ih x hx).1
      · rw [List.getElem_map]; exact (ih _ (List.getElem_mem _)).2
    | @obj xs hu _ ih =>
      have hn : ∀ s, NameEq cs s (cstr s) := by
        intro s; unfold NameEq; rw [cstr_cstr]; split <;> rfl
      rw [CJsonMem.seen_obj, Same]
      refine ⟨.obj ?_ fun y hy => ?_, fun x hx => ⟨(cstr x.1, CJsonMem.seen x.2), List.mem_map.mpr ⟨x, hx, rfl⟩, hn _, (ih x hx).2⟩, fun y hy => ?_⟩
      · rw [List.pairwise_map]
        exact hu.imp fun {x y} h hx => h (NameEq.trans (NameEq.trans (hn x.1) hx) (NameEq.symm (hn y.1)))
      · obtain ⟨x, hx, rfl⟩ := List.mem_map.mp hy
        exact (ih x hx).1
      · obtain ⟨x, hx, rfl⟩ := List.mem_map.mp hy
        exact ⟨x, hx, hn _, (ih x hx).2⟩
  exact ⟨(compare_iff cs n a a ha ha (.inl hn)).mpr (same_refl ha), (compare_iff cs n a _ ha (key ha).1 (.inl hn)).mpr (key ha).2⟩

/-- C119, the first limit: an object with two members of the same name (without regard to case, names like `a` and `A`) and different values is never the same as an equal document. -/
theorem c119_twice_counterexample (cs : Bool) (n : Nat) (k k' : List UInt8) (v w : J Dbl) (hk : NameEq cs k' k) (hvw : (compare cs n v w).1 = false) :
    (compare cs (n + 1) (.obj [(k, v), (k', w)]) (.obj [(k, v), (k', w)])).1 = false := by
  have h1 : getItem cs [(k, v), (k', w)] k' = some v := by
    unfold getItem
    rw [List.find?_cons, (nameEq_iff _ _ _).mpr hk]
    rfl
  rw [← Bool.not_eq_true]
  intro hc
  have hm : (members cs (compare cs n) [(k, v), (k', w)] [(k, v), (k', w)]).1 = true := by
    simp only [compare] at hc
    by_cases hm : (members cs (compare cs n) [(k, v), (k', w)] [(k, v), (k', w)]).1 = true
    · exact hm
    · rw [if_neg hm] at hc; cases hc
  rw [members_iff] at hm
  obtain ⟨y, hy, hc⟩ := hm (k', w) (by simp)
  rw [h1] at hy
  cases hy
  rw [compare_symm, hvw] at hc
  cases hc

/-- C119, the second limit: an infinite number (which the text `1e999` gives) is not the same as itself, but the same as every finite number and as the other infinity. -/
theorem c119_infinite_counterexample (cs : Bool) (n : Nat) (s : Bool) (q : Rat) :
    (compare cs n (.num (.inf s)) (.num (.inf s))).1 = false ∧ (compare cs n (.num (.inf s)) (.num (.fin q))).1 = true ∧ (compare cs n (.num (.inf s)) (.num (.inf !s))).1 = true := by
  cases n <;> cases s <;> exact ⟨rfl, rfl, rfl⟩

/-- An object in an object and so on, `d` deep. -/
def chain (k : List UInt8) : Nat → J Dbl
  | 0 => .null
  | d + 1 => .obj [(k, chain k d)]

/-- C119, the third limit: every level of objects doubles the work, since each member is compared twice. A document of `d` objects in each other takes 2^(d+1) - 1 calls to compare with
its copy; with the thousand levels that the parser accepts it never ends. -/
theorem c119_cost_counterexample (cs : Bool) (k : List UInt8) (d : Nat) : ∀ n, d ≤ n → compare cs n (chain k d) (chain k d) = (true, 2 ^ (d + 1) - 1) := by
  induction d with
  | zero => intro n _; cases n <;> rfl
  | succ d ih =>
    intro n hn
    obtain ⟨n, rfl⟩ : ∃ m, n = m + 1 := ⟨n - 1, by omega⟩
    have hg : getItem cs [(k, chain k d)] k = some (chain k d) := by
      unfold getItem
      rw [List.find?_cons, (nameEq_iff _ _ _).mpr (NameEq.refl cs k)]
      rfl
    have := Nat.one_le_two_pow (n := d + 1)
    simp only [chain, compare, members, hg, ih n (by omega), if_true, Prod.mk.injEq, true_and]
    rw [Nat.pow_succ 2 (d + 1)]
    omega

/-- C119: to compare an array with its copy takes one call and those for its elements, each once. -/
theorem c119_cost_array (cs : Bool) (n : Nat) (xs : List (J Dbl)) (w : J Dbl → Nat) (hw : ∀ x ∈ xs, compare cs n x x = (true, w x)) :
    compare cs (n + 1) (.arr xs) (.arr xs) = (true, (xs.map w).sum + 1) := by
  have key : ∀ xs : List (J Dbl), (∀ x ∈ xs, compare cs n x x = (true, w x)) → elems (compare cs n) xs xs = (true, (xs.map w).sum) := by
    intro xs
    induction xs with
    | nil => intro _; rfl
    | cons x xs ih =>
      intro hw
      simp [elems, hw x (by simp), ih fun y hy => hw y (by simp [hy])]
  simp [compare, key xs hw]

/-- C119: to compare an object with its copy takes one call and those for its members, each twice. -/
theorem c119_cost_object (cs : Bool) (n : Nat) (xs : List (List UInt8 × J Dbl)) (w : J Dbl → Nat) (hu : xs.Pairwise fun x y => ¬ NameEq cs x.1 y.1)
    (hw : ∀ x ∈ xs, compare cs n x.2 x.2 = (true, w x.2)) : compare cs (n + 1) (.obj xs) (.obj xs) = (true, 2 * (xs.map fun x => w x.2).sum + 1) := by
  have key : ∀ ys : List (List UInt8 × J Dbl), (∀ y ∈ ys, y ∈ xs) → members cs (compare cs n) xs ys = (true, (ys.map fun x => w x.2).sum) := by
    intro ys
    induction ys with
    | nil => intro _; rfl
    | cons y ys ih =>
      intro hs
      have hg := getItem_of_mem hu (hs y (by simp)) (NameEq.refl cs y.1)
      simp [members, hg, hw y (hs y (by simp)), ih fun z hz => hs z (by simp [hz])]
  have := key xs fun y hy => hy
  simp only [compare, this, if_true, Prod.mk.injEq, true_and]
  omega

/-- C119: the comparison stops at the first difference: after an element that differs, and at a member whose name the other object does not have. -/
theorem c119_stops (cs : Bool) (n k : Nat) (x y : J Dbl) (xs ys : List (J Dbl)) (ms os : List (List UInt8 × J Dbl)) (m : List UInt8 × J Dbl) (hd : compare cs n x y = (false, k))
    (hm : ∀ o ∈ os, ¬ NameEq cs m.1 o.1) :
    compare cs (n + 1) (.arr (x :: xs)) (.arr (y :: ys)) = (false, k + 1) ∧ compare cs (n + 1) (.obj (m :: ms)) (.obj os) = (false, 1) := by
  constructor
  · simp [compare, elems, hd]
  · have hg : getItem cs os m.1 = none := by
      unfold getItem
      rw [List.find?_eq_none.mpr fun o ho => by rw [nameEq_iff]; exact hm o ho]
      rfl
    simp [compare, members, hg]

/-! ### Cases -/

example : compare true 2 (.arr [.null, .arr [.null, .null]]) (.arr [.null, .arr [.null, .null]]) = (true, 5) :=
  c119_cost_array true 1 [.null, .arr [.null, .null]] (fun x => match x with | .arr _ => 3 | _ => 1) (by
    intro x hx
    simp only [List.mem_cons, List.not_mem_nil, or_false] at hx
    rcases hx with rfl | rfl <;> decide +kernel)
example : compare true 1 (.obj [([0x61], .null), ([0x62], .null)]) (.obj [([0x61], .null), ([0x62], .null)]) = (true, 5) :=
  c119_cost_object true 0 _ (fun _ => 1) (by simp [NameEq, cstr]) (by simp [compare])
example : compare true 1 (.arr [.null, .null]) (.arr [.bool true]) = (false, 2) ∧ compare true 1 (.obj [([0x61], .null)]) (.obj [([0x62], .null)]) = (false, 1) :=
  c119_stops true 0 1 .null (.bool true) [.null] [] [] [([0x62], .null)] ([0x61], .null) rfl (by simp [NameEq, cstr])

/-- `{"a":1,"b":[true]}`. -/
def one : J Dbl := .obj [([0x61], .num (.fin 1)), ([0x62], .arr [.bool true])]

/-- `{"B":[true],"A":1}`. -/
def two : J Dbl := .obj [([0x42], .arr [.bool true]), ([0x41], .num (.fin 1))]

example : (compare false 3 one two).1 = true ∧ (compare true 3 one two).1 = false := by decide +kernel

/-- The hypotheses of `c119_compare_partial` hold for them. -/
example : Clear false one ∧ Clear false two ∧ Depth 2 one := by
  refine ⟨.obj ?_ ?_, .obj ?_ ?_, .obj ?_⟩
  · simp [NameEq, cstr, Config.Spec.Alike]; decide +kernel
  · intro x hx
    simp only [List.mem_cons, List.not_mem_nil, or_false] at hx
    rcases hx with rfl | rfl
    · exact .num 1
    · exact .arr (by intro x hx; simp only [List.mem_cons, List.not_mem_nil, or_false] at hx; subst hx; exact .bool true)
  · simp [NameEq, cstr, Config.Spec.Alike]; decide +kernel
  · intro x hx
    simp only [List.mem_cons, List.not_mem_nil, or_false] at hx
    rcases hx with rfl | rfl
    · exact .arr (by intro x hx; simp only [List.mem_cons, List.not_mem_nil, or_false] at hx; subst hx; exact .bool true)
    · exact .num 1
  · intro x hx
    simp only [List.mem_cons, List.not_mem_nil, or_false] at hx
    rcases hx with rfl | rfl
    · exact .num _ _
    · exact .arr (by intro x hx; simp only [List.mem_cons, List.not_mem_nil, or_false] at hx; subst hx; exact .bool _ true)

/-- `{"a":1,"A":2}`, without regard to case: the hypotheses of `c119_twice_counterexample` hold. -/
example : NameEq false [0x41] [0x61] ∧ (compare false 0 (.num (.fin 1)) (.num (.fin 2))).1 = false := by
  constructor
  · simp [NameEq, cstr, Config.Spec.Alike]; decide +kernel
  · decide +kernel

/-- Two numbers that differ are told apart, neighbours are not. -/
example : (compare true 0 (.num (.fin 1)) (.num (.fin (1 + 1 / 4503599627370496)))).1 = true ∧ (compare true 0 (.num (.fin 1)) (.num (.fin (1 + 1 / 1000000)))).1 = false := by
  decide +kernel

end Verif.CJsonCompare
