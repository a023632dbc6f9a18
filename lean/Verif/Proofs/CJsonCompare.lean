import Verif.Model.CJsonCompare
import Verif.Spec.CJsonCompare
import Verif.Proofs.Config
/-
Helper lemmas for C119.
-/
namespace Verif.CJsonCompare
open Verif.CJson (J)
open Verif.CJsonPrint (Dbl)
open Spec

theorem cstr_nil : cstr [] = [] := rfl

theorem cstr_cons (b : UInt8) (s : List UInt8) : cstr (b :: s) = if b = 0 then [] else b :: cstr s := by
  unfold cstr
  rw [List.takeWhile_cons]
  by_cases hb : b = 0 <;> simp [hb]

theorem not_mem_cstr (s : List UInt8) : 0 ∉ cstr s := by
  induction s with
  | nil => simp [cstr_nil]
  | cons b s ih =>
    rw [cstr_cons]
    split
    · simp
    · next hb => simp [ih, Ne.symm hb]

theorem cstr_cstr (s : List UInt8) : cstr (cstr s) = cstr s := by
  induction s with
  | nil => rfl
  | cons b s ih =>
    rw [cstr_cons]
    split
    · rfl
    · next hb => rw [cstr_cons, if_neg hb, ih]

theorem front_cstr (s : List UInt8) : Config.front (cstr s) = Config.front s := by
  cases s with
  | nil => rfl
  | cons b s =>
    rw [cstr_cons]
    split
    · next hb => simp [Config.front, hb]
    · rfl

theorem same_cstr (a b : List UInt8) : Config.same a b = Config.same (cstr a) (cstr b) := by
  induction a generalizing b with
  | nil =>
    rw [cstr_nil, Config.same.eq_def, Config.same.eq_def [] (cstr b), front_cstr]
  | cons x a ih =>
    rw [Config.same.eq_def, Config.same.eq_def (cstr (x :: a)) (cstr b), front_cstr, front_cstr]
    by_cases hx : x = 0
    · subst hx
      simp [Config.front]
    · rw [cstr_cons, if_neg hx]
      have hf : Config.front (x :: a) = x := rfl
      simp only [hf, hx, if_false]
      cases b with
      | nil =>
        have h2 : ¬ Config.lower x = Config.lower 0 := by
          intro h; exact hx ((Config.lower_zero x).mp (h.trans (by decide)))
        simp [Config.front, h2]
      | cons y b =>
        by_cases hy : y = 0
        · subst hy
          have h2 : ¬ Config.lower x = Config.lower 0 := by
            intro h; exact hx ((Config.lower_zero x).mp (h.trans (by decide)))
          simp [Config.front, h2]
        · rw [cstr_cons, if_neg hy]
          simp only [List.drop_one, List.tail_cons, ih b]

theorem strEq_iff (a b : List UInt8) : strEq a b = true ↔ cstr a = cstr b := by
  simp [strEq, cstr]

theorem nameEq_iff (cs : Bool) (a b : List UInt8) : nameEq cs a b = true ↔ NameEq cs a b := by
  cases cs with
  | true => simpa [nameEq, NameEq] using strEq_iff a b
  | false =>
    simp only [nameEq, NameEq, Bool.false_eq_true, if_false]
    rw [same_cstr, Config.same_iff (not_mem_cstr a) (not_mem_cstr b)]

theorem NameEq.refl (cs : Bool) (a : List UInt8) : NameEq cs a a := by
  unfold NameEq; split <;> rfl

theorem NameEq.symm {cs : Bool} {a b : List UInt8} (h : NameEq cs a b) : NameEq cs b a := by
  unfold NameEq at h ⊢
  split
  · next hc => rw [if_pos hc] at h; exact h.symm
  · next hc => rw [if_neg hc] at h; exact Eq.symm h

theorem NameEq.trans {cs : Bool} {a b c : List UInt8} (h : NameEq cs a b) (h' : NameEq cs b c) : NameEq cs a c := by
  unfold NameEq at h h' ⊢
  split
  · next hc => rw [if_pos hc] at h h'; exact h.trans h'
  · next hc => rw [if_neg hc] at h h'; exact Eq.trans h h'

theorem abs_sub (a b : Rat) : (a - b).abs = (b - a).abs := by
  unfold Rat.abs
  grind

theorem compareDouble_symm (a b : Dbl) : compareDouble a b = compareDouble b a := by
  cases a <;> cases b <;> simp only [compareDouble]
  · next a b =>
    rw [abs_sub a b]
    have : (if b.abs < a.abs then a.abs else b.abs) = (if a.abs < b.abs then b.abs else a.abs) := by grind
    rw [this]
  · next s t => cases s <;> cases t <;> rfl

theorem compareDouble_iff (a b : Rat) : compareDouble (.fin a) (.fin b) = true ↔ NumEq (.fin a) (.fin b) := by
  simp only [compareDouble, NumEq, decide_eq_true_eq]
  have : (if b.abs < a.abs then a.abs else b.abs) = max a.abs b.abs := by grind
  rw [this]
  have : (2 : Rat) ^ 52 = 4503599627370496 := by decide +kernel
  rw [this]

theorem NumEq.refl (a : Rat) : NumEq (.fin a) (.fin a) := by
  show (a - a).abs ≤ max a.abs a.abs / 2 ^ 52
  have h1 : (a - a).abs = 0 := by unfold Rat.abs; grind
  have h2 : 0 ≤ max a.abs a.abs := by unfold Rat.abs; grind
  rw [h1]
  have : (2 : Rat) ^ 52 = 4503599627370496 := by decide +kernel
  rw [this]
  grind

theorem NumEq.symm {a b : Dbl} (h : NumEq a b) : NumEq b a := by
  cases a <;> cases b <;> simp only [NumEq] at h ⊢
  next a b =>
  rw [abs_sub b a]
  have : max a.abs b.abs = max b.abs a.abs := by grind
  rwa [← this]

/-! ### The loops -/

theorem elems_iff (cmp : J Dbl → J Dbl → Bool × Nat) (xs : List (J Dbl)) : ∀ ys, (elems cmp xs ys).1 = true ↔ ∃ h : xs.length = ys.length, ∀ i (hi : i < xs.length), (cmp xs[i] ys[i]).1 = true := by
  induction xs with
  | nil =>
    intro ys
    cases ys with
    | nil => simp [elems]
    | cons y ys => simp [elems]
  | cons x xs ih =>
    intro ys
    cases ys with
    | nil => simp [elems]
    | cons y ys =>
      rw [elems]
      dsimp only
      by_cases hc : (cmp x y).1 = true
      · rw [if_pos hc]
        dsimp only
        rw [ih ys]
        constructor
        · rintro ⟨h, hi⟩
          refine ⟨by simp [h], fun i hi' => ?_⟩
          cases i with
          | zero => exact hc
          | succ i => exact hi i (by simpa using hi')
        · rintro ⟨h, hi⟩
          exact ⟨by simpa using h, fun i hi' => hi (i + 1) (by simpa using hi')⟩
      · rw [if_neg hc]
        constructor
        · intro h; cases h
        · rintro ⟨h, hi⟩; exact (hc (hi 0 (by simp))).elim

theorem members_iff (cs : Bool) (cmp : J Dbl → J Dbl → Bool × Nat) (other xs : List (List UInt8 × J Dbl)) :
    (members cs cmp other xs).1 = true ↔ ∀ x ∈ xs, ∃ y, getItem cs other x.1 = some y ∧ (cmp x.2 y).1 = true := by
  induction xs with
  | nil => simp [members]
  | cons x xs ih =>
    rw [members]
    cases hg : getItem cs other x.1 with
    | none => simp [hg]
    | some y =>
      dsimp only
      by_cases hc : (cmp x.2 y).1 = true
      · rw [if_pos hc]
        dsimp only
        rw [ih]
        simp [hg, hc]
      · rw [if_neg hc]
        simp [hg, hc]

theorem getItem_some {cs : Bool} {ys : List (List UInt8 × J Dbl)} {k : List UInt8} {v : J Dbl} (h : getItem cs ys k = some v) : ∃ y ∈ ys, NameEq cs k y.1 ∧ y.2 = v := by
  unfold getItem at h
  cases hf : ys.find? (fun x => nameEq cs k x.1) with
  | none => rw [hf] at h; cases h
  | some y =>
    rw [hf] at h
    cases h
    exact ⟨y, List.mem_of_find?_eq_some hf, (nameEq_iff _ _ _).mp (by simpa using List.find?_some hf), rfl⟩

theorem getItem_of_mem {cs : Bool} {ys : List (List UInt8 × J Dbl)} (hu : ys.Pairwise fun x y => ¬ NameEq cs x.1 y.1) {y : List UInt8 × J Dbl} (hy : y ∈ ys) {k : List UInt8}
    (hk : NameEq cs k y.1) : getItem cs ys k = some y.2 := by
  unfold getItem
  induction ys with
  | nil => cases hy
  | cons z ys ih =>
    rw [List.pairwise_cons] at hu
    rw [List.find?_cons]
    rcases List.mem_cons.mp hy with rfl | hy
    · rw [(nameEq_iff _ _ _).mpr hk]; rfl
    · have : nameEq cs k z.1 = false := by
        rw [← Bool.not_eq_true, nameEq_iff]
        exact fun h => hu.1 y hy (NameEq.trans (NameEq.symm h) hk)
      rw [this]
      exact ih hu.2 hy

/-! ### The comparison -/

theorem compare_symm (cs : Bool) (n : Nat) : ∀ a b, (compare cs n a b).1 = (compare cs n b a).1 := by
  induction n with
  | zero =>
    intro a b
    cases a <;> cases b <;> simp only [compare]
    · next a b => cases a <;> cases b <;> rfl
    · exact compareDouble_symm _ _
    · rw [Bool.eq_iff_iff, strEq_iff, strEq_iff, eq_comm]
  | succ n ih =>
    intro a b
    cases a <;> cases b <;> simp only [compare]
    · next a b => cases a <;> cases b <;> rfl
    · exact compareDouble_symm _ _
    · rw [Bool.eq_iff_iff, strEq_iff, strEq_iff, eq_comm]
    · next xs ys =>
      rw [Bool.eq_iff_iff, elems_iff, elems_iff]
      constructor
      · rintro ⟨h, hi⟩; exact ⟨h.symm, fun i hi' => by rw [ih]; exact hi i (by omega)⟩
      · rintro ⟨h, hi⟩; exact ⟨h.symm, fun i hi' => by rw [ih]; exact hi i (by omega)⟩
    · next xs ys =>
      generalize members cs (compare cs n) ys xs = r
      generalize members cs (compare cs n) xs ys = s
      obtain ⟨r1, r2⟩ := r
      obtain ⟨s1, s2⟩ := s
      cases r1 <;> cases s1 <;> rfl

theorem compare_iff (cs : Bool) (n : Nat) : ∀ a b, Clear cs a → Clear cs b → Depth n a ∨ Depth n b → ((compare cs n a b).1 = true ↔ Same cs a b) := by
  have leaf : ∀ (n : Nat) (a b : J Dbl), Clear cs a → Clear cs b → (∀ xs ys, a = .arr xs → b = .arr ys → False) → (∀ xs ys, a = .obj xs → b = .obj ys → False) →
      ((compare cs n a b).1 = true ↔ Same cs a b) := by
    intro n a b ha hb h1 h2
    cases ha with
    | null => cases hb <;> cases n <;> simp [Same, compare]
    | bool b => cases hb <;> cases n <;> simp [Same, compare]
    | num q => cases hb <;> cases n <;> simp [Same, compare, compareDouble_iff]
    | str s => cases hb <;> cases n <;> simp [Same, compare, strEq_iff]
    | arr ha =>
      cases hb with
      | arr hb => exact (h1 _ _ rfl rfl).elim
      | _ => cases n <;> simp [Same, compare]
    | obj ua ha =>
      cases hb with
      | obj ub hb => exact (h2 _ _ rfl rfl).elim
      | _ => cases n <;> simp [Same, compare]
  induction n with
  | zero =>
    intro a b ha hb hd
    refine leaf 0 a b ha hb ?_ ?_
    · rintro xs ys rfl rfl; rcases hd with hd | hd <;> cases hd
    · rintro xs ys rfl rfl; rcases hd with hd | hd <;> cases hd
  | succ n ih =>
    intro a b ha hb hd
    by_cases h1 : ∃ xs ys, a = .arr xs ∧ b = .arr ys
    · obtain ⟨xs, ys, rfl, rfl⟩ := h1
      rw [Same]
      simp only [compare]
      rw [elems_iff]
      cases ha with | arr ha =>
      cases hb with | arr hb =>
      refine exists_congr fun h => forall_congr' fun i => forall_congr' fun hi => ih _ _ (ha _ (List.getElem_mem _)) (hb _ (List.getElem_mem _)) ?_
      rcases hd with hd | hd
      · cases hd with | arr hd => exact .inl (hd _ (List.getElem_mem _))
      · cases hd with | arr hd => exact .inr (hd _ (List.getElem_mem _))
    by_cases h2 : ∃ xs ys, a = .obj xs ∧ b = .obj ys
    · obtain ⟨xs, ys, rfl, rfl⟩ := h2
      cases ha with | obj ua ha =>
      cases hb with | obj ub hb =>
      have hdep : ∀ x ∈ xs, ∀ y ∈ ys, Depth n x.2 ∨ Depth n y.2 := by
        intro x hx y hy
        rcases hd with hd | hd
        · cases hd with | obj hd => exact .inl (hd x hx)
        · cases hd with | obj hd => exact .inr (hd y hy)
      have e : (compare cs (n + 1) (.obj xs) (.obj ys)).1 = true ↔ (members cs (compare cs n) ys xs).1 = true ∧ (members cs (compare cs n) xs ys).1 = true := by
        simp only [compare]
        by_cases hm : (members cs (compare cs n) ys xs).1 = true
        · simp [hm]
        · simp [hm]
      rw [e, Same, members_iff, members_iff]
      refine and_congr ?_ ?_
      · refine forall_congr' fun x => forall_congr' fun hx => ?_
        constructor
        · rintro ⟨v, hv, hc⟩
          obtain ⟨y, hy, hn, rfl⟩ := getItem_some hv
          exact ⟨y, hy, hn, (ih _ _ (ha x hx) (hb y hy) (hdep x hx y hy)).mp hc⟩
        · rintro ⟨y, hy, hn, hc⟩
          exact ⟨y.2, getItem_of_mem ub hy hn, (ih _ _ (ha x hx) (hb y hy) (hdep x hx y hy)).mpr hc⟩
      · refine forall_congr' fun y => forall_congr' fun hy => ?_
        constructor
        · rintro ⟨v, hv, hc⟩
          obtain ⟨x, hx, hn, rfl⟩ := getItem_some hv
          rw [compare_symm] at hc
          exact ⟨x, hx, NameEq.symm hn, (ih _ _ (ha x hx) (hb y hy) (hdep x hx y hy)).mp hc⟩
        · rintro ⟨x, hx, hn, hc⟩
          refine ⟨x.2, getItem_of_mem ua hx (NameEq.symm hn), ?_⟩
          rw [compare_symm]
          exact (ih _ _ (ha x hx) (hb y hy) (hdep x hx y hy)).mpr hc
    exact leaf (n + 1) a b ha hb (fun xs ys e1 e2 => h1 ⟨xs, ys, e1, e2⟩) (fun xs ys e1 e2 => h2 ⟨xs, ys, e1, e2⟩)

theorem same_refl {cs : Bool} {a : J Dbl} (h : Clear cs a) : Same cs a a := by
  induction h with
  | null => rw [Same]; trivial
  | bool b => rw [Same]
  | num q => rw [Same]; exact NumEq.refl q
  | str s => rw [Same]
  | arr _ ih => rw [Same]; exact ⟨rfl, fun i hi => ih _ (List.getElem_mem _)⟩
  | obj _ _ ih => rw [Same]; exact ⟨fun x hx => ⟨x, hx, NameEq.refl _ _, ih x hx⟩, fun x hx => ⟨x, hx, NameEq.refl _ _, ih x hx⟩⟩

end Verif.CJsonCompare
