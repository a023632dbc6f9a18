import Verif.Spec.Mem
import Mathlib.Data.List.Nodup
import Mathlib.Data.List.Range
import Mathlib.Data.List.Perm.Basic
/-
Invariant of the pool and layout arithmetic.
-/
namespace Verif.Mem

/-- Each class's objects are split between its two queues, and the used ones are those the history says are live. -/
structure Inv (s : St) (lv : List (Nat × Nat)) : Prop where
  perm : ∀ i < nclass, (s.usable i ++ s.inuse i).Perm (List.range (count i))
  live : ∀ i j, (i, j) ∈ lv ↔ i < nclass ∧ j ∈ s.inuse i

theorem init_inv (base : Nat → Nat) : Inv (init base) [] :=
  ⟨fun i _ => by simp [init], fun i j => by simp [init]⟩

theorem pick_lt {n : Int} {i : Nat} (h : pick n = some i) : i < nclass ∧ n ≤ space i := by
  unfold pick at h
  unfold nclass space
  split at h
  · cases h; exact ⟨by decide, by simpa⟩
  · split at h
    · cases h; exact ⟨by decide, by simpa⟩
    · split at h
      · cases h; exact ⟨by decide, by simpa⟩
      · split at h
        · cases h; exact ⟨by decide, by simpa⟩
        · split at h
          · cases h; exact ⟨by decide, by simpa⟩
          · split at h
            · cases h; exact ⟨by decide, by simpa⟩
            · cases h

theorem pick_none {n : Int} : pick n = none ↔ 16384 < n := by
  unfold pick
  split
  · simp; omega
  · split
    · simp; omega
    · split
      · simp; omega
      · split
        · simp; omega
        · split
          · simp; omega
          · split
            · simp; omega
            · simp; omega

@[simp] theorem upd_same (f : Nat → List Nat) (i l) : upd f i l i = l := by simp [upd]
theorem upd_ne (f : Nat → List Nat) {i k : Nat} (l) (h : k ≠ i) : upd f i l k = f k := by simp [upd, h]

/-- An allocation that returned a block. -/
theorem alloc_ptr {s s' : St} {n : Int} {i j : Nat} (h : alloc s n = .next (.ptr i j) s') :
    0 < n ∧ s.locked = false ∧ s.usable 0 ≠ [] ∧ pick n = some i ∧ ∃ rest, s.usable i = j :: rest ∧
      s' = { s with
             usable := upd s.usable i rest
             inuse := upd s.inuse i (s.inuse i ++ [j])
             mem := zero s.mem (s.addr i j) (space i) } := by
  unfold alloc at h
  split at h
  · cases h
  · split at h
    · cases h
    · split at h
      · cases h
      · split at h
        · cases h
        · split at h
          · cases h
          · rename_i h1 h2 h3 _ i' hp _ j' rest hu
            simp only [Outcome.next.injEq, Ret.ptr.injEq] at h
            obtain ⟨⟨rfl, rfl⟩, rfl⟩ := h
            exact ⟨by omega, by simpa using h2, h3, hp, rest, hu, rfl⟩

theorem alloc_other {s s' : St} {n : Int} {r : Ret} (h : alloc s n = .next r s') (hr : ∀ i j, r ≠ .ptr i j) :
    r = .null ∧ s' = s := by
  unfold alloc at h
  split at h
  · cases h
  · split at h
    · cases h
    · split at h
      · simp only [Outcome.next.injEq] at h; exact ⟨h.1.symm, h.2.symm⟩
      · split at h
        · simp only [Outcome.next.injEq] at h; exact ⟨h.1.symm, h.2.symm⟩
        · split at h
          · cases h
          · simp only [Outcome.next.injEq] at h; exact absurd h.1.symm (hr _ _)

theorem inv_nodup {s : St} {lv} (I : Inv s lv) {i : Nat} (hi : i < nclass) : (s.usable i ++ s.inuse i).Nodup :=
  (I.perm i hi).nodup_iff.mpr List.nodup_range

theorem inv_lt {s : St} {lv} (I : Inv s lv) {i : Nat} (hi : i < nclass) {j : Nat} (hj : j ∈ s.usable i ∨ j ∈ s.inuse i) :
    j < count i := by
  have := (I.perm i hi).mem_iff (a := j)
  simp only [List.mem_append, List.mem_range] at this
  exact this.mp hj

theorem step_inv {s s' : St} {lv} {op : Op} {r : Ret} (I : Inv s lv) (hok : okOp op) (h : step s op = .next r s') :
    Inv s' (live lv [(op, r)]) := by
  cases op with
  | alloc n =>
    by_cases hr : ∃ i j, r = .ptr i j
    · obtain ⟨i, j, rfl⟩ := hr
      obtain ⟨-, -, -, hp, rest, hu, rfl⟩ := alloc_ptr h
      have hi := (pick_lt hp).1
      refine ⟨?_, ?_⟩
      · intro k hk
        by_cases hki : k = i
        · subst hki
          simp only [upd_same]
          refine List.Perm.trans ?_ (I.perm k hk)
          rw [hu, ← List.append_assoc]
          exact List.perm_append_comm
        · simp only [upd_ne _ _ hki]; exact I.perm k hk
      · intro k l
        simp only [live, List.mem_append, List.mem_singleton, I.live]
        by_cases hki : k = i
        · subst hki
          simp only [upd_same, List.mem_append, List.mem_singleton, Prod.mk.injEq, true_and]
          tauto
        · simp only [upd_ne _ _ hki, Prod.mk.injEq, hki, false_and, or_false]
    · have hr' : ∀ i j, r ≠ .ptr i j := fun i j e => hr ⟨i, j, e⟩
      obtain ⟨rfl, rfl⟩ := alloc_other h hr'
      exact ⟨I.perm, by simpa [live] using I.live⟩
  | free i j =>
    simp only [step, free] at h
    split at h
    · cases h
    · simp only [Outcome.next.injEq] at h
      obtain ⟨rfl, rfl⟩ := h
      obtain ⟨hi, hj⟩ := hok
      have hnd := inv_nodup I hi
      rw [List.nodup_append'] at hnd
      obtain ⟨hn1, hn2, hd⟩ := hnd
      have hmem : j ∈ s.usable i ∨ j ∈ s.inuse i := by
        have := (I.perm i hi).mem_iff (a := j)
        simp only [List.mem_append, List.mem_range] at this
        exact this.mpr hj
      refine ⟨?_, ?_⟩
      · intro k hk
        by_cases hki : k = i
        · subst hki
          simp only [upd_same]
          refine List.Perm.trans ?_ (I.perm k hk)
          rcases hmem with hm | hm
          · have h2 : j ∉ s.inuse k := fun hc => hd hm hc
            rw [List.erase_of_not_mem h2]
            apply List.Perm.append_right
            exact List.Perm.trans (List.perm_append_singleton _ _) (List.perm_cons_erase hm).symm
          · have h2 : j ∉ s.usable k := fun hc => hd hc hm
            rw [List.erase_of_not_mem h2, List.append_assoc, List.singleton_append]
            exact List.Perm.append_left _ (List.perm_cons_erase hm).symm
        · simp only [upd_ne _ _ hki]; exact I.perm k hk
      · intro k l
        simp only [live, List.mem_filter, I.live, decide_eq_true_eq, ne_eq, Prod.mk.injEq, not_and]
        by_cases hki : k = i
        · subst hki
          simp only [upd_same, List.Nodup.mem_erase_iff hn2]
          tauto
        · simp only [upd_ne _ _ hki, hki, false_implies, and_true]
  | freeForeign =>
    simp only [step, freeForeign] at h
    split at h
    · cases h
    · simp only [Outcome.next.injEq] at h
      obtain ⟨rfl, rfl⟩ := h
      exact ⟨I.perm, by simpa [live] using I.live⟩
  | write a v =>
    simp only [step, Outcome.next.injEq] at h
    obtain ⟨rfl, rfl⟩ := h
    exact ⟨I.perm, by simpa [live] using I.live⟩

theorem live_append : ∀ (h1 h2 : List (Op × Ret)) (acc), live acc (h1 ++ h2) = live (live acc h1) h2
  | [], _, _ => rfl
  | (.alloc _, .ptr i j) :: t, h2, acc => by simp [live, live_append t h2]
  | (.alloc _, .null) :: t, h2, acc => by simp [live, live_append t h2]
  | (.alloc _, .done) :: t, h2, acc => by simp [live, live_append t h2]
  | (.free i j, r) :: t, h2, acc => by simp [live, live_append t h2]
  | (.freeForeign, r) :: t, h2, acc => by simp [live, live_append t h2]
  | (.write _ _, r) :: t, h2, acc => by simp [live, live_append t h2]

theorem run_cons {s : St} {op : Op} {ops : List Op} {rs : List Ret} {s' : St} (h : run s (op :: ops) = some (rs, s')) :
    ∃ r s1 rs', step s op = .next r s1 ∧ run s1 ops = some (rs', s') ∧ rs = r :: rs' := by
  rw [run] at h
  split at h
  · rename_i r s1 hs
    rw [Option.map_eq_some_iff] at h
    obtain ⟨⟨rs', s2⟩, h1, h2⟩ := h
    simp only [Prod.mk.injEq] at h2
    obtain ⟨rfl, rfl⟩ := h2
    exact ⟨r, s1, rs', hs, h1, rfl⟩
  · cases h

theorem run_inv : ∀ (ops : List Op) {s s' : St} {lv} {rs : List Ret}, Inv s lv → (∀ op ∈ ops, okOp op) →
    run s ops = some (rs, s') → Inv s' (live lv (ops.zip rs))
  | [], s, s', lv, rs, I, _, h => by
    simp only [run, Option.some.injEq, Prod.mk.injEq] at h
    obtain ⟨rfl, rfl⟩ := h
    simpa [live] using I
  | op :: ops, s, s', lv, rs, I, hok, h => by
    obtain ⟨r, s1, rs', hs, h1, rfl⟩ := run_cons h
    have I1 := step_inv I (hok op (by simp)) hs
    have := run_inv ops I1 (fun o ho => hok o (by simp [ho])) h1
    rw [List.zip_cons_cons, ← List.singleton_append, live_append]
    exact this

theorem step_base {s s' : St} {op : Op} {r : Ret} (h : step s op = .next r s') : s'.base = s.base := by
  cases op with
  | alloc n =>
    by_cases hr : ∃ i j, r = .ptr i j
    · obtain ⟨i, j, rfl⟩ := hr
      obtain ⟨-, -, -, hp, rest, hu, rfl⟩ := alloc_ptr h
      rfl
    · obtain ⟨rfl, rfl⟩ := alloc_other h (fun i j e => hr ⟨i, j, e⟩)
      rfl
  | free i j =>
    simp only [step, free] at h
    split at h
    · cases h
    · simp only [Outcome.next.injEq] at h; obtain ⟨rfl, rfl⟩ := h; rfl
  | freeForeign =>
    simp only [step, freeForeign] at h
    split at h
    · cases h
    · simp only [Outcome.next.injEq] at h; obtain ⟨rfl, rfl⟩ := h; rfl
  | write a v =>
    simp only [step, Outcome.next.injEq] at h; obtain ⟨rfl, rfl⟩ := h; rfl

theorem run_base : ∀ (ops : List Op) {s s' : St} {rs : List Ret}, run s ops = some (rs, s') → s'.base = s.base
  | [], s, s', rs, h => by
    simp only [run, Option.some.injEq, Prod.mk.injEq] at h
    obtain ⟨rfl, rfl⟩ := h; rfl
  | op :: ops, s, s', rs, h => by
    obtain ⟨r, s1, rs', hs, h1, rfl⟩ := run_cons h
    rw [run_base ops h1, step_base hs]

/-- Two objects' whole extents (header and block) are disjoint. -/
theorem extents_apart {base : Nat → Nat} (L : Layout base) {i j k l : Nat} (hi : i < nclass) (hk : k < nclass)
    (hj : j < count i) (hl : l < count k) (hne : (i, j) ≠ (k, l)) (x : Nat)
    (h1 : base i + j * stride i ≤ x ∧ x < base i + j * stride i + stride i)
    (h2 : base k + l * stride k ≤ x ∧ x < base k + l * stride k + stride k) : False := by
  by_cases hik : i = k
  · subst hik
    have hjl : j ≠ l := fun e => hne (by rw [e])
    rcases Nat.lt_or_gt_of_ne hjl with h | h
    · have : (j + 1) * stride i ≤ l * stride i := Nat.mul_le_mul_right _ h
      rw [Nat.add_mul, Nat.one_mul] at this
      omega
    · have : (l + 1) * stride i ≤ j * stride i := Nat.mul_le_mul_right _ h
      rw [Nat.add_mul, Nat.one_mul] at this
      omega
  · have e1 : (j + 1) * stride i ≤ count i * stride i := Nat.mul_le_mul_right _ hj
    have e2 : (l + 1) * stride k ≤ count k * stride k := Nat.mul_le_mul_right _ hl
    rw [Nat.add_mul, Nat.one_mul] at e1 e2
    have := L i hi k hk hik
    rw [Nat.mul_comm (stride i), Nat.mul_comm (stride k)] at this
    omega

/-- Progress of a free object towards the head of its class's queue. -/
theorem step_pos {s s' : St} {lv} (I : Inv s lv) {op : Op} {r : Ret} {i j : Nat} (hi : i < nclass)
    (hj : j ∈ s.usable i) (hop : op ≠ .free i j) (h : step s op = .next r s') (hr : r ≠ .ptr i j) :
    j ∈ s'.usable i ∧ (s'.usable i).idxOf j ≤ (s.usable i).idxOf j ∧
      ∀ l, r = .ptr i l → (s'.usable i).idxOf j + 1 = (s.usable i).idxOf j := by
  have hnd := inv_nodup I hi
  rw [List.nodup_append'] at hnd
  obtain ⟨hn1, -, -⟩ := hnd
  cases op with
  | alloc n =>
    by_cases hr2 : ∃ a b, r = .ptr a b
    · obtain ⟨a, b, rfl⟩ := hr2
      obtain ⟨-, -, -, hp, rest, hu, rfl⟩ := alloc_ptr h
      by_cases hia : i = a
      · subst hia
        have hbj : b ≠ j := fun e => hr (by rw [e])
        simp only [upd_same]
        rw [hu] at hj ⊢
        simp only [List.mem_cons] at hj
        have hjr : j ∈ rest := hj.resolve_left (Ne.symm hbj)
        have : List.idxOf j (b :: rest) = List.idxOf j rest + 1 := List.idxOf_cons_ne _ hbj
        refine ⟨hjr, by omega, fun l _ => this.symm⟩
      · simp only [upd_ne _ _ hia]
        refine ⟨hj, Nat.le_refl _, fun l hl => ?_⟩
        simp only [Ret.ptr.injEq] at hl
        exact absurd hl.1.symm hia
    · obtain ⟨rfl, rfl⟩ := alloc_other h (fun i j e => hr2 ⟨i, j, e⟩)
      exact ⟨hj, Nat.le_refl _, fun l hl => by cases hl⟩
  | free a b =>
    simp only [step, free] at h
    split at h
    · cases h
    · simp only [Outcome.next.injEq] at h
      obtain ⟨rfl, rfl⟩ := h
      by_cases hia : i = a
      · subst hia
        have hbj : b ≠ j := fun e => hop (by rw [e])
        simp only [upd_same]
        have hje : j ∈ (s.usable i).erase b := (List.Nodup.mem_erase_iff hn1).mpr ⟨Ne.symm hbj, hj⟩
        refine ⟨List.mem_append_left _ hje, ?_, fun l hl => by cases hl⟩
        rw [List.idxOf_append_of_mem hje]
        clear hn1 hop hje I
        generalize s.usable i = u at *
        induction u with
        | nil => simp at hj
        | cons c u ih =>
          by_cases hcb : c = b
          · subst hcb
            simp only [List.erase_cons_head]
            rw [List.idxOf_cons_ne _ hbj]
            omega
          · rw [List.erase_cons_tail (by simpa using hcb)]
            by_cases hcj : c = j
            · subst hcj; simp
            · rw [List.idxOf_cons_ne _ hcj, List.idxOf_cons_ne _ hcj]
              simp only [List.mem_cons] at hj
              have := ih (hj.resolve_left (Ne.symm hcj))
              omega
      · simp only [upd_ne _ _ hia]
        exact ⟨hj, Nat.le_refl _, fun l hl => by cases hl⟩
  | freeForeign =>
    simp only [step, freeForeign] at h
    split at h
    · cases h
    · simp only [Outcome.next.injEq] at h; obtain ⟨rfl, rfl⟩ := h
      exact ⟨hj, Nat.le_refl _, fun l hl => by cases hl⟩
  | write a v =>
    simp only [step, Outcome.next.injEq] at h; obtain ⟨rfl, rfl⟩ := h
    exact ⟨hj, Nat.le_refl _, fun l hl => by cases hl⟩

/-- Number of allocations answered with a block of class `i`. -/
def served (i : Nat) (rs : List Ret) : Nat := (rs.filter (fun r => match r with | .ptr k _ => k = i | _ => false)).length

theorem run_reuse : ∀ (ops : List Op) {s s' : St} {lv} {rs : List Ret} (_ : Inv s lv) {i j : Nat} (_ : i < nclass)
    (_ : j ∈ s.usable i) (_ : ∀ op ∈ ops, okOp op) (_ : ∀ op ∈ ops, op ≠ .free i j)
    (_ : run s ops = some (rs, s')) (_ : (s.usable i).idxOf j < served i rs), .ptr i j ∈ rs
  | [], s, s', lv, rs, I, i, j, hi, hj, hok, hop, h, hs => by
    simp only [run, Option.some.injEq, Prod.mk.injEq] at h
    obtain ⟨rfl, rfl⟩ := h
    simp [served] at hs
  | op :: ops, s, s', lv, rs, I, i, j, hi, hj, hok, hop, h, hs => by
    obtain ⟨r, s1, rs', hst, h1, rfl⟩ := run_cons h
    by_cases hr : r = .ptr i j
    · subst hr; simp
    · obtain ⟨p1, p2, p3⟩ := step_pos I hi hj (hop op (by simp)) hst hr
      have I1 := step_inv I (hok op (by simp)) hst
      refine List.mem_cons_of_mem _ (run_reuse ops I1 hi p1 (fun o ho => hok o (by simp [ho]))
        (fun o ho => hop o (by simp [ho])) h1 ?_)
      by_cases hc : ∃ l, r = .ptr i l
      · obtain ⟨l, rfl⟩ := hc
        have := p3 l rfl
        simp only [served, List.filter_cons, decide_true, if_true, List.length_cons] at hs ⊢
        omega
      · have : served i (r :: rs') = served i rs' := by
          cases r with
          | ptr a b =>
            have : a ≠ i := fun e => hc ⟨b, by rw [e]⟩
            simp [served, this]
          | null => simp [served]
          | done => simp [served]
        omega

theorem run_keeps_free : ∀ (ops : List Op) {s s' : St} {lv} {rs : List Ret} (_ : Inv s lv) {i j : Nat} (_ : i < nclass)
    (_ : j ∈ s.usable i) (_ : ∀ op ∈ ops, okOp op) (_ : run s ops = some (rs, s')) (_ : .ptr i j ∉ rs), j ∈ s'.usable i
  | [], s, s', lv, rs, I, i, j, hi, hj, hok, h, hs => by
    simp only [run, Option.some.injEq, Prod.mk.injEq] at h
    obtain ⟨rfl, rfl⟩ := h
    exact hj
  | op :: ops, s, s', lv, rs, I, i, j, hi, hj, hok, h, hs => by
    obtain ⟨r, s1, rs', hst, h1, rfl⟩ := run_cons h
    simp only [List.mem_cons, not_or] at hs
    have I1 := step_inv I (hok op (by simp)) hst
    refine run_keeps_free ops I1 hi ?_ (fun o ho => hok o (by simp [ho])) h1 hs.2
    by_cases hop : op = .free i j
    · subst hop
      simp only [step, free] at hst
      split at hst
      · cases hst
      · simp only [Outcome.next.injEq] at hst
        obtain ⟨rfl, rfl⟩ := hst
        simp
    · exact (step_pos I hi hj hop hst (Ne.symm hs.1)).1

/-- Repeated allocations of one class empty it from the front. -/
theorem run_drain {i : Nat} {n : Int} (hn : 0 < n) (hp : pick n = some i) : ∀ (m : Nat) (s : St), s.locked = false →
    m ≤ (s.usable i).length → (i = 0 ∨ s.usable 0 ≠ []) →
    ∃ rs s', run s (List.replicate m (.alloc n)) = some (rs, s') ∧ s'.usable i = (s.usable i).drop m ∧
      s'.locked = false ∧ ∀ k, k ≠ i → s'.usable k = s.usable k
  | 0, s, hl, hm, h0 => ⟨[], s, rfl, by simp, hl, fun _ _ => rfl⟩
  | m + 1, s, hl, hm, h0 => by
    cases hu : s.usable i with
    | nil => rw [hu] at hm; simp at hm
    | cons j rest =>
      have hne : s.usable 0 ≠ [] := by
        rcases h0 with rfl | h0
        · rw [hu]; simp
        · exact h0
      have hst : step s (.alloc n) = .next (.ptr i j)
          { s with
            usable := upd s.usable i rest
            inuse := upd s.inuse i (s.inuse i ++ [j])
            mem := zero s.mem (s.addr i j) (space i) } := by
        simp only [step, alloc, hl, hne, hp, hu]
        rw [if_neg (by omega)]
        simp
      obtain ⟨rs, s', e1, e2, e3, e4⟩ := run_drain hn hp m
        { s with
          usable := upd s.usable i rest
          inuse := upd s.inuse i (s.inuse i ++ [j])
          mem := zero s.mem (s.addr i j) (space i) } hl (by simp only [upd_same]; rw [hu] at hm; simp at hm; omega)
        (by
          rcases h0 with rfl | h0
          · exact Or.inl rfl
          · by_cases hi : i = 0
            · exact Or.inl hi
            · right; simp only [upd_ne _ _ (Ne.symm hi)]; exact h0)
      refine ⟨.ptr i j :: rs, s', ?_, ?_, e3, ?_⟩
      · rw [List.replicate_succ, run, hst]
        simp only [e1, Option.map_some]
      · rw [e2]; simp
      · intro k hk
        rw [e4 k hk]; simp only [upd_ne _ _ hk]

end Verif.Mem
