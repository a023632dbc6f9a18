import Verif.Model.Process
import Mathlib.Data.List.Nodup
/-
Lemmas about the supervisor.
-/
namespace Verif.Process

/-- The pids of the occupied slots. -/
def occ (l : List Slot) : List Nat := (l.filter fun s => !s.exited).map (·.pid)

/-- The children of the master are exactly the processes of the occupied slots. -/
structure Inv (w : W) : Prop where
  nd : (w.slots.map (·.pid)).Nodup
  perm : (w.live ++ w.dead).Perm (occ w.slots)

theorem occ_cons (s : Slot) (l : List Slot) : occ (s :: l) = if s.exited then occ l else s.pid :: occ l := by
  unfold occ
  cases h : s.exited <;> simp [h]

theorem occ_sublist (l : List Slot) : (occ l).Sublist (l.map (·.pid)) := List.Sublist.map _ List.filter_sublist

theorem mem_occ {l : List Slot} {p : Nat} : p ∈ occ l ↔ ∃ s ∈ l, s.exited = false ∧ s.pid = p := by
  simp only [occ, List.mem_map, List.mem_filter, Bool.not_eq_true']
  constructor
  · rintro ⟨s, ⟨h1, h2⟩, h3⟩; exact ⟨s, h1, h2, h3⟩
  · rintro ⟨s, h1, h2, h3⟩; exact ⟨s, ⟨h1, h2⟩, h3⟩

theorem exit1_inv {w : W} (h : Inv w) (p : Nat) : Inv (exit1 w p) := by
  unfold exit1
  split
  · rename_i hp
    refine ⟨h.nd, ?_⟩
    show (w.live.erase p ++ p :: w.dead).Perm _
    refine List.Perm.trans ?_ h.perm
    refine List.Perm.trans List.perm_middle ?_
    exact List.Perm.append_right w.dead (List.perm_cons_erase hp).symm
  · exact h

theorem exit1_slots (w : W) (p : Nat) : (exit1 w p).slots = w.slots := by unfold exit1; split <;> rfl

theorem exit1_quit (w : W) (p : Nat) : (exit1 w p).quit = w.quit := by unfold exit1; split <;> rfl

theorem exits_inv {w : W} (h : Inv w) (l : List Nat) : Inv (l.foldl exit1 w) := by
  induction l generalizing w with
  | nil => exact h
  | cons p l ih => exact ih (exit1_inv h p)

theorem exits_slots (w : W) (l : List Nat) : (l.foldl exit1 w).slots = w.slots := by
  induction l generalizing w with
  | nil => rfl
  | cons p l ih => rw [List.foldl_cons, ih, exit1_slots]

theorem exits_quit (w : W) (l : List Nat) : (l.foldl exit1 w).quit = w.quit := by
  induction l generalizing w with
  | nil => rfl
  | cons p l ih => rw [List.foldl_cons, ih, exit1_quit]

theorem mark_pid (p : Nat) (l : List Slot) : (mark p l).map (·.pid) = l.map (·.pid) := by
  induction l with
  | nil => rfl
  | cons s l ih => simp only [mark]; split <;> simp [ih]

theorem mark_notMem {p : Nat} {l : List Slot} (h : p ∉ l.map (·.pid)) : mark p l = l := by
  induction l with
  | nil => rfl
  | cons s l ih =>
    simp only [List.map_cons, List.mem_cons, not_or] at h
    simp only [mark, if_neg h.1, ih h.2]

theorem mark_eq {p : Nat} {l : List Slot} (h : (l.map (·.pid)).Nodup) :
    mark p l = l.map fun s => if p = s.pid then { s with exited := true } else s := by
  induction l with
  | nil => rfl
  | cons s l ih =>
    rw [List.map_cons, List.nodup_cons] at h
    simp only [mark, List.map_cons]
    split
    · rename_i hp
      have : mark p l = l := mark_notMem (hp ▸ h.1)
      rw [ih h.2] at this
      rw [this]
    · rw [ih h.2]

theorem marks_eq (d : List Nat) {l : List Slot} (h : (l.map (·.pid)).Nodup) :
    d.foldl (fun s p => mark p s) l = l.map fun s => if s.pid ∈ d then { s with exited := true } else s := by
  induction d generalizing l with
  | nil => simp
  | cons p d ih =>
    rw [List.foldl_cons, ih (by rw [mark_pid]; exact h), mark_eq h, List.map_map]
    apply List.map_congr_left
    intro s _
    simp only [Function.comp, List.mem_cons]
    by_cases h1 : p = s.pid
    · by_cases h2 : s.pid ∈ d <;> simp [h1, h2]
    · have h1' : ¬ s.pid = p := fun h => h1 h.symm
      by_cases h2 : s.pid ∈ d <;> simp [h1, h1', h2]

theorem waitpid_slots {w : W} (h : (w.slots.map (·.pid)).Nodup) :
    (waitpid w).slots = w.slots.map fun s => if s.pid ∈ w.dead then { s with exited := true } else s := marks_eq _ h

theorem waitpid_inv {w : W} (h : Inv w) : Inv (waitpid w) := by
  have hs := waitpid_slots h.nd
  have hnd : (w.live ++ w.dead).Nodup := h.perm.nodup_iff.mpr ((occ_sublist _).nodup h.nd)
  refine ⟨?_, ?_⟩
  · rw [hs, List.map_map]
    refine Eq.subst (motive := fun l => List.Nodup l) ?_ h.nd
    apply List.map_congr_left
    intro s _
    simp only [Function.comp]
    split <;> rfl
  · rw [hs]
    show (w.live ++ []).Perm _
    have hl : w.live = (w.live ++ w.dead).filter fun p => decide (p ∉ w.dead) := by
      rw [List.filter_append]
      have h1 : w.live.filter (fun p => decide (p ∉ w.dead)) = w.live := by
        rw [List.filter_eq_self]
        intro p hp
        simp only [decide_eq_true_eq]
        exact fun hd => (List.disjoint_of_nodup_append hnd) hp hd
      have h2 : w.dead.filter (fun p => decide (p ∉ w.dead)) = [] := by
        rw [List.filter_eq_nil_iff]
        intro p hp; simp [hp]
      rw [h1, h2, List.append_nil]
    rw [List.append_nil]
    have hr : occ (w.slots.map fun s => if s.pid ∈ w.dead then { s with exited := true } else s) =
        (occ w.slots).filter fun p => decide (p ∉ w.dead) := by
      generalize w.slots = l
      induction l with
      | nil => rfl
      | cons s l ih =>
        rw [List.map_cons, occ_cons, ih, occ_cons]
        by_cases h1 : s.pid ∈ w.dead
        · cases h2 : s.exited <;> simp [h1]
        · cases h2 : s.exited <;> simp [h1, h2]
    rw [hr]
    have := h.perm.filter fun p => decide (p ∉ w.dead)
    rw [← hl] at this
    exact this

theorem handler_inv {w : W} (h : Inv w) (s : Sig) : Inv (handler w s) := by
  cases s with
  | int => exact ⟨h.nd, h.perm⟩
  | chld => exact waitpid_inv (w := { w with reap := true }) ⟨h.nd, h.perm⟩
  | hup => exact ⟨h.nd, h.perm⟩
  | other => exact h

theorem handlers_inv {w : W} (h : Inv w) (l : List Sig) : Inv (l.foldl handler w) := by
  induction l generalizing w with
  | nil => exact h
  | cons s l ih => exact ih (handler_inv h s)

theorem before_inv {w : W} (h : Inv w) (k : Wake) : Inv (before w k) := handlers_inv (exits_inv h _) _

/-- The results of `fork` are pids that are neither in use nor recorded in the table, all different. -/
structure Fresh (w : W) (forks : List (Option Nat)) : Prop where
  nd : (forks.filterMap id).Nodup
  slot : ∀ p, some p ∈ forks → p ∉ w.slots.map (·.pid)
  live : ∀ p, some p ∈ forks → p ∉ w.live ∧ p ∉ w.dead

theorem restart_spec (l : List Slot) : ∀ (i : Nat) (f : List (Option Nat)), (l.map (·.pid)).Nodup → (f.filterMap id).Nodup →
    (∀ p, some p ∈ f → p ∉ l.map (·.pid)) →
    ((restart i l f).1.map (·.pid)).Nodup ∧
    (∀ p ∈ (restart i l f).1.map (·.pid), p ∈ l.map (·.pid) ∨ some p ∈ f) ∧
    (occ (restart i l f).1).Perm ((restart i l f).2.1.map (·.2) ++ occ l) ∧ (restart i l f).1.length = l.length := by
  induction l with
  | nil => intro i f _ _ _; simp [restart, occ]
  | cons s l ih =>
    intro i f hnd hf hd
    rw [List.map_cons, List.nodup_cons] at hnd
    cases hs : s.exited with
    | false =>
      obtain ⟨h1, h2, h3, h4⟩ := ih (i + 1) f hnd.2 hf (fun p hp hm => hd p hp (by simp [hm]))
      have hr : restart i (s :: l) f = (s :: (restart (i + 1) l f).1, (restart (i + 1) l f).2.1, (restart (i + 1) l f).2.2) := by
        rw [restart.eq_def]; simp [hs]
      rw [hr]
      refine ⟨?_, ?_, ?_, by simp [h4]⟩
      · rw [List.map_cons, List.nodup_cons]
        refine ⟨fun hm => ?_, h1⟩
        rcases h2 _ hm with hm | hm
        · exact hnd.1 hm
        · exact hd _ hm (by simp)
      · intro p hp
        simp only [List.map_cons, List.mem_cons] at hp ⊢
        rcases hp with hp | hp
        · exact .inl (.inl hp)
        · rcases h2 _ hp with h | h
          · exact .inl (.inr h)
          · exact .inr h
      · rw [occ_cons, occ_cons, hs]
        simp only [Bool.false_eq_true, if_false]
        exact (List.Perm.cons _ h3).trans List.perm_middle.symm
    | true =>
      match f, hf, hd with
      | [], hf, hd =>
        obtain ⟨h1, h2, h3, h4⟩ := ih (i + 1) [] hnd.2 (by simp) (by simp)
        have hr : restart i (s :: l) [] = (s :: (restart (i + 1) l []).1, (restart (i + 1) l []).2.1, (restart (i + 1) l []).2.2) := by
          rw [restart.eq_def]; simp [hs]
        rw [hr]
        refine ⟨?_, ?_, ?_, by simp [h4]⟩
        · rw [List.map_cons, List.nodup_cons]
          refine ⟨fun hm => ?_, h1⟩
          rcases h2 _ hm with hm | hm
          · exact hnd.1 hm
          · simp at hm
        · intro p hp
          simp only [List.map_cons, List.mem_cons] at hp ⊢
          rcases hp with hp | hp
          · exact .inl (.inl hp)
          · rcases h2 _ hp with h | h
            · exact .inl (.inr h)
            · exact .inr (by simp at h)
        · rw [occ_cons, occ_cons, hs]
          simpa using h3
      | none :: f, hf, hd =>
        obtain ⟨h1, h2, h3, h4⟩ := ih (i + 1) f hnd.2 (by simpa using hf) (fun p hp hm => hd p (by simp [hp]) (by simp [hm]))
        have hr : restart i (s :: l) (none :: f) =
            (s :: (restart (i + 1) l f).1, (restart (i + 1) l f).2.1, (restart (i + 1) l f).2.2) := by
          rw [restart.eq_def]; simp [hs]
        rw [hr]
        refine ⟨?_, ?_, ?_, by simp [h4]⟩
        · rw [List.map_cons, List.nodup_cons]
          refine ⟨fun hm => ?_, h1⟩
          rcases h2 _ hm with hm | hm
          · exact hnd.1 hm
          · exact hd _ (List.mem_cons_of_mem _ hm) (by simp)
        · intro p hp
          simp only [List.map_cons, List.mem_cons] at hp ⊢
          rcases hp with hp | hp
          · exact .inl (.inl hp)
          · rcases h2 _ hp with h | h
            · exact .inl (.inr h)
            · exact .inr (.inr h)
        · rw [occ_cons, occ_cons, hs]
          simpa using h3
      | some q :: f, hf, hd =>
        have hf' : q ∉ f.filterMap id ∧ (f.filterMap id).Nodup := by simpa [List.filterMap_cons, List.nodup_cons] using hf
        obtain ⟨h1, h2, h3, h4⟩ := ih (i + 1) f hnd.2 hf'.2 (fun p hp hm => hd p (by simp [hp]) (by simp [hm]))
        have hr : restart i (s :: l) (some q :: f) =
            (⟨q, false⟩ :: (restart (i + 1) l f).1, (i, q) :: (restart (i + 1) l f).2.1, (restart (i + 1) l f).2.2) := by
          rw [restart.eq_def]; simp [hs]
        rw [hr]
        refine ⟨?_, ?_, ?_, by simp [h4]⟩
        · rw [List.map_cons, List.nodup_cons]
          refine ⟨fun hm => ?_, h1⟩
          rcases h2 _ hm with hm | hm
          · exact hd q (by simp) (by simp only [List.map_cons, List.mem_cons]; exact .inr hm)
          · exact hf'.1 (List.mem_filterMap.mpr ⟨some q, hm, rfl⟩)
        · intro p hp
          simp only [List.map_cons, List.mem_cons] at hp ⊢
          rcases hp with hp | hp
          · exact .inr (.inl (by rw [hp]))
          · rcases h2 _ hp with h | h
            · exact .inl (.inr h)
            · exact .inr (.inr h)
        · rw [occ_cons, occ_cons, hs]
          simp only [Bool.false_eq_true, if_false, if_true, List.map_cons, List.cons_append]
          exact List.Perm.cons _ h3

/-- Slots that were occupied are untouched, and each started process is in the slot it was started for. -/
theorem restart_slots (l : List Slot) : ∀ (i : Nat) (f : List (Option Nat)),
    (∀ (j : Nat) (s : Slot), l[j]? = some s → s.exited = false → (restart i l f).1[j]? = some s) ∧
    (∀ (j p : Nat), (j, p) ∈ (restart i l f).2.1 → i ≤ j ∧ (restart i l f).1[j - i]? = some ⟨p, false⟩ ∧
      ∃ s, l[j - i]? = some s ∧ s.exited = true) ∧
    (∀ (j : Nat) (s : Slot), l[j]? = some s → s.exited = true →
      (∃ p, (i + j, p) ∈ (restart i l f).2.1) ∨ (restart i l f).1[j]? = some s) := by
  induction l with
  | nil => intro i f; simp [restart]
  | cons s l ih =>
    intro i f
    have gen : ∀ (s' : Slot) (out : List (Nat × Nat)) (f' : List (Option Nat)),
        restart i (s :: l) f = (s' :: (restart (i + 1) l f').1, out ++ (restart (i + 1) l f').2.1, (restart (i + 1) l f').2.2) →
        (s.exited = false → s' = s) → (∀ (j p : Nat), (j, p) ∈ out → j = i ∧ s' = ⟨p, false⟩ ∧ s.exited = true) →
        (s.exited = true → (∃ p, (i, p) ∈ out) ∨ s' = s) →
        (∀ (j : Nat) (s0 : Slot), (s :: l)[j]? = some s0 → s0.exited = false → (restart i (s :: l) f).1[j]? = some s0) ∧
        (∀ (j p : Nat), (j, p) ∈ (restart i (s :: l) f).2.1 → i ≤ j ∧ (restart i (s :: l) f).1[j - i]? = some ⟨p, false⟩ ∧
          ∃ s0, (s :: l)[j - i]? = some s0 ∧ s0.exited = true) ∧
        (∀ (j : Nat) (s0 : Slot), (s :: l)[j]? = some s0 → s0.exited = true →
          (∃ p, (i + j, p) ∈ (restart i (s :: l) f).2.1) ∨ (restart i (s :: l) f).1[j]? = some s0) := by
      intro s' out f' hr h1 h2 h3
      obtain ⟨i1, i2, i3⟩ := ih (i + 1) f'
      rw [hr]
      refine ⟨?_, ?_, ?_⟩
      · intro j s0 hj he
        cases j with
        | zero =>
          simp only [List.getElem?_cons_zero, Option.some.injEq] at hj ⊢
          subst hj
          exact h1 he
        | succ j =>
          simp only [List.getElem?_cons_succ] at hj ⊢
          exact i1 j s0 hj he
      · intro j p hj
        simp only [List.mem_append] at hj
        rcases hj with hj | hj
        · obtain ⟨rfl, rfl, he⟩ := h2 j p hj
          simp [he]
        · obtain ⟨h4, h5, h6⟩ := i2 j p hj
          have e : j - i = (j - (i + 1)) + 1 := by omega
          refine ⟨by omega, ?_, ?_⟩
          · rw [e]; simpa using h5
          · rw [e]; simpa using h6
      · intro j s0 hj he
        cases j with
        | zero =>
          simp only [List.getElem?_cons_zero, Option.some.injEq] at hj ⊢
          subst hj
          rcases h3 he with ⟨p, hp⟩ | h
          · exact .inl ⟨p, by simp [hp]⟩
          · exact .inr h
        | succ j =>
          simp only [List.getElem?_cons_succ] at hj ⊢
          rcases i3 j s0 hj he with ⟨p, hp⟩ | h
          · refine .inl ⟨p, ?_⟩
            have e : i + (j + 1) = i + 1 + j := by omega
            rw [e]
            exact List.mem_append_right _ hp
          · exact .inr h
    cases hs : s.exited with
    | false =>
      refine gen s [] f ?_ (fun _ => rfl) (by simp) (by simp [hs])
      rw [restart.eq_def]; simp [hs]
    | true =>
      match f with
      | [] =>
        refine gen s [] [] ?_ (fun _ => rfl) (by simp) (fun _ => .inr rfl)
        rw [restart.eq_def]; simp [hs]
      | none :: f =>
        refine gen s [] f ?_ (fun _ => rfl) (by simp) (fun _ => .inr rfl)
        rw [restart.eq_def]; simp [hs]
      | some q :: f =>
        refine gen ⟨q, false⟩ [(i, q)] f ?_ (by simp [hs]) ?_ (fun _ => .inl ⟨q, by simp⟩)
        · rw [restart.eq_def]; simp [hs]
        · intro j p hp
          simp only [List.mem_singleton, Prod.mk.injEq] at hp
          simp [hp, hs]

theorem pass_inv {w : W} (h : Inv w) {forks : List (Option Nat)} (hf : Fresh w forks) : Inv (pass w forks).1 := by
  unfold pass
  simp only
  split
  · exact h
  · by_cases hc : w.reap = true ∧ ¬ w.quit = true
    · rw [if_pos hc]
      obtain ⟨h1, h2, h3, h4⟩ := restart_spec w.slots 0 forks h.nd hf.nd hf.slot
      refine ⟨h1, ?_⟩
      show (((restart 0 w.slots forks).2.1.map (·.2) ++ w.live) ++ w.dead).Perm _
      rw [List.append_assoc]
      exact (List.Perm.append_left _ h.perm).trans h3.symm
    · rw [if_neg hc]
      exact ⟨h.nd, by simpa using h.perm⟩

theorem step_inv {w : W} (h : Inv w) (k : Wake) (hf : Fresh (before w k) k.forks) : Inv (step w k).1 := by
  have := pass_inv (before_inv h k) hf
  unfold step
  simp only
  split
  · exact ⟨this.nd, this.perm⟩
  · exact this

theorem handler_quit {w : W} (h : w.quit = true) (s : Sig) : (handler w s).quit = true := by
  cases s <;> simp [handler, waitpid, h]

theorem handlers_quit {w : W} (h : w.quit = true) (l : List Sig) : (l.foldl handler w).quit = true := by
  induction l generalizing w with
  | nil => exact h
  | cons s l ih => exact ih (handler_quit h s)

theorem before_quit {w : W} (h : w.quit = true) (k : Wake) : (before w k).quit = true :=
  handlers_quit (by rw [exits_quit]; exact h) _

end Verif.Process
