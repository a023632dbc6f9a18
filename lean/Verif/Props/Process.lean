import Verif.Proofs.Process
/-
Properties C41 (the supervisor keeps its workers) and C59 (reload).
-/
namespace Verif.Process

/-! ### C41 -/

/-- The results of `fork` are fresh in every round. -/
def FreshRun (w : W) : List Wake → Prop
  | [] => True
  | k :: ks => Fresh (before w k) k.forks ∧ FreshRun (step w k).1 ks

theorem marks_length (d : List Nat) (l : List Slot) : (d.foldl (fun s p => mark p s) l).length = l.length := by
  induction d generalizing l with
  | nil => rfl
  | cons p d ih =>
    rw [List.foldl_cons, ih]
    have := congrArg List.length (mark_pid p l)
    simpa using this

theorem handlers_length (w : W) (l : List Sig) : (l.foldl handler w).slots.length = w.slots.length := by
  induction l generalizing w with
  | nil => rfl
  | cons s l ih =>
    rw [List.foldl_cons, ih]
    cases s with
    | chld => exact marks_length _ _
    | int => rfl
    | hup => rfl
    | other => rfl

theorem restart_length (l : List Slot) (i : Nat) (f : List (Option Nat)) : (restart i l f).1.length = l.length := by
  induction l generalizing i f with
  | nil => rfl
  | cons s l ih =>
    rw [restart.eq_def]
    simp only
    split
    · split <;> simp [ih]
    · simp [ih]

theorem step_length (w : W) (k : Wake) : (step w k).1.slots.length = w.slots.length := by
  have h1 : (before w k).slots.length = w.slots.length := by
    unfold before; rw [handlers_length, exits_slots]
  have h2 : (pass (before w k) k.forks).1.slots.length = (before w k).slots.length := by
    unfold pass
    simp only
    split
    · rfl
    · split
      · exact restart_length _ _ _
      · rfl
  unfold step
  simp only
  split <;> simp [h1, h2]

/-- C41: for every history of exits, signals and `fork` results, the children of the master are at all times exactly the processes recorded in
the occupied slots, and the number of slots never changes. (`Fresh`: the kernel does not hand out a pid that is in use or still recorded.) -/
theorem c41_table (pids : List Nat) (hn : pids.Nodup) (ks : List Wake) (hf : FreshRun (init pids) ks) :
    let w := (run (init pids) ks).1
    (w.live ++ w.dead).Perm ((w.slots.filter fun s => !s.exited).map (·.pid)) ∧ w.slots.length = pids.length := by
  have key : ∀ (ks : List Wake) (w : W), Inv w → FreshRun w ks → Inv (run w ks).1 ∧ (run w ks).1.slots.length = w.slots.length := by
    intro ks
    induction ks with
    | nil => intro w h _; exact ⟨h, rfl⟩
    | cons k ks ih =>
      intro w h hf
      have h1 := step_inv h k hf.1
      unfold run
      simp only
      split
      · exact ⟨h1, step_length w k⟩
      · have := ih _ h1 hf.2
        exact ⟨this.1, this.2.trans (step_length w k)⟩
  have h0 : Inv (init pids) := by
    refine ⟨?_, ?_⟩
    · simpa [init, List.map_map, Function.comp_def] using hn
    · simp only [init, List.append_nil, occ]
      have : ((pids.map fun p => (⟨p, false⟩ : Slot)).filter fun s => !s.exited) = pids.map fun p => ⟨p, false⟩ := by
        rw [List.filter_eq_self]; simp
      rw [this]
      simp [List.map_map, Function.comp_def]
  obtain ⟨h1, h2⟩ := key ks _ h0 hf
  exact ⟨h1.perm, by simpa [init] using h2⟩

/-- Case for `c41_table`: worker 1 exits and is replaced, worker 0 exits while forking fails. -/
example : FreshRun (init [10, 11, 12]) [⟨[11], [.chld], [some 20], false⟩, ⟨[10], [.chld], [none], false⟩] ∧
    (run (init [10, 11, 12]) [⟨[11], [.chld], [some 20], false⟩, ⟨[10], [.chld], [none], false⟩]).1.slots =
      [⟨10, true⟩, ⟨20, false⟩, ⟨12, false⟩] := by
  refine ⟨⟨⟨by decide, ?_, ?_⟩, ⟨by decide, ?_, ?_⟩, trivial⟩, by decide⟩ <;> intro p hp <;> simp at hp
  · subst hp; decide
  · subst hp; decide

theorem restart_all (l : List Slot) : ∀ (i : Nat) (f : List (Option Nat)), (∀ x ∈ f, x ≠ none) →
    (l.filter fun s => s.exited).length ≤ f.length → ∀ s ∈ (restart i l f).1, s.exited = false := by
  induction l with
  | nil => intro i f _ _ s hs; simp [restart] at hs
  | cons a l ih =>
    intro i f hf hl s hs
    cases ha : a.exited with
    | false =>
      have hr : restart i (a :: l) f = (a :: (restart (i + 1) l f).1, (restart (i + 1) l f).2.1, (restart (i + 1) l f).2.2) := by
        rw [restart.eq_def]; simp [ha]
      rw [hr] at hs
      simp only [List.mem_cons] at hs
      rcases hs with rfl | hs
      · exact ha
      · exact ih (i + 1) f hf (by simpa [List.filter_cons, ha] using hl) s hs
    | true =>
      match f, hf, hl with
      | [], hf, hl => simp [ha] at hl
      | none :: f, hf, hl => exact absurd rfl (hf none (by simp))
      | some p :: f, hf, hl =>
        have hr : restart i (a :: l) (some p :: f) =
            (⟨p, false⟩ :: (restart (i + 1) l f).1, (i, p) :: (restart (i + 1) l f).2.1, (restart (i + 1) l f).2.2) := by
          rw [restart.eq_def]; simp [ha]
        rw [hr] at hs
        simp only [List.mem_cons] at hs
        rcases hs with rfl | hs
        · rfl
        · exact ih (i + 1) f (fun x hx => hf x (List.mem_cons_of_mem _ hx)) (by simpa [List.filter_cons, ha] using hl) s hs

theorem handlers_reap {w : W} (l : List Sig) (h : Sig.chld ∈ l) : (l.foldl handler w).reap = true := by
  have keep : ∀ (l : List Sig) (w : W), w.reap = true → (l.foldl handler w).reap = true := by
    intro l
    induction l with
    | nil => intro w h; exact h
    | cons s l ih => intro w h; exact ih _ (by cases s <;> simp [handler, waitpid, h])
  induction l generalizing w with
  | nil => simp at h
  | cons s l ih =>
    rcases List.mem_cons.mp h with h | h
    · subst h; exact keep l _ rfl
    · exact ih h

/-- C41 (partial): in every state reached, if the master is told of an exit (SIGCHLD) while not stopping and every `fork` of that round succeeds,
then afterwards every slot is occupied by a child, workers that had not exited keep their slots, every exited worker is replaced in its own
slot, and there are exactly as many children as slots. Missing: rounds in which `fork` fails (`c41_fork_failed_counterexample`). -/
theorem c41_replaced_partial (w : W) (h : Inv w) (k : Wake) (hf : Fresh (before w k) k.forks) (hq : (before w k).quit = false)
    (hc : Sig.chld ∈ k.sigs) (hs : ∀ x ∈ k.forks, x ≠ none)
    (hl : ((before w k).slots.filter fun s => s.exited).length ≤ k.forks.length) :
    (∀ s ∈ (step w k).1.slots, s.exited = false) ∧
    (∀ (j : Nat) (s : Slot), (before w k).slots[j]? = some s → s.exited = false → (step w k).1.slots[j]? = some s) ∧
    (∀ (j : Nat) (s : Slot), (before w k).slots[j]? = some s → s.exited = true →
      ∃ p, (j, p) ∈ (step w k).2.forked ∧ (step w k).1.slots[j]? = some ⟨p, false⟩ ∧ p ∈ (step w k).1.live) ∧
    (step w k).1.live.length + (step w k).1.dead.length = w.slots.length := by
  have hr : (before w k).reap = true := handlers_reap _ hc
  have hp : pass (before w k) k.forks = ({ before w k with
      slots := (restart 0 (before w k).slots k.forks).1
      live := ((restart 0 (before w k).slots k.forks).2.1.map (·.2)) ++ (before w k).live
      reap := false, reload := false },
      ⟨[] ++ (if (before w k).reload then bcast { before w k with
        slots := (restart 0 (before w k).slots k.forks).1
        live := ((restart 0 (before w k).slots k.forks).2.1.map (·.2)) ++ (before w k).live
        reap := false } (restart 0 (before w k).slots k.forks).1 else []), (restart 0 (before w k).slots k.forks).2.1, false⟩) := by
    unfold pass; simp [hq, hr]
  have hslots : (step w k).1.slots = (restart 0 (before w k).slots k.forks).1 := by
    unfold step; simp only [hp]; split <;> rfl
  have hlive : (step w k).1.live = ((restart 0 (before w k).slots k.forks).2.1.map (·.2)) ++ (before w k).live := by
    unfold step; simp only [hp]; split <;> rfl
  have hforked : (step w k).2.forked = (restart 0 (before w k).slots k.forks).2.1 := by
    unfold step; simp only [hp]
  have hall := restart_all (before w k).slots 0 k.forks hs hl
  obtain ⟨r1, r2, r3⟩ := restart_slots (before w k).slots 0 k.forks
  refine ⟨by rw [hslots]; exact hall, by rw [hslots]; exact r1, ?_, ?_⟩
  · intro j s hj he
    rw [hslots, hlive, hforked]
    rcases r3 j s hj he with ⟨p, hp⟩ | hx
    · rw [Nat.zero_add] at hp
      exact ⟨p, hp, (r2 j p hp).2.1, List.mem_append_left _ (List.mem_map.mpr ⟨_, hp, rfl⟩)⟩
    · have := hall s (List.mem_of_getElem? hx)
      rw [he] at this; simp at this
  · have hi := step_inv h k hf
    have := hi.perm.length_eq
    rw [List.length_append] at this
    rw [this, ← step_length w k]
    simp only [occ, List.length_map]
    congr 1
    rw [List.filter_eq_self]
    intro s hs'
    rw [hslots] at hs'
    simp [hall s hs']

/-- Case for `c41_replaced_partial`. -/
example : (step (init [10, 11, 12]) ⟨[12, 10], [.other, .chld], [some 20, some 21], false⟩) =
    ({ slots := [⟨20, false⟩, ⟨11, false⟩, ⟨21, false⟩], live := [20, 21, 11], dead := [] }, ⟨[], [(0, 20), (2, 21)], false⟩) := by decide

/-- C41: once the master is stopping, no worker is started in any later round. -/
theorem c41_no_start (w : W) (hq : w.quit = true) (ks : List Wake) : ∀ o ∈ (run w ks).2, o.forked = [] := by
  induction ks generalizing w with
  | nil => intro o ho; simp [run] at ho
  | cons k ks ih =>
    have hb := before_quit hq k
    have hf : (step w k).2.forked = [] := by
      unfold step pass; simp only [hb]; split <;> simp
    have hq' : (step w k).1.quit = true := by
      unfold step pass
      simp only [hb]
      split <;> split <;> simp [hb]
    intro o ho
    unfold run at ho
    simp only at ho
    split at ho
    · simp only [List.mem_singleton] at ho; subst ho; exact hf
    · simp only [List.mem_cons] at ho
      rcases ho with rfl | ho
      · exact hf
      · exact ih _ hq' o ho

/-- C41: the master leaves its loop in a round exactly if it is stopping and no child is left. -/
theorem c41_stop_iff (w : W) (h : Inv w) (k : Wake) :
    (step w k).2.stop = true ↔ (before w k).quit = true ∧ (before w k).live = [] ∧ (before w k).dead = [] := by
  have hb := before_inv h k
  have e : (before w k).slots.all (·.exited) = true ↔ (before w k).live = [] ∧ (before w k).dead = [] := by
    have hp := hb.perm
    constructor
    · intro ha
      have : occ (before w k).slots = [] := by
        unfold occ
        rw [List.map_eq_nil_iff, List.filter_eq_nil_iff]
        intro s hs
        have := List.all_eq_true.mp ha s hs
        simp [this]
      rw [this] at hp
      have := hp.eq_nil
      exact List.append_eq_nil_iff.mp this
    · rintro ⟨h1, h2⟩
      rw [h1, h2] at hp
      have hn : occ (before w k).slots = [] := hp.symm.eq_nil
      rw [List.all_eq_true]
      intro s hs
      cases hx : s.exited with
      | true => rfl
      | false =>
        have : s.pid ∈ occ (before w k).slots := mem_occ.mpr ⟨s, hs, hx, rfl⟩
        rw [hn] at this; simp at this
  rw [← e]
  unfold step pass
  simp only
  split
  · rename_i hc; simp [hc]
  · rename_i hc; simp only [Bool.false_eq_true, false_iff]; exact hc

/-- Case for `c41_stop_iff`, `c41_no_start`: a complete shutdown of two workers. -/
example : (run (init [10, 11]) [⟨[], [.int], [], false⟩, ⟨[10], [.chld], [], false⟩, ⟨[11], [.chld], [some 30], false⟩]).2 =
    [⟨[10, 11], [], false⟩, ⟨[], [], false⟩, ⟨[], [], true⟩] := by decide

/-- C41: a stopping master sends the signal to every worker, if no worker has exited yet. -/
theorem c41_signalled_partial (w : W) (h : Inv w) (ho : ∀ s ∈ w.slots, s.exited = false) : bcast w w.slots = w.slots.map (·.pid) := by
  have key : ∀ l : List Slot, (∀ s ∈ l, s.pid ∈ w.live ∨ s.pid ∈ w.dead) → bcast w l = l.map (·.pid) := by
    intro l
    induction l with
    | nil => intro _; rfl
    | cons s l ih =>
      intro hl
      simp only [bcast, if_pos (hl s (List.mem_cons_self ..)), List.map_cons]
      rw [ih (fun x hx => hl x (List.mem_cons_of_mem _ hx))]
  refine key _ (fun s hs => ?_)
  have : s.pid ∈ occ w.slots := mem_occ.mpr ⟨s, hs, ho s hs, rfl⟩
  exact List.mem_append.mp (h.perm.mem_iff.mpr this)

/-- Case for `c41_signalled_partial`: see the first round of the example above. -/
example : bcast (init [10, 11]) (init [10, 11]).slots = [10, 11] := by decide

theorem bcast_dead {w : W} {s : Slot} {l : List Slot} (h1 : s.pid ∉ w.live) (h2 : s.pid ∉ w.dead) : bcast w (s :: l) = [] := by
  simp [bcast, h1, h2]

/-- C41 is false of the code: a worker that exits together with the stop request blocks the shutdown. For every set of workers: if the
first one has exited and been waited for when the master is told to stop, no worker is ever sent a signal, in any later round; the others keep
running until they end for other reasons. -/
theorem c41_shutdown_stuck_counterexample (p : Nat) (ps : List Nat) (hn : (p :: ps).Nodup) (ks : List Wake) :
    ∀ o ∈ (run (init (p :: ps)) (⟨[p], [.chld, .int], [], false⟩ :: ks)).2, o.killed = [] := by
  -- quitting, and the first slot's process is gone
  have key : ∀ (ks : List Wake) (w : W) (t : List Slot), w.quit = true → w.slots = ⟨p, true⟩ :: t → p ∉ w.live → p ∉ w.dead →
      ∀ o ∈ (run w ks).2, o.killed = [] := by
    intro ks
    induction ks with
    | nil => intro w t _ _ _ _ o ho; simp [run] at ho
    | cons k ks ih =>
      intro w t hq hs hl hd o ho
      have hex : ∀ (l : List Nat) (w : W), p ∉ w.live → p ∉ w.dead → p ∉ (l.foldl exit1 w).live ∧ p ∉ (l.foldl exit1 w).dead := by
        intro l
        induction l with
        | nil => intro w a b; exact ⟨a, b⟩
        | cons q l ihl =>
          intro w a b
          refine ihl _ ?_ ?_
          · unfold exit1; split
            · exact fun hm => a (List.mem_of_mem_erase hm)
            · exact a
          · unfold exit1; split
            · rename_i hq
              simp only [List.mem_cons, not_or]
              exact ⟨fun e => a (e ▸ hq), b⟩
            · exact b
      have hha : ∀ (l : List Sig) (w : W) (t : List Slot), w.slots = ⟨p, true⟩ :: t → p ∉ w.live → p ∉ w.dead →
          (∃ t', (l.foldl handler w).slots = ⟨p, true⟩ :: t') ∧ p ∉ (l.foldl handler w).live ∧ p ∉ (l.foldl handler w).dead := by
        intro l
        induction l with
        | nil => intro w t a b c; exact ⟨⟨t, a⟩, b, c⟩
        | cons s l ihl =>
          intro w t a b c
          rw [List.foldl_cons]
          cases s with
          | int => exact ihl { w with quit := true } t a b c
          | hup => exact ihl { w with reload := true } t a b c
          | other => exact ihl w t a b c
          | chld =>
            have hm : ∀ (d : List Nat) (t : List Slot), ∃ t', d.foldl (fun s p => mark p s) (⟨p, true⟩ :: t) = ⟨p, true⟩ :: t' := by
              intro d
              induction d with
              | nil => intro t; exact ⟨t, rfl⟩
              | cons q d ihd =>
                intro t
                rw [List.foldl_cons]
                simp only [mark]
                split
                · exact ihd t
                · exact ihd _
            obtain ⟨t', ht'⟩ := hm w.dead t
            refine ihl (waitpid { w with reap := true }) t' ?_ b (by simp [waitpid])
            show w.dead.foldl (fun s p => mark p s) w.slots = _
            rw [a]; exact ht'
      obtain ⟨e1, e2⟩ := hex k.exits w hl hd
      obtain ⟨⟨t', b1⟩, b2, b3⟩ := hha k.sigs (k.exits.foldl exit1 w) t (by rw [exits_slots]; exact hs) e1 e2
      change (before w k).slots = _ at b1
      change p ∉ (before w k).live at b2
      change p ∉ (before w k).dead at b3
      have bq := before_quit hq k
      have hk1 : bcast (before w k) (before w k).slots = [] := by rw [b1]; exact bcast_dead b2 b3
      have hk : (step w k).2.killed = [] := by
        unfold step pass
        simp only [bq, hk1]
        split
        · rfl
        · have e : ∀ w' : W, w'.live = (before w k).live → w'.dead = (before w k).dead → bcast w' (⟨p, true⟩ :: t') = [] :=
            fun w' h1 h2 => bcast_dead (by rw [h1]; exact b2) (by rw [h2]; exact b3)
          simp only [not_true_eq_false, and_false, if_false]
          rw [b1, if_pos trivial, List.nil_append]
          split <;> first | rfl | exact e _ rfl rfl
      have hst : (step w k).1.quit = true ∧ (step w k).1.slots = ⟨p, true⟩ :: t' ∧ p ∉ (step w k).1.live ∧ p ∉ (step w k).1.dead := by
        unfold step pass
        simp only [bq]
        split <;> split <;> simp_all
      unfold run at ho
      simp only at ho
      split at ho
      · simp only [List.mem_singleton] at ho; subst ho; exact hk
      · simp only [List.mem_cons] at ho
        rcases ho with rfl | ho
        · exact hk
        · exact ih _ t' hst.1 hst.2.1 hst.2.2.1 hst.2.2.2 o ho
  rw [List.nodup_cons] at hn
  have hb : before (init (p :: ps)) ⟨[p], [.chld, .int], [], false⟩ =
      { slots := ⟨p, true⟩ :: ps.map fun p => ⟨p, false⟩, live := ps, dead := [], quit := true, reap := true } := by
    simp [before, init, exit1, handler, waitpid, mark]
  have hs : step (init (p :: ps)) ⟨[p], [.chld, .int], [], false⟩ =
      ((step (init (p :: ps)) ⟨[p], [.chld, .int], [], false⟩).1, (step (init (p :: ps)) ⟨[p], [.chld, .int], [], false⟩).2) := rfl
  have hkill : (step (init (p :: ps)) ⟨[p], [.chld, .int], [], false⟩).2.killed = [] ∧
      (step (init (p :: ps)) ⟨[p], [.chld, .int], [], false⟩).1.quit = true ∧
      (step (init (p :: ps)) ⟨[p], [.chld, .int], [], false⟩).1.slots = ⟨p, true⟩ :: (ps.map fun p => ⟨p, false⟩) ∧
      (step (init (p :: ps)) ⟨[p], [.chld, .int], [], false⟩).1.live = ps ∧
      (step (init (p :: ps)) ⟨[p], [.chld, .int], [], false⟩).1.dead = [] := by
    unfold step
    rw [hb]
    unfold pass
    simp only
    rw [bcast_dead (by exact hn.1) (by simp)]
    split <;> simp
  intro o ho
  unfold run at ho
  simp only at ho
  split at ho
  · simp only [List.mem_singleton] at ho; subst ho; exact hkill.1
  · simp only [List.mem_cons] at ho
    rcases ho with rfl | ho
    · exact hkill.1
    · refine key ks _ _ hkill.2.1 hkill.2.2.1 ?_ ?_ o ho
      · rw [hkill.2.2.2.1]; exact hn.1
      · rw [hkill.2.2.2.2]; simp

/-- Case: worker 10 exits as the stop request comes; worker 11 is never told, not in later rounds either. -/
example : (run (init [10, 11]) [⟨[10], [.chld, .int], [], false⟩, ⟨[], [.int], [], false⟩, ⟨[], [.other], [], false⟩]).2.map (·.killed) = [[], [], []] := by
  decide

/-- C41 is false of the code: after a failed `fork` the slot stays empty; it is not tried again until another worker exits or the master stops,
whatever other signals arrive. -/
theorem c41_fork_failed_counterexample (p : Nat) (ps : List Nat) (ks : List Wake)
    (hk : ∀ k ∈ ks, k.exits = [] ∧ Sig.chld ∉ k.sigs ∧ Sig.int ∉ k.sigs) :
    (run (init (p :: ps)) (⟨[p], [.chld], [none], false⟩ :: ks)).1.slots = ⟨p, true⟩ :: ps.map fun p => ⟨p, false⟩ := by
  have hr : ∀ (l : List Nat) (i : Nat) (f : List (Option Nat)),
      restart i (l.map fun p => (⟨p, false⟩ : Slot)) f = (l.map fun p => ⟨p, false⟩, [], f) := by
    intro l
    induction l with
    | nil => intro i f; rfl
    | cons a l ih =>
      intro i f
      rw [List.map_cons, restart.eq_def]
      simp [ih]
  have key : ∀ (ks : List Wake) (w : W), (∀ k ∈ ks, k.exits = [] ∧ Sig.chld ∉ k.sigs ∧ Sig.int ∉ k.sigs) → w.quit = false →
      w.reap = false → (run w ks).1.slots = w.slots := by
    intro ks
    induction ks with
    | nil => intro w _ _ _; rfl
    | cons k ks ih =>
      intro w hk hq hr
      obtain ⟨k1, k2, k3⟩ := hk k (List.mem_cons_self ..)
      have hb : ∀ (l : List Sig) (w : W), Sig.chld ∉ l → Sig.int ∉ l →
          (l.foldl handler w).slots = w.slots ∧ (l.foldl handler w).quit = w.quit ∧ (l.foldl handler w).reap = w.reap := by
        intro l
        induction l with
        | nil => intro w _ _; exact ⟨rfl, rfl, rfl⟩
        | cons s l ihl =>
          intro w h1 h2
          simp only [List.mem_cons, not_or] at h1 h2
          cases s with
          | int => simp at h2
          | chld => simp at h1
          | hup => exact ihl _ h1.2 h2.2
          | other => exact ihl _ h1.2 h2.2
      obtain ⟨b1, b2, b3⟩ := hb k.sigs (k.exits.foldl exit1 w) k2 k3
      rw [k1] at b1 b2 b3
      have bw : before w k = k.sigs.foldl handler w := by unfold before; rw [k1]; rfl
      simp only [List.foldl_nil] at b1 b2 b3
      rw [← bw] at b1 b2 b3
      have hst : (step w k).1.slots = w.slots ∧ (step w k).1.quit = false ∧ (step w k).1.reap = false ∧ (step w k).2.stop = false := by
        unfold step pass
        simp only [b2, b3, hq, hr, Bool.false_eq_true, false_and, if_false]
        split <;> simp [b1]
      unfold run
      simp only [hst.2.2.2, Bool.false_eq_true, if_false]
      rw [ih _ (fun k hk' => hk k (List.mem_cons_of_mem _ hk')) hst.2.1 hst.2.2.1, hst.1]
  have hb : before (init (p :: ps)) ⟨[p], [.chld], [none], false⟩ =
      { slots := ⟨p, true⟩ :: ps.map fun p => ⟨p, false⟩, live := ps, dead := [], reap := true } := by
    simp [before, init, exit1, handler, waitpid, mark]
  have hst : (step (init (p :: ps)) ⟨[p], [.chld], [none], false⟩).1 =
      { slots := ⟨p, true⟩ :: ps.map fun p => ⟨p, false⟩, live := ps, dead := [] } ∧
      (step (init (p :: ps)) ⟨[p], [.chld], [none], false⟩).2.stop = false := by
    unfold step
    rw [hb]
    unfold pass
    simp only [Bool.false_eq_true, false_and, if_false, not_false_eq_true, and_self, if_true]
    rw [restart.eq_def]
    simp [hr]
  unfold run
  simp only [hst.2, Bool.false_eq_true, if_false]
  rw [key ks _ hk (by rw [hst.1]) (by rw [hst.1]), hst.1]

/-- Case: the slot of worker 10 stays empty through a reload. -/
example : (run (init [10, 11]) [⟨[10], [.chld], [none], false⟩, ⟨[], [.hup], [], false⟩, ⟨[], [.other], [], false⟩]).1.slots =
    [⟨10, true⟩, ⟨11, false⟩] := by decide

/-! ### C59 -/

/-- C59 (partial): a reload request delivered while the master waits, with all workers running, sends the signal to every worker once.
Missing: exited workers and requests at other times (counterexamples below). -/
theorem c59_reload_partial (w : W) (h : Inv w) (ho : ∀ s ∈ w.slots, s.exited = false) (hq : w.quit = false) (n m : Nat) :
    (step w ⟨[], List.replicate n .other ++ [.hup] ++ List.replicate m .other, [], false⟩).2.killed = w.slots.map (·.pid) := by
  have hoth : ∀ (n : Nat) (w : W), (List.replicate n Sig.other).foldl handler w = w := by
    intro n
    induction n with
    | zero => intro w; rfl
    | succ n ih => intro w; rw [List.replicate_succ, List.foldl_cons]; exact ih w
  have hb : before w ⟨[], List.replicate n .other ++ [.hup] ++ List.replicate m .other, [], false⟩ = { w with reload := true } := by
    unfold before
    simp only [List.foldl_append, List.foldl_nil, List.foldl_cons, hoth, handler]
  have hr : ∀ (l : List Slot), (∀ s ∈ l, s.exited = false) → ∀ i, restart i l [] = (l, [], []) := by
    intro l
    induction l with
    | nil => intro _ i; rfl
    | cons a l ih =>
      intro hl i
      rw [restart.eq_def]
      simp [hl a (by simp), ih (fun s hs => hl s (List.mem_cons_of_mem _ hs))]
  have key := c41_signalled_partial w h ho
  have hbc : ∀ (w' : W) (l : List Slot), w'.live = w.live → w'.dead = w.dead → bcast w' l = bcast w l := by
    intro w' l h1 h2
    induction l with
    | nil => rfl
    | cons s l ih => simp only [bcast, h1, h2, ih]
  unfold step
  rw [hb]
  unfold pass
  simp only [hq, Bool.false_eq_true, false_and, if_false, if_true, List.nil_append, not_false_eq_true, and_true]
  by_cases hre : w.reap = true
  · simp only [hre, if_true]
    rw [hr _ ho 0]
    refine Eq.trans (hbc _ _ ?_ ?_) key
    · rfl
    · rfl
  · simp only [hre, Bool.false_eq_true, if_false]
    refine Eq.trans (hbc _ _ ?_ ?_) key
    · rfl
    · rfl

/-- Case for `c59_reload_partial`. -/
example : (step (init [10, 11]) ⟨[], [.hup], [], false⟩).2 = ⟨[10, 11], [], false⟩ := by decide

/-- C59 is false of the code: SIGHUP is not blocked, so a request can arrive after the master looked at the flag; nobody is signalled in that
round, and the flag is only seen when some other signal wakes the master. -/
theorem c59_late_counterexample (w : W) (hq : w.quit = false) (hr : w.reload = false) (hp : w.reap = false) :
    (step w ⟨[], [.other], [], true⟩).2.killed = [] ∧ (step w ⟨[], [.other], [], true⟩).1.reload = true := by
  simp [step, before, handler, pass, hq, hr, hp]

/-- Case: two workers. -/
example : (step (init [10, 11]) ⟨[], [.other], [], true⟩).2.killed = [] ∧ (step (init [10, 11]) ⟨[], [.other], [], true⟩).1.reload = true :=
  c59_late_counterexample (init [10, 11]) rfl rfl rfl

/-- C59 is false of the code: if the first worker's slot is empty (its `fork` failed), a reload request reaches no worker at all. -/
theorem c59_dead_worker_counterexample (p : Nat) (ps : List Nat) (hn : (p :: ps).Nodup) :
    ((run (init (p :: ps)) [⟨[p], [.chld], [none], false⟩, ⟨[], [.hup], [], false⟩]).2.map (·.killed)) = [[], []] := by
  rw [List.nodup_cons] at hn
  have hr : ∀ (l : List Nat) (i : Nat) (f : List (Option Nat)),
      restart i (l.map fun p => (⟨p, false⟩ : Slot)) f = (l.map fun p => ⟨p, false⟩, [], f) := by
    intro l
    induction l with
    | nil => intro i f; rfl
    | cons a l ih =>
      intro i f
      rw [List.map_cons, restart.eq_def]
      simp [ih]
  have hb : before (init (p :: ps)) ⟨[p], [.chld], [none], false⟩ =
      { slots := ⟨p, true⟩ :: ps.map fun p => ⟨p, false⟩, live := ps, dead := [], reap := true } := by
    simp [before, init, exit1, handler, waitpid, mark]
  have hst : step (init (p :: ps)) ⟨[p], [.chld], [none], false⟩ =
      ({ slots := ⟨p, true⟩ :: ps.map fun p => ⟨p, false⟩, live := ps, dead := [] }, ⟨[], [], false⟩) := by
    unfold step
    rw [hb]
    unfold pass
    simp only [Bool.false_eq_true, false_and, if_false, not_false_eq_true, and_self, if_true]
    rw [restart.eq_def]
    simp [hr]
  have hst2 : (step { slots := ⟨p, true⟩ :: ps.map fun p => ⟨p, false⟩, live := ps, dead := [] } ⟨[], [.hup], [], false⟩).2 = ⟨[], [], false⟩ := by
    unfold step before pass
    simp only [List.foldl_cons, List.foldl_nil, handler, Bool.false_eq_true, false_and, if_false, if_true, List.nil_append]
    rw [bcast_dead (by simpa using hn.1) (by simp)]
  simp [run, hst, hst2]

/-- Case: three workers, of which the first is gone. -/
example : ((run (init [10, 11, 12]) [⟨[10], [.chld], [none], false⟩, ⟨[], [.hup], [], false⟩]).2.map (·.killed)) = [[], []] :=
  c59_dead_worker_counterexample 10 [11, 12] (by decide)

end Verif.Process
