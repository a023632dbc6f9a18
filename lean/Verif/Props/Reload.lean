import Verif.Model.Reload
import Verif.Props.Process
/-
Property C92: a reload puts the files as they are now in force.
-/
namespace Verif.Reload
open Verif

/-- A round in which the master is told of exits, is not told to stop, and can start as many processes as there are slots. -/
structure Works (s : Sys) (r : Round) : Prop where
  chld : Process.Sig.chld ∈ r.wake.sigs
  noInt : Process.Sig.int ∉ r.wake.sigs
  forks : ∀ x ∈ r.wake.forks, x ≠ none
  enough : s.proc.slots.length ≤ r.wake.forks.length
  fresh : Process.Fresh (Process.before s.proc r.wake) r.wake.forks

/-- All rounds are such. -/
def AllWork (s : Sys) : List Round → Prop
  | [] => True
  | r :: rs => Works s r ∧ AllWork (step s r) rs

theorem handlers_noquit (l : List Process.Sig) (w : Process.W) (h : Process.Sig.int ∉ l) (hq : w.quit = false) :
    (l.foldl Process.handler w).quit = false := by
  induction l generalizing w with
  | nil => exact hq
  | cons s l ih =>
    simp only [List.mem_cons, not_or] at h
    refine ih _ h.2 ?_
    cases s with
    | int => simp at h
    | chld => exact hq
    | hup => exact hq
    | other => exact hq

theorem exits_live (l : List Nat) (w : Process.W) (h : Process.Inv w) (p : Nat) (hp : p ∈ l) : p ∉ (l.foldl Process.exit1 w).live := by
  have keep : ∀ (l : List Nat) (w : Process.W), p ∉ w.live → p ∉ (l.foldl Process.exit1 w).live := by
    intro l
    induction l with
    | nil => intro w h; exact h
    | cons q l ih =>
      intro w h
      refine ih _ ?_
      unfold Process.exit1
      split
      · exact fun hm => h (List.mem_of_mem_erase hm)
      · exact h
  induction l generalizing w with
  | nil => simp at hp
  | cons q l ih =>
    rw [List.foldl_cons]
    rcases List.mem_cons.mp hp with rfl | hp
    · refine keep l _ ?_
      unfold Process.exit1
      split
      · have hnd : (w.live ++ w.dead).Nodup := h.perm.nodup_iff.mpr ((Process.occ_sublist _).nodup h.nd)
        exact (List.nodup_append.mp hnd).1.not_mem_erase
      · assumption
    · exact ih _ (Process.exit1_inv h q) hp

theorem handlers_live (l : List Process.Sig) (w : Process.W) : (l.foldl Process.handler w).live = w.live := by
  induction l generalizing w with
  | nil => rfl
  | cons s l ih => rw [List.foldl_cons, ih]; cases s <;> rfl

theorem handlers_dead (l : List Process.Sig) (w : Process.W) (h : Process.Sig.chld ∈ l) : (l.foldl Process.handler w).dead = [] := by
  have keep : ∀ (l : List Process.Sig) (w : Process.W), w.dead = [] → (l.foldl Process.handler w).dead = [] := by
    intro l
    induction l with
    | nil => intro w h; exact h
    | cons s l ih => intro w h; exact ih _ (by cases s <;> first | exact h | rfl)
  induction l generalizing w with
  | nil => simp at h
  | cons s l ih =>
    rcases List.mem_cons.mp h with h | h
    · subst h; exact keep l _ rfl
    · exact ih _ h

theorem handlers_pids (l : List Process.Sig) (w : Process.W) :
    (l.foldl Process.handler w).slots.map (·.pid) = w.slots.map (·.pid) := by
  have hm : ∀ (d : List Nat) (l : List Process.Slot), (d.foldl (fun s p => Process.mark p s) l).map (·.pid) = l.map (·.pid) := by
    intro d
    induction d with
    | nil => intro l; rfl
    | cons p d ih => intro l; rw [List.foldl_cons, ih, Process.mark_pid]
  induction l generalizing w with
  | nil => rfl
  | cons s l ih =>
    rw [List.foldl_cons, ih]
    cases s with
    | int => rfl
    | hup => rfl
    | other => rfl
    | chld => exact hm _ _

/-- After a round that works every slot is occupied, and an occupied slot is either new or the same as before, of a process that has not exited. -/
theorem step_slots {s : Sys} (h : Process.Inv s.proc) (hq : s.proc.quit = false) {r : Round} (hw : Works s r) :
    Process.Inv (step s r).proc ∧ (step s r).proc.quit = false ∧
    (step s r).proc.slots.length = s.proc.slots.length ∧
    ∀ (j : Nat) (sl : Process.Slot), (step s r).proc.slots[j]? = some sl → sl.exited = false ∧
      ((step s r).loaded.find? (fun x => x.1 == sl.pid) = some (sl.pid, ⟨s.cfg, r.keyFile⟩) ∨
       (sl.pid ∉ r.wake.exits ∧ (∃ sl0, s.proc.slots[j]? = some sl0 ∧ sl0.pid = sl.pid) ∧
         (step s r).loaded.find? (fun x => x.1 == sl.pid) = s.loaded.find? fun x => x.1 == sl.pid)) := by
  have hbq : (Process.before s.proc r.wake).quit = false :=
    handlers_noquit _ _ hw.noInt (by rw [Process.exits_quit]; exact hq)
  have hbi := Process.before_inv h r.wake
  have hbl : (Process.before s.proc r.wake).slots.length = s.proc.slots.length := by
    unfold Process.before; rw [Process.handlers_length, Process.exits_slots]
  have hl : ((Process.before s.proc r.wake).slots.filter fun s => s.exited).length ≤ r.wake.forks.length :=
    Nat.le_trans (List.length_filter_le _ _) (by rw [hbl]; exact hw.enough)
  obtain ⟨c1, c2, c3, c4⟩ := Process.c41_replaced_partial s.proc h r.wake hw.fresh hbq hw.chld hw.forks hl
  have hinv := Process.step_inv h r.wake hw.fresh
  have hlen := Process.step_length s.proc r.wake
  have hquit : (Process.step s.proc r.wake).1.quit = false := by
    unfold Process.step Process.pass
    simp only [hbq, Bool.false_eq_true, false_and, if_false]
    split <;> rfl
  refine ⟨hinv, hquit, hlen, ?_⟩
  intro j sl hj
  have hj' : (Process.step s.proc r.wake).1.slots[j]? = some sl := hj
  have hex := c1 sl (List.mem_of_getElem? hj')
  refine ⟨hex, ?_⟩
  have hjl : j < (Process.before s.proc r.wake).slots.length := by
    have := (List.getElem?_eq_some_iff.mp hj').1
    rw [hbl, ← hlen]; exact this
  obtain ⟨b, hb⟩ : ∃ b, (Process.before s.proc r.wake).slots[j]? = some b := ⟨_, List.getElem?_eq_getElem hjl⟩
  -- pids of the started processes are not those of occupied slots
  have hfp : ∀ x ∈ (Process.step s.proc r.wake).2.forked, some x.2 ∈ r.wake.forks := by
    have key : ∀ (l : List Process.Slot) (i : Nat) (f : List (Option Nat)) (x : Nat × Nat), x ∈ (Process.restart i l f).2.1 → some x.2 ∈ f := by
      intro l
      induction l with
      | nil => intro i f x hx; simp [Process.restart] at hx
      | cons a l ih =>
        intro i f x hx
        rw [Process.restart.eq_def] at hx
        simp only at hx
        split at hx
        · split at hx
          · simp only [List.mem_cons] at hx
            rcases hx with rfl | hx
            · simp
            · exact List.mem_cons_of_mem _ (ih _ _ _ hx)
          · exact List.mem_cons_of_mem _ (ih _ _ _ hx)
          · exact ih _ _ _ hx
        · exact ih _ _ _ hx
    intro x hx
    unfold Process.step Process.pass at hx
    simp only [hbq, Bool.false_eq_true, false_and, if_false] at hx
    split at hx
    · exact key _ _ _ _ hx
    · simp at hx
  cases hbe : b.exited with
  | true =>
    left
    obtain ⟨p, hp, hs, _⟩ := c3 j b hb hbe
    rw [hs] at hj'
    obtain rfl := Option.some.inj hj'
    show ((((Process.step s.proc r.wake).2.forked.map fun x => (x.2, (⟨s.cfg, r.keyFile⟩ : Loaded))) ++ s.loaded).find? fun x => x.1 == p) = _
    rw [List.find?_append]
    have : ((Process.step s.proc r.wake).2.forked.map fun x => (x.2, (⟨s.cfg, r.keyFile⟩ : Loaded))).find? (fun x => x.1 == p) =
        some (p, ⟨s.cfg, r.keyFile⟩) := by
      revert hp
      generalize (Process.step s.proc r.wake).2.forked = l
      intro hp
      induction l with
      | nil => simp at hp
      | cons a l ih =>
        simp only [List.map_cons, List.find?_cons]
        by_cases ha : a.2 = p
        · simp [ha]
        · have : (a.2 == p) = false := by simp [ha]
          rw [this]
          rcases List.mem_cons.mp hp with h | h
          · subst h; simp at ha
          · exact ih h
    rw [this]; rfl
  | false =>
    right
    have := c2 j b hb hbe
    rw [this] at hj'
    obtain rfl := Option.some.inj hj'
    have hocc : b.pid ∈ Process.occ (Process.before s.proc r.wake).slots :=
      Process.mem_occ.mpr ⟨b, List.mem_of_getElem? hb, hbe, rfl⟩
    have hmem := hbi.perm.mem_iff.mpr hocc
    have hdead : (Process.before s.proc r.wake).dead = [] := handlers_dead _ _ hw.chld
    rw [hdead, List.append_nil] at hmem
    have hlive : b.pid ∈ (r.wake.exits.foldl Process.exit1 s.proc).live := by
      unfold Process.before at hmem
      rwa [handlers_live] at hmem
    refine ⟨fun he => exits_live _ _ h _ he hlive, ?_, ?_⟩
    · have hp : (Process.before s.proc r.wake).slots.map (·.pid) = s.proc.slots.map (·.pid) := by
        unfold Process.before
        rw [handlers_pids, Process.exits_slots]
      have := congrArg (fun l => l[j]?) hp
      simp only [List.getElem?_map, hb, Option.map_some] at this
      cases h0 : s.proc.slots[j]? with
      | none => rw [h0] at this; simp at this
      | some s0 =>
        rw [h0] at this
        simp only [Option.map_some, Option.some.injEq] at this
        exact ⟨s0, rfl, this.symm⟩
    · show ((((Process.step s.proc r.wake).2.forked.map fun x => (x.2, (⟨s.cfg, r.keyFile⟩ : Loaded))) ++ s.loaded).find? fun x => x.1 == b.pid) = _
      rw [List.find?_append]
      have : ((Process.step s.proc r.wake).2.forked.map fun x => (x.2, (⟨s.cfg, r.keyFile⟩ : Loaded))).find? (fun x => x.1 == b.pid) = none := by
        rw [List.find?_eq_none]
        intro x hx
        simp only [List.mem_map] at hx
        obtain ⟨y, hy, rfl⟩ := hx
        have h1 := hw.fresh.slot y.2 (hfp y hy)
        intro he
        simp only [beq_iff_eq] at he
        exact h1 (he ▸ List.mem_map.mpr ⟨b, List.mem_of_getElem? hb, rfl⟩)
      rw [this]; rfl

/-- The configuration in the master's memory does not change. -/
theorem run_cfg (rs : List Round) (s : Sys) : (run s rs).cfg = s.cfg := by
  unfold run
  induction rs generalizing s with
  | nil => rfl
  | cons r rs ih => rw [List.foldl_cons, ih]; rfl

/-- Every worker works with the master's configuration. -/
theorem run_loaded (rs : List Round) (s : Sys) (h : ∀ x ∈ s.loaded, x.2.cfg = s.cfg) : ∀ x ∈ (run s rs).loaded, x.2.cfg = s.cfg := by
  unfold run
  induction rs generalizing s with
  | nil => exact h
  | cons r rs ih =>
    rw [List.foldl_cons]
    refine ih (step s r) ?_
    intro x hx
    unfold step at hx
    simp only [List.mem_append, List.mem_map] at hx
    rcases hx with ⟨y, _, rfl⟩ | hx
    · rfl
    · exact h x hx

/-- C92 (partial): the key file. A reload request reaches the master while it waits and all workers run; afterwards the workers it signalled exit,
in any order and in any rounds, the master is told and its `fork`s succeed. If the key file holds `keys` from the request on, then in the end
there is a worker in every slot, and it works with `keys`. Missing: the configuration file (`c92_config_counterexample`). -/
theorem c92_keys_partial (s : Sys) (h : Process.Inv s.proc) (hq : s.proc.quit = false) (ho : ∀ sl ∈ s.proc.slots, sl.exited = false)
    (cfgFile keys : List UInt8) (rs : List Round)
    (hk : ∀ r ∈ rs, r.keyFile = keys)
    (hw : AllWork (step s ⟨⟨[], [.hup], [], false⟩, cfgFile, keys⟩) rs)
    (he : ∀ p ∈ (Process.step s.proc ⟨[], [.hup], [], false⟩).2.killed, ∃ r ∈ rs, p ∈ r.wake.exits)
    (j : Nat) (hj : j < s.proc.slots.length) :
    ∃ l, inForce (run s (⟨⟨[], [.hup], [], false⟩, cfgFile, keys⟩ :: rs)) j = some l ∧ l.keys = keys := by
  have hkill := Process.c59_reload_partial s.proc h ho hq 0 0
  simp only [List.replicate_zero, List.nil_append, List.append_nil] at hkill
  have hr : ∀ (l : List Process.Slot), (∀ s ∈ l, s.exited = false) → ∀ i, Process.restart i l [] = (l, [], []) := by
    intro l
    induction l with
    | nil => intro _ i; rfl
    | cons a l ih =>
      intro hl i
      rw [Process.restart.eq_def]
      simp [hl a (by simp), ih (fun s hs => hl s (List.mem_cons_of_mem _ hs))]
  have hs1 : (Process.step s.proc ⟨[], [.hup], [], false⟩).1.slots = s.proc.slots ∧
      (Process.step s.proc ⟨[], [.hup], [], false⟩).1.quit = false := by
    unfold Process.step Process.before Process.pass
    simp only [List.foldl_nil, List.foldl_cons, Process.handler, hq, Bool.false_eq_true, false_and, if_false]
    refine ⟨?_, trivial⟩
    split <;> simp [hr _ ho]
  have hi1 : Process.Inv (Process.step s.proc ⟨[], [.hup], [], false⟩).1 := Process.step_inv h _ ⟨by simp, by simp, by simp⟩
  -- slots hold new workers, or old ones that have yet to exit
  have key : ∀ (rs : List Round) (s' : Sys), Process.Inv s'.proc → s'.proc.quit = false → AllWork s' rs → (∀ r ∈ rs, r.keyFile = keys) →
      (∀ sl ∈ s'.proc.slots, sl.exited = false ∧ ((∃ l, s'.loaded.find? (fun x => x.1 == sl.pid) = some (sl.pid, l) ∧ l.keys = keys) ∨
        ∃ r ∈ rs, sl.pid ∈ r.wake.exits)) →
      (run s' rs).proc.slots.length = s'.proc.slots.length ∧
      ∀ sl ∈ (run s' rs).proc.slots, sl.exited = false ∧
        ∃ l, (run s' rs).loaded.find? (fun x => x.1 == sl.pid) = some (sl.pid, l) ∧ l.keys = keys := by
    intro rs
    induction rs with
    | nil =>
      intro s' _ _ _ _ hsl
      refine ⟨rfl, fun sl hm => ?_⟩
      obtain ⟨a, b⟩ := hsl sl hm
      rcases b with b | ⟨r, hr, _⟩
      · exact ⟨a, b⟩
      · simp at hr
    | cons r rs ih =>
      intro s' hi hq' hw' hk' hsl
      obtain ⟨g1, g2, g3, g4⟩ := step_slots hi hq' hw'.1
      have := ih (step s' r) g1 g2 hw'.2 (fun r' hr' => hk' r' (List.mem_cons_of_mem _ hr')) ?_
      · refine ⟨this.1.trans g3, this.2⟩
      · intro sl hm
        obtain ⟨i, hilt, hi'⟩ := List.mem_iff_getElem.mp hm
        obtain ⟨a, b⟩ := g4 i sl (by rw [List.getElem?_eq_getElem hilt, hi'])
        refine ⟨a, ?_⟩
        rcases b with b | ⟨b1, ⟨s0, b2, b3⟩, b4⟩
        · exact .inl ⟨_, b, hk' r (List.mem_cons_self ..)⟩
        · obtain ⟨_, c⟩ := hsl s0 (List.mem_of_getElem? b2)
          rcases c with ⟨l, c, d⟩ | ⟨r', hr', c⟩
          · left
            rw [b4, ← b3]
            exact ⟨l, c, d⟩
          · right
            rcases List.mem_cons.mp hr' with rfl | hr'
            · rw [b3] at c; exact absurd c b1
            · exact ⟨r', hr', b3 ▸ c⟩
  have hfin := key rs (step s ⟨⟨[], [.hup], [], false⟩, cfgFile, keys⟩) hi1 hs1.2 hw hk (by
    intro sl hm
    have hm' : sl ∈ s.proc.slots := by rw [← hs1.1]; exact hm
    exact ⟨ho sl hm', .inr (he sl.pid (by rw [hkill]; exact List.mem_map.mpr ⟨sl, hm', rfl⟩))⟩)
  have hlen : j < (run (step s ⟨⟨[], [.hup], [], false⟩, cfgFile, keys⟩) rs).proc.slots.length := by
    rw [hfin.1]
    show j < (Process.step s.proc ⟨[], [.hup], [], false⟩).1.slots.length
    rw [hs1.1]; exact hj
  obtain ⟨a, l, b, c⟩ := hfin.2 _ (List.getElem_mem hlen)
  refine ⟨l, ?_, c⟩
  show inForce (run (step s ⟨⟨[], [.hup], [], false⟩, cfgFile, keys⟩) rs) j = some l
  unfold inForce
  rw [List.getElem?_eq_getElem hlen]
  simp only [a, Bool.false_eq_true, if_false, b, Option.map_some]

/-- Case for `c92_keys_partial`: two workers, which exit in different rounds; a third process is started for a pid used before. -/
example :
    let s := init [10, 11] [1] [2]
    let rs : List Round := [⟨⟨[11], [.chld], [some 12, some 13], false⟩, [7], [8]⟩, ⟨⟨[10], [.other, .chld], [some 11, some 14], false⟩, [7], [8]⟩]
    (Process.step s.proc ⟨[], [.hup], [], false⟩).2.killed = [10, 11] ∧
    (∀ p ∈ (Process.step s.proc ⟨[], [.hup], [], false⟩).2.killed, ∃ r ∈ rs, p ∈ r.wake.exits) ∧
    AllWork (step s ⟨⟨[], [.hup], [], false⟩, [7], [8]⟩) rs ∧
    (List.range 2).map (inForce (run s (⟨⟨[], [.hup], [], false⟩, [7], [8]⟩ :: rs))) = [some ⟨[1], [8]⟩, some ⟨[1], [8]⟩] := by
  refine ⟨by decide, by decide, ⟨⟨by decide, by decide, by decide, by decide, ⟨by decide, ?_, ?_⟩⟩,
    ⟨by decide, by decide, by decide, by decide, ⟨by decide, ?_, ?_⟩⟩, trivial⟩, by decide⟩
  all_goals
    intro p hp
    simp only [List.mem_cons, Option.some.injEq, List.not_mem_nil, or_false] at hp
    rcases hp with rfl | rfl <;> decide

/-- C92 is false of the code: the configuration file is read once. Whatever happens after the start — reload requests, exits, restarts, and
whatever the file holds then — every worker works with the configuration the file held at the start. -/
theorem c92_config_counterexample (pids : List Nat) (cfgFile keyFile : List UInt8) (rs : List Round) (j : Nat) (l : Loaded)
    (h : inForce (run (init pids cfgFile keyFile) rs) j = some l) : l.cfg = cfgFile := by
  have h0 : ∀ x ∈ (init pids cfgFile keyFile).loaded, x.2.cfg = (init pids cfgFile keyFile).cfg := by
    intro x hx
    simp only [init, List.mem_map] at hx
    obtain ⟨p, _, rfl⟩ := hx
    rfl
  have hr := run_loaded rs _ h0
  unfold inForce at h
  split at h
  · split at h
    · simp at h
    · simp only [Option.map_eq_some_iff] at h
      obtain ⟨x, hx, rfl⟩ := h
      exact hr x (List.mem_of_find?_eq_some hx)
  · simp at h

/-- Case for `c92_config_counterexample`: the example above, where the configuration file has held `[7]` since before the request, all workers
have been replaced, and all work with `[1]`. -/
example : inForce (run (init [10, 11] [1] [2]) [⟨⟨[], [.hup], [], false⟩, [7], [8]⟩, ⟨⟨[10, 11], [.chld], [some 12, some 13], false⟩, [7], [8]⟩]) 0 =
    some ⟨[1], [8]⟩ := by decide

end Verif.Reload
