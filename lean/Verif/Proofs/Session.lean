/-
What the checks of the two sets of session states mean for all executions.
-/
import Verif.Proofs.SessionServer
import Verif.Proofs.SessionClient

namespace Verif.Session

/-- The closed set of each program. -/
def states (client : Bool) : Tree := if client then clientStates else serverStates

theorem states_start (client : Bool) : (states client).mem (start client) = true := by
  cases client
  · exact server_start
  · exact client_start

theorem states_closed (client : Bool) : (states client).all (okState (states client)) = true := by
  cases client
  · exact server_closed
  · exact client_closed

theorem reach_num {client : Bool} {w : W} (h : Reach client w) : ∃ n, (states client).has n = true ∧ wOf n = w :=
  (closed_sound (states_start client) (states_closed client) h).1

theorem reach_step {client : Bool} {w : W} (h : Reach client w) {e : Ev} (he : ¬ Unlucky w e) : ∃ w', step w e = .ok w' :=
  (closed_sound (states_start client) (states_closed client) h).2 e he

theorem reach_timer {client : Bool} {w : W} (h : Reach client w) (hw : Waiting w) (hl : SomethingLive w) : TimerArmed w := by
  obtain ⟨n, hn, rfl⟩ := reach_num h
  have hk : okTimer n = true := by
    cases client
    · exact Tree.has_all server_timer hn
    · exact Tree.has_all client_timer hn
  unfold okTimer at hk
  unfold Waiting at hw
  rw [hw] at hk
  simp only [Option.isSome_none, Bool.false_or, Bool.or_eq_true, Bool.not_eq_true', decide_eq_false_iff_not] at hk
  rcases hk with hk | hk
  · exact absurd hl hk
  · rw [List.any_eq_true] at hk
    obtain ⟨i, _, hi⟩ := hk
    simp only [decide_eq_true_eq] at hi
    exact ⟨i, hi.1, by intro h0; rw [h0] at hi; cases hi.2⟩

theorem reach_expiry {client : Bool} {w w1 w2 : W} (h : Reach client w) (hw : Waiting w) {i : Id} {o : Out} {sd : Sd}
    (ht : (w.con i).tm ≠ none) (h1 : step w (.timer i) = .ok w1) (hu : ¬ Unlucky w1 (.out o sd)) (h2 : step w1 (.out o sd) = .ok w2) :
    Reach client w2 ∧ Waiting w2 ∧ rank w2 < rank w := by
  refine ⟨(h.step (e := .timer i) (by unfold Unlucky Waiting at *; rw [hw]; simp) h1).step hu h2, ?_⟩
  obtain ⟨n, hn, rfl⟩ := reach_num h
  have hk : okExpiry n = true := by
    cases client
    · exact Tree.has_all server_expiry hn
    · exact Tree.has_all client_expiry hn
  unfold okExpiry at hk
  unfold Waiting at hw
  rw [hw] at hk
  simp only [Option.isSome_none, Bool.false_or, List.all_eq_true] at hk
  have hk := hk i (mem_ids i)
  have hnone : ((wOf n).con i).tm.isNone = false := by
    cases hc : ((wOf n).con i).tm with
    | none => exact absurd hc ht
    | some f => rfl
  rw [hnone, h1] at hk
  simp only [Bool.false_or, List.all_eq_true] at hk
  have hk := hk o (mem_outs o) sd (mem_sds sd)
  rw [h2] at hk
  simp only [hu, decide_false, Bool.false_or, Bool.and_eq_true] at hk
  refine ⟨?_, ?_⟩
  · unfold Waiting
    cases hc : w2.call with
    | none => rfl
    | some p => rw [hc] at hk; cases hk.1
  · have := hk.2
    rw [Nat.blt_eq] at this
    exact this

theorem expiries_bound {client : Bool} {w w' : W} {n : Nat} (h : Reach client w) (hw : Waiting w) (he : Expiries w n w') :
    Reach client w' ∧ Waiting w' ∧ n + rank w' ≤ rank w := by
  induction he with
  | zero => exact ⟨h, hw, by omega⟩
  | succ ht h1 hu h2 _ ih =>
    obtain ⟨hr, hq, hlt⟩ := reach_expiry h hw ht h1 hu h2
    obtain ⟨a, b, c⟩ := ih hr hq
    exact ⟨a, b, by omega⟩

theorem reachC_reach {client : Bool} {w : W} (h : ReachC client w) : Reach client w := by
  induction h with
  | start => exact .start
  | step _ hu _ hs ih => exact .step ih hu hs

theorem reachC_once {client : Bool} {w : W} (h : ReachC client w) : w.twice = false := by
  induction h with
  | start => cases client <;> rfl
  | @step w w' e h hu hc hs ih =>
    obtain ⟨n, hn, rfl⟩ := reach_num (reachC_reach h)
    have hk : okOnce n = true := by
      cases client
      · exact Tree.has_all server_once hn
      · exact Tree.has_all client_once hn
    unfold okOnce at hk
    rw [ih] at hk
    simp only [Bool.false_or, List.all_eq_true] at hk
    rcases mem_evs (wOf n) e with hm | hm
    · have := hk e hm
      rw [hs] at this
      simpa [hc] using this
    · rw [hs] at hm
      injection hm with hm
      rw [hm]; exact ih

end Verif.Session
