import Verif.Model.Stop
import Verif.Props.Loop
/-
Property C95: a stop request ends the worker soon.
-/
namespace Verif.Stop
open Verif Verif.Timer

/-- How late the loop may be left, depending on the part in which the request came. -/
def Late (start req B W real : Int) : Part → Prop
  | .top => real = start
  | .pass => real ≤ req + W + 2 * B
  | .wait => real ≤ req + B
  | .work => real ≤ req + B

theorem loop_late (wall : Int → Int) (start req B W : Int) (ts : List Turn)
    (hts : ∀ t ∈ ts, 0 ≤ t.pre ∧ t.pre ≤ B ∧ 0 ≤ t.post ∧ t.post ≤ B ∧ t.slept ≤ W) :
    ∀ (s : St) (real : Int) (part : Part), (req ≤ real → Late start req B W real part) → ∀ {e p}, loop wall req s real part ts = some (.left e p) →
      req ≤ e ∧ Late start req B W e p := by
  induction ts with
  | nil =>
    intro s real part h e p ho
    simp only [loop] at ho
    split at ho
    · rename_i hr
      simp only [Option.some.injEq, Out.left.injEq] at ho
      obtain ⟨rfl, rfl⟩ := ho
      exact ⟨hr, h hr⟩
    · simp at ho
  | cons t ts ih =>
    intro s real part h e p ho
    obtain ⟨b1, b2, b3, b4, b5⟩ := hts t (by simp)
    have ih := ih (fun t ht => hts t (by simp [ht]))
    rw [loop] at ho
    split at ho
    · rename_i hr
      simp only [Option.some.injEq, Out.left.injEq] at ho
      obtain ⟨rfl, rfl⟩ := ho
      exact ⟨hr, h hr⟩
    · rename_i hr
      split at ho
      · cases ho
      · rename_i es w s1 he
        simp only at ho
        split at ho
        · split at ho
          · exact ih _ _ _ (fun _ => by simp only [Late]; omega) ho
          · rename_i hn
            split at ho
            · cases ho
            · refine ih _ _ _ (fun hq => ?_) ho
              split
              · simp only [Late]; omega
              · simp only [Late]; omega
        · cases ho

/-- C95 (partial): if no callback or handler run takes longer than `B` together and `epoll_wait` never blocks longer than `W`, the loop is left, once a
stop request has come, at most `B` later when it came while the loop was waiting or handling events, and at most `W + 2 * B` later when it came
in the short time between the look at the flag and the waiting. Missing: the second bound ought to be like the first; see the counterexamples. -/
theorem c95_in_time_partial (wall : Int → Int) (start req B W : Int) (s : St) (ts : List Turn)
    (hts : ∀ t ∈ ts, 0 ≤ t.pre ∧ t.pre ≤ B ∧ 0 ≤ t.post ∧ t.post ≤ B ∧ t.slept ≤ W) {e : Int} {p : Part}
    (h : loop wall req s start .top ts = some (.left e p)) :
    req ≤ e ∧ (p = .top → e = start) ∧ (p = .wait ∨ p = .work → e ≤ req + B) ∧ (p = .pass → e ≤ req + W + 2 * B) := by
  obtain ⟨h1, h2⟩ := loop_late wall start req B W ts hts s start .top (fun _ => rfl) h
  refine ⟨h1, ?_, ?_, ?_⟩
  · rintro rfl; exact h2
  · rintro (rfl | rfl) <;> exact h2
  · rintro rfl; exact h2

/-- C95 (partial): the loop does not go on past a request: as long as it runs, the request is still to come. -/
theorem c95_noticed_partial (wall : Int → Int) (start req : Int) (s : St) (ts : List Turn) {r : Int} (h : loop wall req s start .top ts = some (.running r)) :
    r < req := by
  have key : ∀ (ts : List Turn) (s : St) (real : Int) (part : Part), loop wall req s real part ts = some (.running r) → r < req := by
    intro ts
    induction ts with
    | nil =>
      intro s real part h
      simp only [loop] at h
      split at h
      · simp at h
      · simp only [Option.some.injEq, Out.running.injEq] at h; omega
    | cons t ts ih =>
      intro s real part h
      rw [loop] at h
      split at h
      · simp at h
      · split at h
        · cases h
        · simp only at h
          split at h
          · split at h
            · exact ih _ _ _ h
            · split at h
              · cases h
              · exact ih _ _ _ h
          · cases h
  exact key ts s start .top h

/-- Case for both (also `c95_in_time_partial`): a request while the worker waits, one while a handler runs, one that has not come yet. -/
example : loop (fun r => r) 1030 (init 1000) 1000 .top [⟨[], 1, 20, [.add 1 100], 4⟩, ⟨[], 1, 90, [], 2⟩] = some (.left 1032 .wait) ∧
    loop (fun r => r) 1023 (init 1000) 1000 .top [⟨[], 1, 20, [.add 1 100], 4⟩, ⟨[], 1, 90, [], 2⟩] = some (.left 1025 .work) ∧
    loop (fun r => r) 2000 (init 1000) 1000 .top [⟨[], 1, 20, [.add 1 100], 4⟩, ⟨[], 1, 90, [], 2⟩] = some (.running 1118) := by decide +kernel

/-- C95 is false of the code: a request that comes between the look at the flag and `epoll_wait` is noticed only when the wait is over. If the next
timer is due after `d` milliseconds (any number) and nothing else happens, that is `d` milliseconds later. -/
theorem c95_race_counterexample (start d : Int) (hd : 0 < d) (hd' : d < 2147483648) :
    loop (fun r => r) (start + 1) (init start) start .top [⟨[], 0, 0, [.add 1 d], 0⟩, ⟨[], 1, d, [], 0⟩] = some (.left (start + 1 + d) .pass) := by
  have I0 : Inv [1] { init start with now := start + 0 + 0 } (fun _ => none) := by
    have := init_inv [1] (by decide) start; exact ⟨this.indexed, this.room, this.pos, this.mem, this.armed, this.univ⟩
  obtain ⟨s', e1, I1, n1, -⟩ := tmAdd_spec I0 (t := 1) (by simp) d
  have hn : s'.now = start := by simpa using n1
  have I1' : Inv [1] s' (after (fun _ => none) (.arm 1 (start + d))) := by simpa using I1
  have h2 := (one_turn I1').2 (by omega)
  have h0 : expire (init start) [] = some ([], 200, init start) := by simp [expire, expireQuiet, BHeap.minNode, init, BHeap.create]
  have hw : start + d - s'.now = d := by omega
  rw [hw] at h2
  have hs : sleeps (toInt d) d = true := by simp only [sleeps, decide_eq_true_eq]; rw [toInt_id (by omega) (by omega)]; omega
  rw [loop, if_neg (by omega)]
  simp only [h0]
  rw [if_pos (by decide), if_neg (by omega)]
  simp only [Timer.acts, Timer.act, e1, Option.bind_some, Option.map_some]
  rw [loop, if_neg (by omega)]
  simp only [h2]
  rw [if_pos hs, if_neg (by omega)]
  simp only [Timer.acts]
  rw [if_pos (show start + 1 ≤ start + 0 + 0 + 0 + 1 by omega)]
  rw [loop]
  rw [if_pos (by omega)]
  have : start + 0 + 0 + 0 + 1 + d + 0 = start + 1 + d := by omega
  rw [this]

/-- Case for `c95_race_counterexample`: 30 seconds, the time of the resolver. -/
example : loop (fun r => r) 1001 (init 1000) 1000 .top [⟨[], 0, 0, [.add 1 30000], 0⟩, ⟨[], 1, 30000, [], 0⟩] = some (.left 31001 .pass) := by
  decide +kernel

/-- C95 is false of the code in the worst way when the clock was set back by 25 to 49 days: the wait is without limit (see
`c77_asleep_counterexample`), and a request at the wrong moment is not noticed for any time `z`. -/
theorem c95_asleep_counterexample (start d b z : Int) (hd : 0 < d) (hd' : d < 2147483648) (hb : 2147483648 ≤ b) (hb' : b < 4294967296) (hz : 0 ≤ z) :
    loop (stepped (start + 1) (-b)) (start + d + 1) (init start) start .top [⟨[], 0, 0, [.add 1 d], 0⟩, ⟨[], 0, d, [], 0⟩, ⟨[], 1, z, [], 0⟩] =
      some (.left (start + d + 1 + z) .pass) := by
  have hw0 : stepped (start + 1) (-b) (start + 0 + 0) = start := by simp only [stepped]; rw [if_pos (by omega)]; omega
  have I0 : Inv [1] { init start with now := start } (fun _ => none) := by
    have := init_inv [1] (by decide) start; exact ⟨this.indexed, this.room, this.pos, this.mem, this.armed, this.univ⟩
  obtain ⟨s', e1, I1, n1, -⟩ := tmAdd_spec I0 (t := 1) (by simp) d
  have hn : s'.now = start := by simpa using n1
  have I1' : Inv [1] s' (after (fun _ => none) (.arm 1 (start + d))) := by simpa using I1
  have h2 := (one_turn I1').2 (by omega)
  have h0 : expire (init start) [] = some ([], 200, init start) := by simp [expire, expireQuiet, BHeap.minNode, init, BHeap.create]
  have hw : start + d - s'.now = d := by omega
  rw [hw] at h2
  have hs : sleeps (toInt d) d = true := by simp only [sleeps, decide_eq_true_eq]; rw [toInt_id (by omega) (by omega)]; omega
  have hst : stepped (start + 1) (-b) (start + d) = start + d - b := by unfold stepped; rw [if_neg (by omega)]; omega
  have I2 : Inv [1] { s' with now := start + d - b } (after (fun _ => none) (.arm 1 (start + d))) :=
    ⟨I1'.indexed, I1'.room, I1'.pos, I1'.mem, I1'.armed, I1'.univ⟩
  have h3 := (one_turn I2).2 (by show start + d - b < _; omega)
  have hw3 : start + d - (start + d - b) = b := by omega
  simp only [hw3] at h3
  have hs3 : sleeps (toInt b) z = true := by
    have : (b + 2147483648) % 4294967296 = b - 2147483648 := by omega
    simp only [sleeps, toInt, this, decide_eq_true_eq]
    omega
  rw [loop, if_neg (by omega)]
  simp only [h0]
  rw [if_pos (by decide), if_neg (by omega)]
  simp only [hw0, Timer.acts, Timer.act, e1, Option.bind_some, Option.map_some]
  rw [loop, if_neg (by omega)]
  simp only [h2]
  rw [if_pos hs, if_neg (by omega)]
  simp only [Timer.acts]
  have e4 : start + 0 + 0 + 0 + 0 + d = start + d := by omega
  rw [e4, hst, loop, if_neg (by omega)]
  simp only [h3]
  rw [if_pos hs3, if_neg (by omega)]
  simp only [Timer.acts]
  rw [if_pos (by omega), loop, if_pos (by omega)]
  have : start + d + 0 + 1 + z + 0 = start + d + 1 + z := by omega
  rw [this]

/-- Case for `c95_asleep_counterexample`: the clock goes back by 30 days; the request is not noticed for a year. -/
example : loop (stepped 1 (-2592000000)) 1001 (init 0) 0 .top [⟨[], 0, 0, [.add 1 1000], 0⟩, ⟨[], 0, 1000, [], 0⟩, ⟨[], 1, 31536000000, [], 0⟩] =
    some (.left 31536001001 .pass) := by
  have := c95_asleep_counterexample 0 1000 2592000000 31536000000 (by decide) (by decide) (by decide) (by decide) (by decide)
  simpa using this

end Verif.Stop
