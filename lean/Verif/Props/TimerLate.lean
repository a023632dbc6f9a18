import Verif.Proofs.TimerLate
import Verif.Props.Loop
/-
Property C112: a timer runs late, but not later than a bound.
-/
namespace Verif.Timer

/-- C112. However the timers are armed, cancelled and re-armed, and in whatever order: a timer that is armed with the deadline `d` and then left alone has run, once the timers are looked at
(`expire`) at a time later than `d + N·(D + g)`, where `N` is the number of timers (at most 1536), `D` the longest delay and `g` the longest time between two looks. -/
theorem c112_bounded (U : List Nat) (hU : U.length ≤ 1536) (D g : Int) (hD : 0 ≤ D) (hg : 0 ≤ g) (now0 : Int) (before later : List Op) (t : Nat) (δ T : Int) (cbs : List (List Act))
    (ht : t ∈ U) (hb : ∀ op ∈ before, ∀ u ∈ op.timers, u ∈ U) (hl : ∀ op ∈ later ++ [.clock T, .expire cbs], ∀ u ∈ op.timers, u ∈ U ∧ u ≠ t)
    (hT : Timely D g now0 now0 (before ++ .act (.add t δ) :: (later ++ [.clock T, .expire cbs]))) :
    ∃ es1 s1 es2 s2, run (init now0) before = some (es1, s1) ∧ run s1 (.act (.add t δ) :: (later ++ [.clock T, .expire cbs])) = some (es2, s2) ∧
      .arm t (s1.now + δ) ∈ es2 ∧ (s1.now + δ + (U.length : Int) * (D + g) < T → ∃ time, .fire t time ∈ es2) := by
  obtain ⟨es1, s1, r1, -⟩ := run_spec before (init_inv U hU now0) hb
  rw [timely_append] at hT
  obtain ⟨hT1, hT2⟩ := hT
  obtain ⟨z1, z2, z3, z4, I1⟩ := run_all hD hg before (init_inv U hU now0) hb hT1 (Int.le_refl _) (by simp only [init]; omega) (by simp) r1
  have e0 : (init now0).now = now0 := rfl
  rw [e0] at z1 z2 z3
  rw [z1] at hT2
  obtain ⟨w1, hT3⟩ := hT2
  obtain ⟨e1, s2, r2, -⟩ := act_spec I1 (x := .add t δ) ht
  obtain ⟨K, I2, n2⟩ := armed_track I1 hD hg ht w1 z2 z3 z4 r2
  obtain ⟨es3, s3, r3, -⟩ := run_spec (later ++ [.clock T, .expire cbs]) I2 (fun op ho u hu => (hl op ho u hu).1)
  have he1 : e1 = [.arm t (s1.now + δ)] := by
    simp only [act, Option.map_eq_some_iff] at r2
    obtain ⟨s2, -, r2⟩ := r2
    cases r2; rfl
  refine ⟨es1, s1, e1 ++ es3, s3, r1, by simp [run, step, r2, r3], by simp [he1], fun hlate => ?_⟩
  rcases run_track hD hg (Nat.le_refl _) (Int.le_refl _) _ I2 K hl (by rw [n2]; exact hT3) r3 with ⟨time, h⟩ | ⟨h, -⟩
  · exact ⟨time, by simp [h]⟩
  · exfalso
    have hlast : ∀ (xs : List Op) (l n : Int), (lastOf l n (xs ++ [.clock T, .expire cbs])).1 = T := by
      intro xs
      induction xs with
      | nil => intro l n; rfl
      | cons x xs ih => intro l n; cases x <;> simp only [List.cons_append, lastOf, ih]
    rw [hlast] at h
    have h0 := h.seen
    have hp : (0 : Int) ≤ (U.length : Int) * (D + g) := Int.mul_nonneg (by omega) (by omega)
    obtain ⟨M, q, -, q1, q2, q3⟩ := h.due (by omega)
    have : (1 : Int) * (D + g) ≤ (q : Int) * (D + g) := Int.mul_le_mul_of_nonneg_right (by omega) (by omega)
    omega

/-- C112. In every history, however timers are armed, cancelled and re-armed, every callback runs at most `N·(D + g) + g` after its deadline, and no timer whose deadline is more than
`N·(D + g)` before the last look is still waiting. (That callbacks do not run before their deadline is C21.) -/
theorem c112_all (U : List Nat) (hU : U.length ≤ 1536) (D g : Int) (hD : 0 ≤ D) (hg : 0 ≤ g) (now0 : Int) (ops : List Op) (hb : ∀ op ∈ ops, ∀ u ∈ op.timers, u ∈ U)
    (hT : Timely D g now0 now0 ops) :
    ∃ es s, run (init now0) ops = some (es, s) ∧ NotLater ((U.length : Int) * (D + g) + g) (fun _ => none) es ∧
      ∀ t d, (es.foldl after fun _ => none) t = some d → (lastOf now0 now0 ops).1 ≤ d + (U.length : Int) * (D + g) := by
  obtain ⟨es, s, r, -⟩ := run_spec ops (init_inv U hU now0) hb
  have K0 : Kept D g U now0 (init now0) (fun _ => none) := ⟨Int.le_refl _, by simp only [init]; omega, by simp, by simp⟩
  obtain ⟨K, l, -⟩ := run_kept hD hg ops (init_inv U hU now0) K0 hb hT r
  refine ⟨es, s, r, l, fun t d ht => ?_⟩
  have hp : (0 : Int) ≤ (U.length : Int) * (D + g) := Int.mul_nonneg (by omega) (by omega)
  exact (K.each t d ht).bound hD hg (by omega)

/-- Labels of a pass at real time `p`. -/
theorem onTime_late {off busy K p now : Int} (h1 : now ≤ p + off) (h2 : p + off ≤ now + busy) : ∀ (es : List Ev) (a : Armed), Sound a es → NotLater K a es →
    (∀ t time, .fire t time ∈ es → time = now) → OnTime off (K + busy) a (es.map (p, ·))
  | [], _, _, _, _ => trivial
  | e :: es, a, hs, hl, hf => by
    refine ⟨?_, onTime_late h1 h2 es (after a e) hs.2 hl.2 (fun t time hm => hf t time (by simp [hm]))⟩
    cases e with
    | fire t time =>
      have := hf t time (by simp)
      subst this
      obtain ⟨d, d1, d2⟩ := hs.1
      obtain ⟨d', d3, d4⟩ := hl.1
      rw [d1] at d3; cases d3
      exact ⟨d, d1, by omega, by omega⟩
    | arm t d => trivial
    | cancel t => trivial

/-- The state between turns of the loop: the clock may be `busy` behind. -/
structure Keeps (off busy D : Int) (U : List Nat) (s : St) (p : Int) (a : Armed) : Prop where
  inv : Inv U s a
  past : s.now ≤ p + off
  fresh : p + off ≤ s.now + busy
  kept : ∃ last, Kept D (busy + max D 200) U last s a

theorem turn_keeps {off busy D : Int} (_hb : 0 ≤ busy) (hD : 0 ≤ D) (hD' : D < 2147483648) {wall : Int → Int} (hw : ∀ r, wall r = r + off) {U : List Nat} {s : St} {p : Int}
    {a : Armed} (G : Keeps off busy D U s p a) (t : Turn) (hU : ∀ x ∈ t.acted, x.timer ∈ U ∧ x.within D) (hbusy : 0 ≤ t.busy ∧ t.busy ≤ busy)
    {es : List (Int × Ev)} {s' : St} {p' : Int} (h : turn wall s p t = some (es, s', p')) :
    OnTime off ((U.length : Int) * (D + (busy + max D 200)) + (busy + max D 200) + busy) a es ∧ Keeps off busy D U s' p' ((es.map (·.2)).foldl after a) := by
  obtain ⟨last, K⟩ := G.kept
  have hg : 0 ≤ busy + max D 200 := by omega
  obtain ⟨e1, w, s1, r1, I1, n1, so1, en1, -⟩ := expire_spec s t.cbs G.inv (fun x hx => (hU x (by simp [Turn.acted, -List.mem_flatten, hx])).1)
  have fires1 := (c21_times s).2 t.cbs e1 w s1 r1
  obtain ⟨K1, l1, -⟩ := expire_kept hD hg s t.cbs G.inv K (fun x hx => hU x (by simp [Turn.acted, -List.mem_flatten, hx])) r1
  unfold turn at h
  rw [r1] at h
  simp only [Option.bind_some] at h
  split at h
  · rename_i hsl
    simp only [Option.map_eq_some_iff, Prod.mk.injEq] at h
    obtain ⟨⟨e2, s2⟩, r2, rfl, rfl, rfl⟩ := h
    have hmap : ((e1.map (p, ·) ++ e2.map (p + t.slept, ·)).map (·.2)) = e1 ++ e2 := by
      simp [List.map_append, Function.comp_def]
    rw [hmap, List.foldl_append]
    have hpast := G.past
    have hfresh := G.fresh
    have hwle : 0 ≤ w ∧ w ≤ max D 200 := by
      rcases en1 with ⟨-, rfl⟩ | ⟨m, hm, hlt, rfl⟩
      · omega
      · obtain ⟨-, -, hmem⟩ := minNode_mem hm
        have hs := (I1.mem m).mp hmem
        have h2 := I1.armed m
        rw [hs, if_pos rfl] at h2
        have := K1.all m _ h2
        omega
    simp only [sleeps, decide_eq_true_eq] at hsl
    rw [toInt_id hwle.1 (by omega)] at hsl
    have K2 : Kept D (busy + max D 200) U s.now { s1 with now := wall (p + t.slept) } (e1.foldl after a) :=
      K1.clock hD I1 (by rw [hw, n1]; omega) (by rw [hw]; omega)
    have I1' : Inv U { s1 with now := wall (p + t.slept) } (e1.foldl after a) :=
      ⟨I1.indexed, I1.room, I1.pos, I1.mem, I1.armed, I1.univ⟩
    obtain ⟨e2', s2', r2', I2, n2, -⟩ := acts_spec t.acts I1' (fun x hx => (hU x (by simp [Turn.acted, hx])).1)
    rw [r2] at r2'
    obtain ⟨rfl, rfl⟩ := Prod.mk.inj (Option.some.inj r2')
    obtain ⟨K3, -, f3⟩ := acts_kept hD hg t.acts I1' K2 (fun x hx => hU x (by simp [Turn.acted, hx])) r2
    simp only [hw] at n2
    refine ⟨(onTime_append _ _ _ _ _).mpr ⟨onTime_late hpast hfresh e1 a so1 l1 fires1, onTime_acts e2 _ f3⟩, ⟨I2, by rw [n2]; omega, by rw [n2]; omega, _, K3⟩⟩
  · cases h

theorem turns_keeps {off busy D : Int} (hb : 0 ≤ busy) (hD : 0 ≤ D) (hD' : D < 2147483648) {wall : Int → Int} (hw : ∀ r, wall r = r + off) {U : List Nat} :
    ∀ (ts : List Turn) {s : St} {p : Int} {a : Armed}, Keeps off busy D U s p a → (∀ t ∈ ts, (∀ x ∈ t.acted, x.timer ∈ U ∧ x.within D) ∧ 0 ≤ t.busy ∧ t.busy ≤ busy) →
    ∀ {es : List (Int × Ev)} {s' : St} {p' : Int}, turns wall s p ts = some (es, s', p') →
    OnTime off ((U.length : Int) * (D + (busy + max D 200)) + (busy + max D 200) + busy) a es ∧ Keeps off busy D U s' p' ((es.map (·.2)).foldl after a)
  | [], s, p, a, G, _, es, s', p', h => by
    simp only [turns, Option.some.injEq, Prod.mk.injEq] at h
    obtain ⟨rfl, rfl, rfl⟩ := h
    exact ⟨trivial, G⟩
  | t :: ts, s, p, a, G, hts, es, s', p', h => by
    simp only [turns, Option.bind_eq_some_iff, Option.map_eq_some_iff] at h
    obtain ⟨⟨e1, s1, p1⟩, h1, ⟨e2, s2, p2⟩, h2, h3⟩ := h
    simp only [Prod.mk.injEq] at h3
    obtain ⟨rfl, rfl, rfl⟩ := h3
    obtain ⟨ht, htb⟩ := hts t (by simp)
    obtain ⟨o1, G1⟩ := turn_keeps hb hD hD' hw G t ht htb h1
    obtain ⟨o2, G2⟩ := turns_keeps hb hD hD' hw ts G1 (fun t' ht' => hts t' (by simp [ht'])) h2
    refine ⟨(onTime_append _ _ _ _ _).mpr ⟨o1, o2⟩, ?_⟩
    rw [List.map_append, List.foldl_append]
    exact G2

/-- C112 for the loop of a worker, in real time, with a clock that runs evenly (always `off` ahead): whatever callbacks and handlers arm and cancel, if they and the scheduler take at most
`busy` in one turn and delays are at most `D`, then with `g = busy + max D 200` (the loop sleeps no longer than to the deadline at the top of the heap, or 200 ms) every callback runs
between its deadline and `N·(D + g) + g + busy` after it, and at no moment is a timer overdue by more. -/
theorem c112_loop (off busy D : Int) (hb : 0 ≤ busy) (hD : 0 ≤ D) (hD' : D < 2147483648) (wall : Int → Int) (hw : ∀ r, wall r = r + off) (U : List Nat) (hU : U.length ≤ 1536)
    (start : Int) (ts : List Turn) (hts : ∀ t ∈ ts, (∀ x ∈ t.cbs.flatten ++ t.acts, x.timer ∈ U ∧ x.within D) ∧ 0 ≤ t.busy ∧ t.busy ≤ busy)
    (es : List (Int × Ev)) (s : St) (real : Int) (h : turns wall (init (wall start)) start ts = some (es, s, real)) :
    OnTime off ((U.length : Int) * (D + (busy + max D 200)) + (busy + max D 200) + busy) (fun _ => none) es ∧
    ∀ t d, ((es.map (·.2)).foldl after (fun _ => none)) t = some d → real + off ≤ d + ((U.length : Int) * (D + (busy + max D 200)) + (busy + max D 200) + busy) := by
  have G0 : Keeps off busy D U (init (wall start)) start (fun _ => none) :=
    ⟨init_inv U hU _, by simp [init, hw], by simp [init, hw]; omega, wall start, Int.le_refl _, by simp only [init]; omega, by simp, by simp⟩
  obtain ⟨o, G⟩ := turns_keeps hb hD hD' hw ts G0 hts h
  refine ⟨o, fun t d hd => ?_⟩
  obtain ⟨last, K⟩ := G.kept
  have hp : (0 : Int) ≤ (U.length : Int) * (D + (busy + max D 200)) := Int.mul_nonneg (by omega) (by omega)
  have h1 := (K.each t d hd).bound hD (by omega) (by omega)
  have h2 := K.gap
  have h3 := G.fresh
  omega

/-- Turns in which a timer is cancelled and armed again, with delays of ten seconds and five milliseconds of work in each turn. -/
def exTurns : List Turn :=
  [⟨[], 0, [.add 1 5000, .add 2 10000, .add 3 5000], 5⟩, ⟨[], 3000, [.del 2], 5⟩, ⟨[], 1990, [], 5⟩, ⟨[[.add 2 10000]], 7, [], 5⟩]

/-- Case: they meet the hypotheses, and two callbacks run. -/
example : (∀ t ∈ exTurns, (∀ x ∈ t.cbs.flatten ++ t.acts, x.timer ∈ [1, 2, 3] ∧ x.within 10000) ∧ 0 ≤ t.busy ∧ t.busy ≤ 5) ∧
    (turns (fun r => r) (init 0) 0 exTurns).map (fun r => (r.1, r.2.2)) =
      some ([(0, .arm 1 5000), (0, .arm 2 10000), (0, .arm 3 5000), (3005, .cancel 2), (5005, .fire 1 5000), (5005, .arm 2 15000), (5005, .fire 3 5000)], 5017) := by
  refine ⟨by simp [exTurns, Act.timer, Act.within], by decide +kernel⟩

/-- Ten timers of five and ten seconds, one connection after the other; the fourth is closed at once, and the sixth is not touched. -/
def lateOps : List Op :=
  [.act (.add 1 5000), .clock 1, .act (.add 2 10000), .clock 2, .act (.add 3 5000), .clock 3, .act (.add 4 10000), .clock 4, .act (.add 5 10000), .clock 5, .act (.add 6 5000),
   .act (.del 4), .clock 6, .act (.add 7 10000), .act (.add 8 10000)]

/-- C112 is no better than a bound: with delays of five and ten seconds as this program uses them, one closed connection makes a timer of five seconds (armed for 5005, and not touched)
run five seconds late: looks at 5500, 7500 and 10000 do not run it, and only the deadline of the timer that had got above it brings it out. -/
theorem c112_late_counterexample :
    Timely 10000 6000 0 0 (lateOps ++ [.clock 5500, .expire [], .clock 7500, .expire [], .clock 10000, .expire []]) ∧
    ((run (init 0) lateOps).map fun r => r.1.contains (.arm 6 5005)) = some true ∧
    ((run (init 0) (lateOps ++ [.clock 5500, .expire [], .clock 7500, .expire [], .clock 10000, .expire []])).map fun r => r.1.drop 9) = some [.fire 1 5500, .fire 3 5500] ∧
    ((run (init 0) (lateOps ++ [.clock 5500, .expire [], .clock 7500, .expire [], .clock 10001, .expire []])).map fun r => r.1.drop 9) =
      some [.fire 1 5500, .fire 3 5500, .fire 2 10001, .fire 6 10001] := by
  refine ⟨by simp [lateOps, Timely, Act.within], ?_, ?_, ?_⟩ <;> decide +kernel

/-- Case: three timers, delays and times between looks of at most ten; the third is armed for five, another one is cancelled and armed again, and at the look at 66 the third has run. -/
example : ∃ es1 s1 es2 s2, run (init 0) [.act (.add 1 3), .act (.add 2 10)] = some (es1, s1) ∧
    run s1 (.act (.add 3 5) :: ([.act (.del 1), .clock 4, .act (.add 1 10), .expire [], .clock 14, .expire [[.add 2 9]], .clock 24, .expire [], .clock 34, .expire [], .clock 44, .expire [],
      .clock 54, .expire [], .clock 60, .expire []] ++ [.clock 66, .expire []])) = some (es2, s2) ∧ ∃ time, .fire 3 time ∈ es2 := by
  obtain ⟨es1, s1, es2, s2, h1, h2, -, h4⟩ := c112_bounded [1, 2, 3] (by decide) 10 10 (by decide) (by decide) 0 [.act (.add 1 3), .act (.add 2 10)]
    [.act (.del 1), .clock 4, .act (.add 1 10), .expire [], .clock 14, .expire [[.add 2 9]], .clock 24, .expire [], .clock 34, .expire [], .clock 44, .expire [], .clock 54, .expire [], .clock 60, .expire []]
    3 5 66 [] (by decide) (by simp [Op.timers, Act.timer]) (by simp [Op.timers, Act.timer]) (by simp [Timely, Act.within])
  have hn : s1.now = 0 := by
    have : (run (init 0) [.act (.add 1 3), .act (.add 2 10)]).map (·.2.now) = some 0 := by decide +kernel
    rw [h1] at this; simpa using this
  exact ⟨es1, s1, es2, s2, h1, h2, h4 (by rw [hn]; decide)⟩

end Verif.Timer
