import Verif.Proofs.Timer
/-
Properties C21 and C22: timers.
-/
namespace Verif.Timer
open Verif.BHeap (Ordered elems mem_elems)

/-- C21. In any history — arming, re-arming, cancelling, the clock moving either way, expiry passes whose callbacks themselves arm and
cancel — nothing crashes or loops forever, and every callback that runs belongs to a timer that is armed and whose deadline has been
reached; running it disarms it. The heap has room for 1536 timers; `U` are the timers that exist. -/
theorem c21_sound (U : List Nat) (hU : U.length ≤ 1536) (now : Int) (ops : List Op)
    (hops : ∀ op ∈ ops, ∀ t ∈ op.timers, t ∈ U) :
    ∃ es s, run (init now) ops = some (es, s) ∧ Sound (fun _ => none) es := by
  obtain ⟨es, s, h1, -, h3, -⟩ := run_spec ops (init_inv U hU now) hops
  exact ⟨es, s, h1, h3⟩

/-- Case: two timers, one is taken back, one fires late and only once. -/
example : (run (init 0) [.act (.add 1 10), .act (.add 2 5), .act (.del 2), .clock 30, .expire [], .clock 60, .expire []]).map (·.1) =
    some [.arm 1 10, .arm 2 5, .cancel 2, .fire 1 30] := by decide +kernel

/-- C21. The times reported for callbacks are the clock of the pass, and arming uses that clock: the deadline is the clock
plus the delay. -/
theorem c21_times (s : St) :
    (∀ t d es s', act s (.add t d) = some (es, s') → es = [.arm t (s.now + d)]) ∧
    (∀ cbs es w s', expire s cbs = some (es, w, s') → ∀ t time, .fire t time ∈ es → time = s.now) := by
  have actNow : ∀ (s : St) (x : Act) es s', act s x = some (es, s') → s'.now = s.now ∧ ∀ t time, .fire t time ∉ es := by
    intro s x es s' h
    have hd : ∀ t s', tmDel s t = some s' → s'.now = s.now := by
      intro t s' h
      unfold tmDel at h
      split at h
      · rw [Option.map_eq_some_iff] at h
        obtain ⟨r, -, rfl⟩ := h; rfl
      · cases h; rfl
    cases x with
    | add t d =>
      simp only [act, tmAdd, Option.map_eq_some_iff, Prod.mk.injEq] at h
      obtain ⟨s1, ⟨s2, h2, rfl⟩, rfl, rfl⟩ := h
      exact ⟨hd t s2 h2, by simp⟩
    | del t =>
      simp only [act, Option.map_eq_some_iff, Prod.mk.injEq] at h
      obtain ⟨s1, h2, rfl, rfl⟩ := h
      exact ⟨hd t _ h2, by simp⟩
  have actsNow : ∀ (xs : List Act) (s : St) es s', acts s xs = some (es, s') → s'.now = s.now ∧ ∀ t time, .fire t time ∉ es := by
    intro xs
    induction xs with
    | nil => intro s es s' h; simp only [acts, Option.some.injEq, Prod.mk.injEq] at h; obtain ⟨rfl, rfl⟩ := h; simp
    | cons x xs ih =>
      intro s es s' h
      simp only [acts, Option.bind_eq_some_iff, Option.map_eq_some_iff] at h
      obtain ⟨⟨e1, s1⟩, h1, ⟨e2, s2⟩, h2, h3⟩ := h
      simp only [Prod.mk.injEq] at h3
      obtain ⟨rfl, rfl⟩ := h3
      obtain ⟨a1, a2⟩ := actNow _ _ _ _ h1
      obtain ⟨b1, b2⟩ := ih _ _ _ h2
      refine ⟨by rw [b1, a1], ?_⟩
      intro t time hm
      rw [List.mem_append] at hm
      rcases hm with hm | hm
      · exact a2 t time hm
      · exact b2 t time hm
  refine ⟨?_, ?_⟩
  · intro t d es s' h
    simp only [act, Option.map_eq_some_iff, Prod.mk.injEq] at h
    obtain ⟨_, _, rfl, _⟩ := h; rfl
  · have delNow : ∀ (s s1 : St) m, tmDel s m = some s1 → s1.now = s.now := fun s s1 m hd =>
      (actNow s (.del m) [.cancel m] s1 (by simp [act, hd])).1
    have quiet : ∀ (s : St) es w s', expireQuiet s = some (es, w, s') → ∀ t time, .fire t time ∈ es → time = s.now := by
      intro s
      fun_induction expireQuiet s with
      | case1 s hm => intro es w s' h; cases h; simp
      | case2 s m hm hk => intro es w s' h; cases h; simp
      | case3 s m hm hk hd => intro es w s' h; cases h
      | case4 s m hm hk s1 hd hlt ih =>
        intro es w s' h
        simp only [Option.map_eq_some_iff] at h
        obtain ⟨⟨e2, w2, s3⟩, h2, h3⟩ := h
        simp only [Prod.mk.injEq] at h3
        obtain ⟨rfl, rfl, rfl⟩ := h3
        intro t time hmem
        simp only [List.mem_cons, Ev.fire.injEq] at hmem
        rcases hmem with ⟨-, rfl⟩ | hmem
        · rfl
        · rw [ih e2 w2 s3 h2 t time hmem, delNow _ _ _ hd]
      | case5 s m hm hk s1 hd hlt => intro es w s' h; cases h
    intro cbs
    fun_induction expire s cbs with
    | case1 s => exact quiet s
    | case2 s cb rest hm => intro es w s' h; cases h; simp
    | case3 s cb rest m hm hk => intro es w s' h; cases h; simp
    | case4 s cb rest m hm hk hd => intro es w s' h; cases h
    | case5 s cb rest m hm hk s1 hd ih =>
      intro es w s' h
      simp only [Option.bind_eq_some_iff, Option.map_eq_some_iff] at h
      obtain ⟨⟨e1, s2⟩, h1, ⟨e2, w2, s3⟩, h2, h3⟩ := h
      simp only [Prod.mk.injEq] at h3
      obtain ⟨rfl, rfl, rfl⟩ := h3
      obtain ⟨a1, a2⟩ := actsNow _ _ _ _ h1
      intro t time hmem
      simp only [List.cons_append, List.mem_cons, Ev.fire.injEq, List.mem_append] at hmem
      rcases hmem with ⟨-, rfl⟩ | hmem | hmem
      · rfl
      · exact absurd hmem (a2 t time)
      · rw [ih s2 e2 w2 s3 h2 t time hmem, a1, delNow _ _ _ hd]

/-- C22, what holds of every history: an expiry pass ends, and the wait it reports is 200 with nothing armed, or the positive distance
to the deadline of some armed timer. -/
theorem c22_wait_partial (U : List Nat) (hU : U.length ≤ 1536) (now : Int) (ops : List Op)
    (hops : ∀ op ∈ ops, ∀ t ∈ op.timers, t ∈ U) (cbs : List (List Act)) (hcbs : ∀ x ∈ cbs.flatten, x.timer ∈ U) :
    ∃ es s es' w s', run (init now) ops = some (es, s) ∧ expire s cbs = some (es', w, s') ∧
      ((w = 200 ∧ ∀ t, ((es ++ es').foldl after (fun _ => none)) t = none) ∨
        ∃ t d, ((es ++ es').foldl after (fun _ => none)) t = some d ∧ w = d - s'.now ∧ 0 < w) := by
  obtain ⟨es, s, h1, I, -, -⟩ := run_spec ops (init_inv U hU now) hops
  obtain ⟨es', w, s', h2, I2, n2, -, en, -⟩ := expire_spec s cbs I hcbs
  refine ⟨es, s, es', w, s', h1, h2, ?_⟩
  rw [List.foldl_append]
  rcases en with ⟨hm, rfl⟩ | ⟨m, hm, hlt, rfl⟩
  · left
    refine ⟨rfl, fun t => ?_⟩
    have hn : s'.heap.n = 0 := by
      have := I2.pos
      unfold BHeap.minNode at hm
      split at hm
      · omega
      · cases hm
    have : ¬ s'.set t = true := by
      intro hs
      obtain ⟨k, k1, kn, -⟩ := mem_elems.mp ((I2.mem t).mpr hs)
      omega
    rw [I2.armed, if_neg this]
  · right
    obtain ⟨-, -, hmem⟩ := minNode_mem hm
    refine ⟨m, s'.heap.key m, ?_, rfl, by omega⟩
    rw [I2.armed, if_pos ((I2.mem m).mp hmem)]

/-- C22, for histories in which no armed timer is cancelled or re-armed except one due before all others: after a pass no armed timer
is due, and the wait is the distance to the earliest deadline, or 200 when none is armed. The full property, with arbitrary
cancellations, is false: see `c22_late_counterexample`. -/
theorem c22_all_due_partial (U : List Nat) (hU : U.length ≤ 1536) (now : Int) (ops : List Op)
    (hops : ∀ op ∈ ops, ∀ t ∈ op.timers, t ∈ U) (cbs : List (List Act)) (hcbs : ∀ x ∈ cbs.flatten, x.timer ∈ U)
    {es es' : List Ev} {s s' : St} {w : Int} (h1 : run (init now) ops = some (es, s)) (h2 : expire s cbs = some (es', w, s'))
    (hcalm : Calm (fun _ => none) (es ++ es')) :
    (∀ t d, ((es ++ es').foldl after (fun _ => none)) t = some d → s'.now < d) ∧
    ((w = 200 ∧ ∀ t, ((es ++ es').foldl after (fun _ => none)) t = none) ∨
      ∃ t d, ((es ++ es').foldl after (fun _ => none)) t = some d ∧ w = d - s'.now ∧
        ∀ t' d', ((es ++ es').foldl after (fun _ => none)) t' = some d' → d ≤ d') := by
  obtain ⟨es0, s0, g1, I, -, o1⟩ := run_spec ops (init_inv U hU now) hops
  rw [g1] at h1; cases h1
  obtain ⟨es0', w0, s0', g2, I2, n2, -, en, o2⟩ := expire_spec s cbs I hcbs
  rw [g2] at h2; cases h2
  rw [calm_append] at hcalm
  have O : Ordered s'.heap := o2 (o1 (init_ordered now) hcalm.1) hcalm.2
  rw [List.foldl_append]
  have hnone : (∀ t d, (es'.foldl after (es.foldl after fun _ => none)) t = some d →
      1 ≤ s'.heap.n ∧ s'.heap.key (s'.heap.arr 1) ≤ d) := by
    intro t d h
    rw [I2.armed] at h
    split at h
    · rename_i hs
      cases h
      obtain ⟨k, k1, kn, rfl⟩ := mem_elems.mp ((I2.mem t).mpr hs)
      exact ⟨by omega, BHeap.ordered_root O k k1 kn⟩
    · cases h
  rcases en with ⟨hm, rfl⟩ | ⟨m, hm, hlt, rfl⟩
  · have hn : s'.heap.n = 0 := by
      have := I2.pos
      unfold BHeap.minNode at hm
      split at hm
      · omega
      · cases hm
    refine ⟨fun t d h => ?_, Or.inl ⟨rfl, fun t => ?_⟩⟩
    · have := (hnone t d h).1; omega
    · cases h : (es'.foldl after (es.foldl after fun _ => none)) t with
      | none => rfl
      | some d => have := (hnone t d h).1; omega
  · obtain ⟨-, rfl, hmem⟩ := minNode_mem hm
    refine ⟨fun t d h => ?_, Or.inr ⟨s'.heap.arr 1, s'.heap.key (s'.heap.arr 1), ?_, rfl, fun t' d' h => (hnone t' d' h).2⟩⟩
    · have := (hnone t d h).2; omega
    · rw [I2.armed, if_pos ((I2.mem _).mp hmem)]

/-- Arm timers 1 to 11, one per millisecond, all with the same delay of 100 ms, then cancel five of them. -/
def lateHistory : List Op :=
  ((List.range 11).map (fun i => [Op.clock (i + 1 : Nat), Op.act (.add (i + 1) 100)])).flatten ++
    [.act (.del 2), .act (.del 4), .act (.del 5), .act (.del 3), .act (.del 9)]

/-- C22 is false: after that history, a pass at time 107 runs the callbacks of timers 1 and 6 but not of timer 7, whose deadline is
107; it reports a wait of 1 ms (to timer 8), and the next passes at that time do not run it either. -/
theorem c22_late_counterexample :
    ((run (init 0) (lateHistory ++ [.clock 107])).bind fun (_, s) => (expire s []).bind fun (es, w, s') =>
      (expire s' []).map fun r => (es, w, elems s'.heap, r.1, r.2.1)) =
      some ([.fire 1 107, .fire 6 107], 1, [8, 7, 11, 10], [], 1) := by
  decide +kernel

/-- Non-trivial case: a history meeting the hypotheses of `c22_all_due_partial` and `c22_wait_partial` (and `c21_times`), with a callback that re-arms. -/
example : (run (init 0) [.act (.add 1 10), .act (.add 2 5), .act (.add 3 7), .act (.del 2), .clock 8]).map (·.1) =
      some [.arm 1 10, .arm 2 5, .arm 3 7, .cancel 2] ∧
    Calm (fun _ => none) [.arm 1 10, .arm 2 5, .arm 3 7, .cancel 2, .fire 3 8, .arm 3 28] ∧
    ((run (init 0) [.act (.add 1 10), .act (.add 2 5), .act (.add 3 7), .act (.del 2), .clock 8]).bind fun (_, s) =>
      (expire s [[.add 3 20]]).map fun r => (r.1, r.2.1)) = some ([.fire 3 8, .arm 3 28], 2) := by
  refine ⟨by decide +kernel, ?_, by decide +kernel⟩
  simp only [Calm, after, Earliest]
  refine ⟨?_, ?_, ?_, ?_, ?_, ?_⟩
  · simp
  · simp
  · simp
  · intro d hd x d' hx hd'
    simp at hd
    subst hd
    split at hd'
    · cases hd'; decide
    · split at hd'
      · cases hd'; decide
      · cases hd'
  · trivial
  · simp

end Verif.Timer
