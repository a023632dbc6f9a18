import Verif.Proofs.Conns
/-
Property C87: connections, blocks and timers together.
-/
namespace Verif.Conns

/-- C87. In every history of connections being opened and closed, timers being armed and cancelled, other code taking and giving back
blocks, the clock moving either way, and expiry passes whose callbacks do any of this: a timer is touched only while the connection it
belongs to exists, it is not armed when the connection is freed, it fires only when armed and due, arming it is never refused, and no more
than 1024 timers exist at any time. -/
theorem c87_histories (base : Nat → Nat) (now : Int) (ops : List Op) : World.empty.Good 1024 (run (init base now) ops).log := by
  obtain ⟨es, h1, h2, -⟩ := (run_step ops (init_inv base now)).1
  rw [h1]
  simpa [init] using h2

/-- Case: the history of a connection that times out is a history of `World.Good`, and is not empty. -/
example : (run (init (fun i => i * 10000000) 0) [.act .open, .act (.arm 0 5), .clock 10, .expire [[.close 0]]]).log =
    [.opened 1, .tm (.arm 1 5), .tm (.fire 1 10), .tm (.cancel 1), .freed 1] := by decide +kernel

/-- C87. The timer code never dereferences NULL or loops forever and the pool lock is never found held; the process can end in the pool
only, by a request of no bytes or by one for more than 512 bytes from an exhausted class. -/
theorem c87_no_crash (base : Nat → Nat) (now : Int) (ops : List Op) :
    (run (init base now) ops).stop ≠ some .crash ∧ (run (init base now) ops).stop ≠ some .hang ∧
      ((∀ op ∈ ops, op.fits) → (run (init base now) ops).stop = none) := by
  obtain ⟨⟨es, h1, h2, -, h3⟩, h4⟩ := run_step ops (init_inv base now)
  have h0 : (init base now).stop = none := rfl
  rw [h0] at h3
  refine ⟨?_, ?_, fun h => h4 h rfl⟩ <;> rcases h3 with h | h | h <;> rw [h] <;> simp

/-- Case: these operations fit. -/
example : (run (init (fun i => i * 10000000) 0) [.act .open, .act (.arm 0 5), .clock 10, .expire [[.close 0]]]).stop = none :=
  (c87_no_crash _ _ _).2.2 (by
    intro op hop
    simp only [List.mem_cons, List.not_mem_nil, or_false] at hop
    rcases hop with rfl | rfl | rfl | rfl <;> simp [Op.fits, Act.fits])

/-- C87. A connection can be opened exactly while two blocks of the smallest class are free; when it cannot, nothing is kept. -/
theorem c87_open (base : Nat → Nat) (now : Int) (ops : List Op) (hs : (run (init base now) ops).stop = none) :
    let s := run (init base now) ops
    let s' := run (init base now) (ops ++ [.act .open])
    s'.stop = none ∧
      (2 ≤ (s.pool.usable 0).length → ∃ c e, s'.conns = s.conns ++ [(c, e)] ∧ (s'.pool.usable 0).length + 2 = (s.pool.usable 0).length) ∧
      ((s.pool.usable 0).length < 2 → s'.conns = s.conns ∧ s'.log = s.log ∧ (s'.pool.usable 0).length = (s.pool.usable 0).length) := by
  intro s s'
  obtain ⟨es, -, -, I, -⟩ := (run_step ops (init_inv base now)).1
  have ha : s' = act s .open := by
    change run _ _ = _
    rw [run, List.foldl_append]
    change step s (.act .open) = _
    rw [step, if_neg (by rw [show s.stop = none from hs]; simp)]
  have hst : s'.stop = none := by rw [ha]; exact (act_step I .open).2 trivial hs
  refine ⟨hst, ?_⟩
  have hs' : s' = openConn s := by
    rw [ha]
    simp only [act]
    rw [if_neg (by rw [show s.stop = none from hs]; simp)]
  have hl := I.pool.length
  rw [hs']
  unfold openConn
  rcases alloc_small I.pool (n := 96) (by decide) (by decide) with ⟨e1, hf⟩ | ⟨c, p1, e1, hc, P1⟩
  · rw [show Mem.alloc s.pool 96 = _ from e1]
    refine ⟨fun h => ?_, fun h => ⟨rfl, rfl, rfl⟩⟩
    have : (s.pool.usable 0).length + (owned s).length = 2048 := hl
    have : (owned s).length = 2048 := hf
    omega
  · have hl1 := P1.length
    have hl0 : (s.pool.usable 0).length + (owned s).length = 2048 := hl
    have hl1' : (p1.usable 0).length + ((owned s).length + 1) = 2048 := by simpa using hl1
    rw [show Mem.alloc s.pool 96 = _ from e1]
    simp only
    rcases alloc_small P1 (n := 104) (by decide) (by decide) with ⟨e2, hf⟩ | ⟨e, p2, e2, he, P2⟩
    · obtain ⟨p3, e3, P3⟩ := free_small P1
      have hl3 : (p3.usable 0).length + (owned s).length = 2048 := P3.length
      have hf' : (owned s).length + 1 = 2048 := by simpa using hf
      simp only [e2, e3]
      exact ⟨fun h => by omega, fun h => ⟨trivial, trivial, by omega⟩⟩
    · have hl2 : (p2.usable 0).length + ((owned s).length + 1 + 1) = 2048 := by simpa using P2.length
      simp only [e2]
      exact ⟨fun h => ⟨c, e, rfl, by omega⟩, fun h => by omega⟩

theorem quiet_ended (s : Timer.St) : ∀ {es w s'}, Timer.expireQuiet s = some (es, w, s') → ∀ m, BHeap.minNode s'.heap = some m → s'.now < s'.heap.key m := by
  fun_induction Timer.expireQuiet s with
  | case1 s h => intro es w s' e m hm; simp only [Option.some.injEq, Prod.mk.injEq] at e; obtain ⟨-, -, rfl⟩ := e; rw [h] at hm; cases hm
  | case2 s m h hk =>
    intro es w s' e m' hm
    simp only [Option.some.injEq, Prod.mk.injEq] at e
    obtain ⟨-, -, rfl⟩ := e
    rw [h] at hm
    cases hm
    exact hk
  | case3 => intro es w s' e; cases e
  | case4 s m h hk s1 h1 hn ih =>
    intro es w s' e m' hm
    simp only [Option.map_eq_some_iff] at e
    obtain ⟨⟨es', w', s3⟩, e1, e2⟩ := e
    simp only [Prod.mk.injEq] at e2
    obtain ⟨-, -, rfl⟩ := e2
    exact ih e1 m' hm
  | case5 => intro es w s' e; cases e

theorem expire_ended (s : St) (cbs : List (List Act)) (h : (expire s cbs).stop = none) :
    ∀ m, BHeap.minNode (expire s cbs).tm.heap = some m → (expire s cbs).tm.now < (expire s cbs).tm.heap.key m := by
  induction cbs generalizing s with
  | nil =>
    rw [expire] at h ⊢
    split at h
    · rename_i hs; rw [h] at hs; simp at hs
    · rename_i hs
      rw [if_neg hs]
      split at h
      · cases h
      · rename_i es w tm e
        intro m hm
        exact quiet_ended _ e m hm
  | cons cb rest ih =>
    rw [expire] at h ⊢
    split at h
    · rename_i hs; rw [h] at hs; simp at hs
    · rename_i hs
      rw [if_neg hs]
      cases hm : BHeap.minNode s.tm.heap with
      | none => intro m hm'; rw [hm] at hm'; cases hm'
      | some m =>
        simp only [hm] at h ⊢
        split at h
        · rename_i hk
          rw [if_pos hk]
          intro m' hm'
          rw [hm] at hm'
          cases hm'
          exact hk
        · rename_i hk
          rw [if_neg hk]
          split at h
          · cases h
          · exact ih _ h

/-- C87. An expiry pass fires timers until the one at the root of the heap is not due, whatever the callbacks do. That this is the earliest
armed timer is C22, with the exception stated there. -/
theorem c87_pass (base : Nat → Nat) (now : Int) (ops : List Op) (cbs : List (List Act)) (hs : (run (init base now) (ops ++ [.expire cbs])).stop = none) :
    ∀ m, BHeap.minNode (run (init base now) (ops ++ [.expire cbs])).tm.heap = some m →
      (run (init base now) (ops ++ [.expire cbs])).tm.now < (run (init base now) (ops ++ [.expire cbs])).tm.heap.key m := by
  have e : run (init base now) (ops ++ [.expire cbs]) = step (run (init base now) ops) (.expire cbs) := by rw [run, List.foldl_append]; rfl
  rw [e] at hs ⊢
  have hn : (run (init base now) ops).stop.isSome = false := by
    cases hq : (run (init base now) ops).stop with
    | none => rfl
    | some x => rw [step, if_pos (by rw [hq]; rfl), hq] at hs; cases hs
  rw [step, if_neg (by rw [hn]; simp)] at hs ⊢
  exact expire_ended _ _ hs

/-- Case for `c87_pass`: a connection's timer fires, its callback opens another and arms it; the resolver's timer is left at the root. -/
example : let s := run (init (fun i => i * 10000000) 0) ([.act .dnsInit, .act .open, .act (.arm 0 5), .clock 10] ++ [.expire [[.close 0, .open]]])
    s.stop = none ∧ BHeap.minNode s.tm.heap = some 0 ∧ s.tm.heap.key 0 = 30000 ∧ s.log.getLast? = some (.opened 4) := by decide +kernel

/-! ### A concrete history -/

/-- Two connections, one timed out while the other is re-armed by the callback and its block is then used again. -/
def sample : List Op :=
  [.act .dnsInit, .act .open, .act (.arm 0 5), .act .open, .act (.arm 1 7000), .clock 10,
   .expire [[.close 0, .arm 0 100, .open]], .act (.close 0)]

example : (run (init (fun i => i * 10000000) 0) sample).log =
    [.opened 0, .tm (.arm 0 30000), .opened 2, .tm (.arm 2 5), .opened 4, .tm (.arm 4 7000), .tm (.fire 2 10), .tm (.cancel 2), .freed 2,
     .tm (.arm 4 110), .opened 6, .tm (.cancel 4), .freed 4] := by decide +kernel

example : (run (init (fun i => i * 10000000) 0) sample).stop = none ∧ ∀ op ∈ sample, op.fits := by
  refine ⟨by decide +kernel, ?_⟩
  intro op hop
  simp only [sample, List.mem_cons, List.not_mem_nil, or_false] at hop
  rcases hop with rfl | rfl | rfl | rfl | rfl | rfl | rfl | rfl <;> simp [Op.fits, Act.fits]

theorem drained : ∀ (k : Nat) {s : St} {w : World}, Inv s w → s.stop = none → k ≤ (s.pool.usable 0).length →
    ((run s (List.replicate k (.act (.other 1)))).pool.usable 0).length + k = (s.pool.usable 0).length
  | 0, s, w, I, _, _ => rfl
  | k + 1, s, w, I, hs, hk => by
    have hstep : step s (.act (.other 1)) = other s 1 := by simp [step, act, hs]
    obtain ⟨es, -, -, I1, -⟩ := (other_step I 1).1
    have hs1 : (other s 1).stop = none := ((other_step I 1).2 (by decide) (by decide)).trans hs
    have hl := I.pool.length
    have hlen : ((other s 1).pool.usable 0).length + 1 = (s.pool.usable 0).length := by
      unfold other
      rcases alloc_small I.pool (n := 1) (by decide) (by decide) with ⟨e1, hf⟩ | ⟨j, p1, e1, -, P1⟩
      · omega
      · have := P1.length
        simp only [e1]
        simp only [List.length_cons] at this
        omega
    have := drained k I1 hs1 (by omega)
    rw [List.replicate_succ, run, List.foldl_cons, hstep]
    rw [run] at this
    omega

/-- Both cases of `c87_open` occur: after the sample there is room, and after 2047 small blocks are taken there is not. -/
example : ((run (init (fun i => i * 10000000) 0) (List.replicate 2047 (.act (.other 1)))).pool.usable 0).length = 1 := by
  have h2 : ((init (fun i => i * 10000000) 0).pool.usable 0).length = 2048 := by simp only [init, Mem.init, Mem.count, List.length_range]
  have h := fun k => drained k (init_inv (fun i => i * 10000000) 0) rfl
  have h3 := h 2047 (by omega)
  rw [h2] at h3
  exact Nat.add_right_cancel (m := 2047) h3

example : ((run (init (fun i => i * 10000000) 0) sample).pool.usable 0).length = 2045 := by decide +kernel

/-- C87. A pool call that does not return is not overlooked: the run has ended, with what it was. -/
theorem c87_stop_seen (s : St) (b : Nat × Nat) : ((giveBack s b).stop = none → ∃ r p, Mem.free s.pool b.1 b.2 = .next r p) ∧
    (Mem.free s.pool b.1 b.2 = .hang → (giveBack s b).stop = some .hang) ∧
    (Mem.free s.pool b.1 b.2 = .assertFail → (giveBack s b).stop = some .assertFail) ∧
    (Mem.free s.pool b.1 b.2 = .corrupt → (giveBack s b).stop = some .exhausted) := by
  unfold giveBack
  cases h : Mem.free s.pool b.1 b.2 <;> simp [poolStop]

/-- Case: a pool whose lock is held - a call from a signal handler - never returns. -/
example : (giveBack { init (fun _ => 0) 0 with pool := { Mem.init (fun _ => 0) with locked := true } } (0, 0)).stop = some .hang := by decide +kernel

end Verif.Conns
