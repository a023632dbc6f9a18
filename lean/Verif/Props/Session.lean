/-
C47: the objects of a session are released exactly once, and none is used after its release.

In the model a use of a released object, a use of a NULL pointer and a second release are faults, so "released at most once and not used
afterwards" is the absence of faults, and "released at least once" is that timers alone always lead to a state in which nothing is allocated.
The code violates both in the situations `Unlucky` of the specification; each is shown to be a real violation below.
-/
import Verif.Proofs.Session

namespace Verif.Session

/-- C47, no fault: in every state of a session of either program, whatever event comes next and however its system calls end, the step uses no
released object and releases nothing twice. Full claim: also for the situations in `Unlucky`, where it is false (counterexamples below). -/
theorem c47_no_fault_partial {client : Bool} {w : W} (h : Reach client w) (e : Ev) (he : ¬ Unlucky w e) : ∃ w', step w e = .ok w' :=
  reach_step h he

/-- C47, no leak: whenever the program waits and any object of the session is allocated, a timer is armed on one of its connections; and
however the timers expire from then on, after at most six expiries nothing is left, without any help from the peers. -/
theorem c47_released_partial {client : Bool} {w w' : W} {n : Nat} (h : Reach client w) (hw : Waiting w) (he : Expiries w n w') :
    n ≤ 6 ∧ (SomethingLive w' → TimerArmed w') ∧ (n = 6 → ¬ SomethingLive w') := by
  obtain ⟨hr, hq, hle⟩ := expiries_bound h hw he
  have := rank_le w
  refine ⟨by omega, reach_timer hr hq, fun h6 hl => ?_⟩
  obtain ⟨i, hi, -⟩ := reach_timer hr hq hl
  have h0 : rank w' = 0 := by omega
  have hpos : ∀ c : Con, c.life = .live → 0 < conRank c := by
    intro c hc
    unfold conRank
    rw [if_pos hc]
    split <;> omega
  unfold rank at h0
  cases i with
  | down => have := hpos _ hi; simp only [W.con] at this; omega
  | up => have := hpos _ hi; simp only [W.con] at this; omega
  | dns => have := hpos _ hi; simp only [W.con] at this; omega

/-- C47, descriptors: unless `connect` fails at once, no descriptor is closed twice. -/
theorem c47_closed_once_partial {client : Bool} {w : W} (h : ReachC client w) : w.twice = false := reachC_once h

/-- The steps of a server session up to the point where the upstream address is looked up. -/
def untilLookup : List Ev := .ready .down false :: List.replicate 6 (.out .ok .done)

/-- Case for `c47_no_fault_partial`, `c47_released_partial` and `c47_closed_once_partial`, a complete history: a session over a resolved name carries data both ways, the client closes, the TLS shutdown waits and is finished by its
timer. Everything is released. -/
theorem c47_example : ∃ w, runAll (start false) (untilLookup ++ [.out .ok .done, .out .ok .done, .out .ok .done, .out (.wait false) .done,
      .ready .dns false, .out .ok .done, .out (.wait true) .done, .ready .up true, .out .ok .done, .out .ok .done, .out .ok .done,
      .out .ok .done, .out .ok .done, .out (.wait false) .done, .ready .up false, .out .ok .done, .out .ok .done, .out (.wait false) .done,
      .ready .down false, .out .err (.wait false), .timer .down, .out .ok .done]) = .ok w ∧
    Waiting w ∧ ¬ SomethingLive w ∧ w.down.life = .freed ∧ w.up.life = .freed ∧ w.dcon.life = .freed ∧ w.ses = .freed ∧ w.adata = .freed ∧
    w.dns = .freed := by
  refine ⟨_, rfl, ?_⟩
  unfold Waiting SomethingLive
  decide

/-- The hypotheses of the theorems are met by a state in the middle of that history, with all six objects allocated. -/
theorem c47_example_reach : ∃ w, Reach false w ∧ Waiting w ∧ w.down.life = .live ∧ w.up.life = .live ∧ w.dcon.life = .live ∧ w.ses = .live ∧
    w.adata = .live ∧ w.dns = .live ∧ ∃ w', Expiries w 2 w' ∧ ¬ SomethingLive w' := by
  have step1 : ∀ {w w' e}, Reach false w → (step w e = .ok w' ∧ ¬ Unlucky w e) → Reach false w' := fun h p => .step h p.2 p.1
  refine ⟨_, step1 (e := .out (.wait false) .done) (step1 (e := .out .ok .done) (step1 (e := .out .ok .done) (step1 (e := .out .ok .done)
    (step1 (e := .out .ok .done) (step1 (e := .out .ok .done) (step1 (e := .out .ok .done) (step1 (e := .out .ok .done)
    (step1 (e := .out .ok .done) (step1 (e := .out .ok .done) (step1 (e := .ready .down false) .start ⟨rfl, by decide⟩) ⟨rfl, by decide⟩)
    ⟨rfl, by decide⟩) ⟨rfl, by decide⟩) ⟨rfl, by decide⟩) ⟨rfl, by decide⟩) ⟨rfl, by decide⟩) ⟨rfl, by decide⟩) ⟨rfl, by decide⟩)
    ⟨rfl, by decide⟩) ⟨rfl, by decide⟩, rfl, rfl, rfl, rfl, rfl, rfl, rfl, _,
    .succ (i := .dns) (o := .ok) (sd := .wait true) (by decide) rfl (by decide) rfl
      (.succ (i := .down) (o := .ok) (sd := .done) (by decide) rfl (by decide) rfl .zero), ?_⟩
  unfold SomethingLive
  decide

/-- C47 is false, use after release: the client's connection breaks while its name is being resolved; the session is released, and the
resolver, which is not, uses it when the answer arrives, whatever the answer is, or when it times out. -/
theorem c47_dns_reset_counterexample : (∀ o, o = .ok ∨ o = .ok2 ∨ o = .err → ∀ sd,
      runAll (start false) (untilLookup ++ [.out .ok .done, .out .ok .done, .out .ok .done, .out (.wait false) .done, .ready .down false,
        .out .err .done, .ready .dns false, .out o sd]) = .error .useAfterFree) ∧
    (∀ o sd, runAll (start false) (untilLookup ++ [.out .ok .done, .out .ok .done, .out .ok .done, .out (.wait false) .done, .ready .down false,
        .out .err .done, .timer .dns, .out o sd]) = .error .useAfterFree) := by
  refine ⟨fun o ho sd => ?_, fun o sd => ?_⟩
  · rcases ho with rfl | rfl | rfl <;> rfl
  · rfl

/-- C47 is false, NULL pointer: when the resolver's connection, buffer or socket cannot be had, `s5_cup_dns_cb` runs before `ses->dns` is set
and releases the NULL pointer. Running out of descriptors therefore ends the worker. -/
theorem c47_dns_setup_counterexample : ∀ o, o = .mem2 ∨ o = .mem3 → ∀ sd,
    runAll (start false) (untilLookup ++ [.out o sd]) = .error .null := by
  intro o ho sd
  rcases ho with rfl | rfl <;> rfl

/-- C47 is false, leak: when the resolver record cannot be allocated the session stays, with no timer armed anywhere. -/
theorem c47_dns_leak_counterexample : ∃ w, runAll (start false) (untilLookup ++ [.out .mem1 .done]) = .ok w ∧ Waiting w ∧ w.ses = .live ∧
    w.down.life = .live ∧ w.up.life = .live ∧ ¬ TimerArmed w := by
  refine ⟨_, rfl, rfl, rfl, rfl, rfl, ?_⟩
  rintro ⟨i, -, hi⟩
  cases i <;> exact hi rfl

/-- C47 is false in the client program: a TLS handshake that waits twice is timed by `ssl_cexp`, which releases the upstream connection alone.
The local connection is left without a timer, and its next failure releases the upstream connection again. -/
theorem c47_handshake_timeout_counterexample : ∃ w, runAll (start true) [.ready .down false, .out .ok .done, .out .ok .done,
      .out (.wait false) .done, .ready .up false, .out (.wait false) .done, .timer .up, .out .ok .done] = .ok w ∧ Waiting w ∧
    w.up.life = .freed ∧ w.down.life = .live ∧ w.ses = .live ∧ ¬ TimerArmed w ∧
    ∀ sd, runAll w [.ready .down false, .out .err sd] = .error .useAfterFree := by
  refine ⟨_, rfl, rfl, rfl, rfl, rfl, ?_, fun sd => rfl⟩
  rintro ⟨i, -, hi⟩
  cases i <;> exact hi rfl

/-- C47 is false for descriptors: after an immediate failure of `connect` (for example: network unreachable) the descriptor is closed by
`net_connect` and again by `net_free_direct`. -/
theorem c47_double_close_counterexample : ∃ w, runAll (start false) (untilLookup ++ [.out .ok2 .done, .out .err .done]) = .ok w ∧
    w.twice = true := ⟨_, rfl, rfl⟩

/-! ### The course of a session -/

theorem bind_ok {α β : Type} {x : M α} {f : α → M β} {b : β} (h : x >>= f = .ok b) : ∃ a, x = .ok a ∧ f a = .ok b := by
  cases x with
  | ok a => exact ⟨a, rfl, h⟩
  | error e => cases h

theorem bind_iff {α β : Type} {x : M α} {f : α → M β} {b : β} : x >>= f = .ok b ↔ ∃ a, x = .ok a ∧ f a = .ok b := by
  refine ⟨bind_ok, ?_⟩
  rintro ⟨a, h, h'⟩
  rw [h]; exact h'

theorem releaseSes_ok {w w' : W} (h : releaseSes w = .ok w') (j : Id) : w'.con j = w.con j := by
  unfold releaseSes at h
  simp only [bind_iff] at h
  obtain ⟨-, -, h⟩ := h
  split at h <;> simp only [bind_iff] at h
  · obtain ⟨a, -, b, -, h⟩ := h
    cases h
    cases j <;> rfl
  · obtain ⟨a, -, b, -, h⟩ := h
    cases h
    cases j <;> rfl

theorem freeDirect_ok {w w' : W} {i : Id} (h : netFreeDirect w i = .ok w') : (w'.con i).life = .freed ∧ ∀ j, j ≠ i → w'.con j = w.con j := by
  unfold netFreeDirect at h
  obtain ⟨c, h1, h⟩ := bind_ok h
  have h' : ∃ w1, (if i = .down ∧ c.data then releaseSes (if c.closed then { w with twice := true } else w) else .ok (if c.closed then { w with twice := true } else w)) = .ok w1 ∧
      (free c.life >>= fun l => Except.ok (w1.set i { noCon with life := l })) = .ok w' := by
    dsimp only at h
    split at h
    · obtain ⟨w1, g1, g2⟩ := bind_ok h
      exact ⟨w1, by rw [if_pos (by assumption)]; exact g1, g2⟩
    · obtain ⟨w1, g1, g2⟩ := bind_ok h
      exact ⟨w1, by rw [if_neg (by assumption)]; exact g1, g2⟩
  obtain ⟨w1, h2, h⟩ := h'
  obtain ⟨l, h3, h⟩ := bind_ok h
  cases h
  have hl : l = .freed := by
    unfold free at h3
    split at h3 <;> cases h3
    rfl
  have hc : ∀ j, w1.con j = w.con j := by
    intro j
    split at h2
    · rw [releaseSes_ok h2]
      split <;> cases j <;> rfl
    · cases h2
      split <;> cases j <;> rfl
  subst hl
  refine ⟨by cases i <;> rfl, fun j hj => ?_⟩
  rw [← hc]
  cases i <;> cases j <;> first | rfl | exact absurd rfl hj

theorem netFree_ok {w w' : W} {i : Id} (h : netFree w i .done = .ok w') : (w'.con i).life = .freed ∧ ∀ j, j ≠ i → w'.con j = w.con j := by
  unfold netFree at h
  obtain ⟨c, -, h⟩ := bind_ok h
  split at h
  · rename_i h2; cases h2
  · exact freeDirect_ok h

theorem freeDown_ok {w w' : W} (h : freeDown w .done = .ok w') : w'.down.life = .freed ∧ w'.call = none := by
  unfold freeDown at h
  obtain ⟨w1, h1, h⟩ := bind_ok h
  cases h
  exact ⟨(netFree_ok h1).1, rfl⟩

theorem freeBoth_ok {w w' : W} (h : freeBoth w .done = .ok w') : w'.down.life = .freed ∧ w'.up.life = .freed ∧ w'.call = none := by
  unfold freeBoth at h
  obtain ⟨-, -, h⟩ := bind_ok h
  split at h
  · obtain ⟨w1, h1, h⟩ := bind_ok h
    obtain ⟨w2, h2, h⟩ := bind_ok h
    cases h
    refine ⟨(netFree_ok h2).1, ?_, rfl⟩
    have a := (netFree_ok h1).1
    have b := (netFree_ok h2).2 .up (by simp)
    show (w2.con .up).life = .freed
    rw [b]; exact a
  · cases h

theorem dnsResult_ok {w w' : W} (h : dnsResult w false .done = .ok w') : w'.down.life = .freed ∧ w'.up.life = .freed ∧ w'.call = none := by
  unfold dnsResult dnsCb at h
  obtain ⟨-, -, h⟩ := bind_ok h
  obtain ⟨-, -, h⟩ := bind_ok h
  obtain ⟨-, -, h⟩ := bind_ok h
  obtain ⟨w1, -, h⟩ := bind_ok h
  exact freeBoth_ok h

theorem found_ok {w w' : W} (h : dnsResult w true .done = .ok w') : w'.call = some (.connect, .up) := by
  unfold dnsResult dnsCb at h
  simp only [bind_iff] at h
  obtain ⟨-, -, -, -, -, -, w1, -, h⟩ := h
  simp only [if_true] at h
  split at h
  · simp only [bind_iff] at h
    obtain ⟨-, -, h⟩ := h
    cases h; rfl
  · cases h

/-- C47, failures: when a system call of a function of the session fails and no TLS shutdown has to be waited for, the client connection is released at once, and with it the
upstream connection as soon as there is one; nothing is called afterwards. -/
theorem c47_failure {w w' : W} {f : Cb} {i : Id} (hc : w.call = some (f, i)) (h : step w (.out .err .done) = .ok w') :
    (early f = true → w'.down.life = .freed ∧ w'.call = none) ∧ (late f = true → w'.down.life = .freed ∧ w'.up.life = .freed ∧ w'.call = none) := by
  unfold step at h
  rw [hc] at h
  simp only at h
  cases f <;> simp only [early, late, run1, Bool.false_eq_true, false_implies, true_implies, and_true, true_and] at h ⊢
  all_goals
    simp only [auth, p1req, p1rsp, p2req, cupAddr, tryRead, connect, connectChk, p2rsp, recv, send, rrecv, rsend, cAccept, cRecv, cChk, cAuthSend, dnsSend, dnsRecv, bind_iff] at h
    first
    | (exact freeDown_ok h)
    | (obtain ⟨-, -, h⟩ := h; exact freeDown_ok h)
    | (obtain ⟨-, -, -, -, h⟩ := h; exact freeDown_ok h)
    | (obtain ⟨-, -, -, -, -, -, h⟩ := h; exact freeDown_ok h)
    | (obtain ⟨-, -, -, -, -, -, -, -, h⟩ := h; exact freeDown_ok h)
    | (exact freeBoth_ok h)
    | (obtain ⟨-, -, h⟩ := h; exact freeBoth_ok h)
    | (obtain ⟨-, -, -, -, h⟩ := h; exact freeBoth_ok h)
    | (obtain ⟨-, -, -, -, -, -, h⟩ := h; exact freeBoth_ok h)
    | (obtain ⟨-, -, -, -, -, -, -, -, h⟩ := h; exact freeBoth_ok h)
    | (exact dnsResult_ok h)
    | (obtain ⟨-, -, h⟩ := h; exact dnsResult_ok h)
    | (obtain ⟨-, -, -, -, h⟩ := h; exact dnsResult_ok h)
    | (obtain ⟨-, -, -, -, -, -, h⟩ := h; exact dnsResult_ok h)
    | (obtain ⟨-, -, -, -, -, -, -, -, h⟩ := h; exact dnsResult_ok h)

/-- C47, success: each function of the session is followed by the next one. -/
theorem c47_goes_on {w w' : W} {f g : Cb} {i j : Id} (hc : w.call = some (f, i)) (hf : follows f = some (g, j)) (h : step w (.out .ok .done) = .ok w') :
    w'.call = some (g, j) := by
  unfold step at h
  rw [hc] at h
  simp only at h
  cases f <;> simp only [follows, run1, reduceCtorEq, Option.some.injEq, Prod.mk.injEq] at h hf
  all_goals
    obtain ⟨rfl, rfl⟩ := hf
    simp only [auth, p1req, p1rsp, p2req, cupAddr, connect, connectChk, p2rsp, proc, recv, rrecv, cAccept, cChk, cBuild, cAuthSend, dnsPacket, dnsSend, dnsRecv, bind_iff] at h
    first
    | (cases h; rfl)
    | (obtain ⟨-, -, h⟩ := h; cases h; rfl)
    | (obtain ⟨-, -, -, -, h⟩ := h; cases h; rfl)
    | (obtain ⟨-, -, -, -, -, -, h⟩ := h; cases h; rfl)
    | (obtain ⟨-, -, -, -, -, -, -, -, h⟩ := h; cases h; rfl)
    | (obtain ⟨-, -, -, -, h⟩ := h; exact found_ok h)

/-- C47, waiting: when a system call would block - and the stream of the relay has not ended before -, the function returns, and nothing is released. -/
theorem c47_waits {w w' : W} {f : Cb} {i : Id} {b : Bool} {sd : Sd} (hc : w.call = some (f, i)) (h : step w (.out (.wait b) sd) = .ok w') (hf : early f = true ∨ late f = true)
    (h1 : f ≠ .cupAddr ∧ f ≠ .connectChk ∧ f ≠ .cChk ∧ f ≠ .cAccept) (h2 : w.flag = false ∧ w.flagUp = false) :
    w'.call = none ∧ w'.ses = w.ses ∧ ∀ j, (w'.con j).life = (w.con j).life := by
  unfold step at h
  rw [hc] at h
  simp only at h
  cases f <;> simp only [early, late, run1, reduceCtorEq, or_self, or_true, true_or, ne_eq, not_true, not_false_eq_true, and_true, and_false, and_self,
    Bool.false_eq_true] at h hf h1
  all_goals
    simp only [auth, p1req, p1rsp, p2req, tryRead, connect, p2rsp, recv, send, rrecv, rsend, cRecv, cAuthSend, dnsSend, dnsRecv, bind_iff] at h
    first
    | (obtain ⟨-, -, h⟩ := h; cases h; exact ⟨rfl, rfl, fun j => by cases j <;> rfl⟩)
    | (obtain ⟨-, -, -, -, h⟩ := h; cases h; exact ⟨rfl, rfl, fun j => by cases j <;> rfl⟩)
    | (obtain ⟨-, -, -, -, -, -, h⟩ := h; cases h; exact ⟨rfl, rfl, fun j => by cases j <;> rfl⟩)
    | (obtain ⟨-, -, -, -, -, -, h⟩ := h
       rw [if_neg (by simp only [tmAdd, W.set, h2, Bool.false_eq_true, not_false_eq_true])] at h
       cases h; exact ⟨rfl, rfl, fun j => by cases j <;> rfl⟩)

/-- C47: data that the client of a session sends early - while the upstream connection is made - is kept, and the session goes on. -/
theorem c47_early_data {w w' : W} {i : Id} {sd : Sd} (hc : w.call = some (.cRecv, i) ∨ w.call = some (.tryRead, i)) (h : step w (.out .ok sd) = .ok w') :
    w'.call = none ∧ w'.ses = w.ses ∧ ∀ j, w'.con j = w.con j := by
  unfold step at h
  rcases hc with hc | hc <;> rw [hc] at h <;> simp only [run1, cRecv, tryRead, bind_iff] at h <;> obtain ⟨-, -, h⟩ := h <;> cases h <;>
    exact ⟨rfl, rfl, fun j => by cases j <;> rfl⟩

/-- The relay, once both directions run: what was received is sent, and when all was sent, more is received - unless the stream has ended, in which case all is released. -/
theorem c47_relay {w w' : W} {i : Id} (h : step w (.out .ok .done) = .ok w') :
    (w.call = some (.send, i) → if w.flag then w'.down.life = .freed ∧ w'.up.life = .freed ∧ w'.call = none else w'.call = some (.recv, .down)) ∧
    (w.call = some (.rsend, i) → if w.flagUp then w'.down.life = .freed ∧ w'.up.life = .freed ∧ w'.call = none else w'.call = some (.rrecv, .up)) := by
  constructor <;>
    (intro hc
     unfold step at h
     rw [hc] at h
     simp only [run1, send, rsend, bind_iff] at h
     obtain ⟨-, -, -, -, -, -, h⟩ := h
     split at h
     · rename_i hf
       rw [if_pos (by exact hf)]
       exact freeBoth_ok h
     · rename_i hf
       rw [if_neg (by exact hf)]
       cases h; rfl)

/-- Case: a session in which `connect` succeeds, and one in which the check of the connection fails: the client's SOCKS5 answer follows, or all is released. -/
example : (∃ w, runAll (start false) (untilLookup ++ [.out .ok2 .done, .out .ok .done]) = .ok w ∧ w.call = some (.connectChk, .up)) ∧
    (∃ w, runAll (start false) (untilLookup ++ [.out .ok2 .done, .out .ok .done, .out .ok .done]) = .ok w ∧ w.call = some (.p2rsp, .down)) ∧
    (∃ w, runAll (start false) (untilLookup ++ [.out .ok2 .done, .out .ok .done, .out .err .done]) = .ok w ∧ ¬ SomethingLive w) :=
  ⟨⟨_, rfl, rfl⟩, ⟨_, rfl, rfl⟩, ⟨_, rfl, by unfold SomethingLive; decide⟩⟩

/-- Using what was never made and using what was released are different faults, as are releasing them. -/
theorem c47_faults : use .absent = .error .null ∧ use .freed = .error .useAfterFree ∧ free .absent = .error .null ∧ free .freed = .error .doubleFree ∧
    use .live = .ok () ∧ free .live = .ok .freed := ⟨rfl, rfl, rfl, rfl, rfl, rfl⟩

end Verif.Session
