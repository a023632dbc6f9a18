import Verif.Proofs.WorkerInv
import Verif.Props.Tunnel
import Verif.Props.Mem
/-
Property C101: sessions in one worker do not mix.
-/
namespace Verif.Worker
open Verif Verif.Net Verif.Tunnel

/-- The list of independent sessions, one by one. -/
theorem spec_foldl : ∀ (h : List (Act × Out)) (l : List Sess) (k : Nat) (t : Sess), (h.foldl Spec.step l)[k]? = some t →
    (∃ t0, l[k]? = some t0 ∧ t = Tunnel.run t0 (Spec.eventsOf k l.length h)) ∨
    (l.length ≤ k ∧ ∃ v : Spec.Env, (Spec.starts h)[k - l.length]? = some v ∧
      t = Tunnel.run (Tunnel.proc v.early v.srcUp v.dstUp v.srcDown v.dstDown) (Spec.eventsOf k l.length h))
  | [], l, k, t, hk => by
    left
    exact ⟨t, hk, rfl⟩
  | (a, o) :: h, l, k, t, hk => by
    rw [List.foldl_cons] at hk
    have ih := spec_foldl h (Spec.step l (a, o)) k t hk
    have same : Spec.step l (a, o) = l → Spec.starts ((a, o) :: h) = Spec.starts h →
        (∀ n, Spec.eventsOf k n ((a, o) :: h) = Spec.eventsOf k n h) →
        (∃ t0, l[k]? = some t0 ∧ t = Tunnel.run t0 (Spec.eventsOf k l.length ((a, o) :: h))) ∨
        (l.length ≤ k ∧ ∃ v : Spec.Env, (Spec.starts ((a, o) :: h))[k - l.length]? = some v ∧
          t = Tunnel.run (Tunnel.proc v.early v.srcUp v.dstUp v.srcDown v.dstDown) (Spec.eventsOf k l.length ((a, o) :: h))) := fun e1 e2 e3 => by
      rw [e1] at ih
      rw [e2, e3]
      exact ih
    cases a with
    | start early srcUp dstUp srcDown dstDown =>
      cases o with
      | started =>
        have e1 : Spec.step l (.start early srcUp dstUp srcDown dstDown, .started) =
          l ++ [Tunnel.proc early srcUp dstUp srcDown dstDown] := rfl
        rw [e1] at ih
        simp only [List.length_append, List.length_singleton] at ih
        have e2 : Spec.eventsOf k l.length ((.start early srcUp dstUp srcDown dstDown, .started) :: h) = Spec.eventsOf k (l.length + 1) h := rfl
        rw [e2]
        have e3 : Spec.starts ((.start early srcUp dstUp srcDown dstDown, .started) :: h) =
          ⟨early, srcUp, dstUp, srcDown, dstDown⟩ :: Spec.starts h := rfl
        rw [e3]
        rcases ih with ⟨t0, h1, h2⟩ | ⟨h1, v, h2, h3⟩
        · rcases Nat.lt_or_ge k l.length with hlt | hge
          · left
            rw [List.getElem?_append_left hlt] at h1
            exact ⟨t0, h1, h2⟩
          · right
            rw [List.getElem?_append_right hge] at h1
            have hz : k - l.length = 0 := by
              obtain ⟨h4, -⟩ := List.getElem?_eq_some_iff.mp h1
              simpa using h4
            rw [hz] at h1 ⊢
            simp only [List.getElem?_cons_zero, Option.some.injEq] at h1
            subst h1
            exact ⟨hge, _, rfl, h2⟩
        · right
          refine ⟨by omega, v, ?_, h3⟩
          have : k - l.length = (k - (l.length + 1)) + 1 := by omega
          rw [this, List.getElem?_cons_succ]
          exact h2
      | refused => exact same rfl rfl fun _ => rfl
      | done => exact same rfl rfl fun _ => rfl
    | event j e =>
      have e2 : Spec.starts ((.event j e, o) :: h) = Spec.starts h := by cases o <;> rfl
      rw [e2]
      have e3 : Spec.eventsOf k l.length ((.event j e, o) :: h) =
          if j = k ∧ k < l.length then e :: Spec.eventsOf k l.length h else Spec.eventsOf k l.length h := by cases o <;> rfl
      rw [e3]
      have e1 : Spec.step l (.event j e, o) = match l[j]? with
          | none => l
          | some s => l.set j (Tunnel.step s e) := by cases o <;> rfl
      rw [e1] at ih
      cases hj : l[j]? with
      | none =>
        rw [hj] at ih
        dsimp only at ih
        rw [if_neg]
        · exact ih
        · rintro ⟨rfl, hlt⟩
          rw [List.getElem?_eq_getElem hlt] at hj
          simp at hj
      | some s =>
        rw [hj] at ih
        dsimp only at ih
        rw [List.length_set] at ih
        rcases ih with ⟨t0, h1, h2⟩ | ⟨h1, v, h2, h3⟩
        · left
          by_cases hjk : j = k
          · subst hjk
            obtain ⟨hlt, -⟩ := List.getElem?_eq_some_iff.mp hj
            rw [if_pos ⟨rfl, hlt⟩]
            rw [List.getElem?_set_self hlt] at h1
            simp only [Option.some.injEq] at h1
            subst h1
            exact ⟨s, hj, h2⟩
          · rw [if_neg fun c => hjk c.1]
            rw [List.getElem?_set_ne hjk] at h1
            exact ⟨t0, h1, h2⟩
        · right
          rw [if_neg (fun c => by omega)]
          exact ⟨h1, v, h2, h3⟩
    | alloc n => exact same (by cases o <;> rfl) (by cases o <;> rfl) fun _ => by cases o <;> rfl
    | free n => exact same (by cases o <;> rfl) (by cases o <;> rfl) fun _ => by cases o <;> rfl
    | write n off v => exact same (by cases o <;> rfl) (by cases o <;> rfl) fun _ => by cases o <;> rfl

/-- **C101.** Any number of sessions in one worker, with all their buffers in the memory of the pool, blocks taken, written and given back by the rest of the program at any
time, sessions starting and ending in any order: what each session sends to its target and to its client, and how it ends, is what the same session does alone, with
buffers of its own, on its own events. It depends on nothing that any other session does.

Missing: this holds as long as the pool's calls return properly; see `c101_exhausted_counterexample`. -/
theorem c101_alone_partial (base : Nat → Nat) (L : Mem.Layout base) (as : List Act) (ok : ∀ a ∈ as, okAct a) (os : List Out) (w : Wk)
    (h : run (init base) as = some (os, w)) (k : Nat) (s : MSess) (hk : w.sess[k]? = some s) :
    ∃ v : Spec.Env, (Spec.starts (as.zip os))[k]? = some v ∧
      (s.up.out, s.down.out, s.closed) =
        Spec.seen (Tunnel.run (Tunnel.proc v.early v.srcUp v.dstUp v.srcDown v.dstDown) (Spec.eventsOf k 0 (as.zip os))) := by
  obtain ⟨-, lv, H⟩ := run_inv L as (init_inv base) ok h
  obtain ⟨t, ht⟩ : ∃ t, ((as.zip os).foldl Spec.step [])[k]? = some t := by
    obtain ⟨hlt, -⟩ := List.getElem?_eq_some_iff.mp hk
    have := H.ag.length_eq
    exact ⟨_, List.getElem?_eq_getElem (by omega)⟩
  have hsa : SA w.pool.mem s t := by
    have := (List.forall₂_iff_get.mp H.ag).2 k
    obtain ⟨h1, h2⟩ := List.getElem?_eq_some_iff.mp hk
    obtain ⟨h3, h4⟩ := List.getElem?_eq_some_iff.mp ht
    have := this h1 h3
    simpa only [List.get_eq_getElem, h2, h4] using this
  rcases spec_foldl (as.zip os) [] k t ht with ⟨t0, h1, -⟩ | ⟨-, v, h1, h2⟩
  · simp at h1
  · refine ⟨v, by simpa using h1, ?_⟩
    have h2' : t = Tunnel.run (Tunnel.proc v.early v.srcUp v.dstUp v.srcDown v.dstDown) (Spec.eventsOf k 0 (as.zip os)) := by simpa using h2
    rw [← h2']
    simp only [Spec.seen, hsa.upOut, hsa.downOut, hsa.closed]

theorem starts_ok {as : List Act} (ok : ∀ a ∈ as, okAct a) : ∀ (os : List Out) (v : Spec.Env), v ∈ Spec.starts (as.zip os) → v.early.length ≤ 12288 := by
  induction as with
  | nil => intro os v hv; simp [Spec.starts] at hv
  | cons a as ih =>
    intro os v hv
    cases os with
    | nil => simp [Spec.starts] at hv
    | cons o os =>
      have ih' := ih (fun a ha => ok a (by simp [ha])) os v
      have ha := ok a (by simp)
      rw [List.zip_cons_cons] at hv
      cases a <;> cases o <;> first
        | exact ih' hv
        | (simp only [Spec.starts, List.mem_cons] at hv
           rcases hv with rfl | hv
           · exact ha
           · exact ih' hv)

/-- **C101.** In particular no byte of one session ever reaches a peer of another: what a session has sent to its target is a prefix of what its own client sent, and what
it has sent to its client is a prefix of what its own target sent. -/
theorem c101_own_bytes_partial (base : Nat → Nat) (L : Mem.Layout base) (as : List Act) (ok : ∀ a ∈ as, okAct a) (os : List Out) (w : Wk)
    (h : run (init base) as = some (os, w)) (k : Nat) (s : MSess) (hk : w.sess[k]? = some s) :
    ∃ v : Spec.Env, (Spec.starts (as.zip os))[k]? = some v ∧ s.up.out <+: v.early ++ streamOf v.srcUp ∧ s.down.out <+: streamOf v.srcDown := by
  obtain ⟨v, h1, h2⟩ := c101_alone_partial base L as ok os w h k s hk
  have hv := starts_ok ok os v (List.mem_of_getElem? h1)
  simp only [Spec.seen, Prod.mk.injEq] at h2
  refine ⟨v, h1, ?_, ?_⟩
  · rw [h2.1]
    exact c07_relay_prefix_partial v.early hv v.srcUp v.dstUp v.srcDown v.dstDown _ .up
  · rw [h2.2.1]
    exact c07_relay_prefix_partial v.early hv v.srcUp v.dstUp v.srcDown v.dstDown _ .down

/-- **C101.** A block of the pool is in use exactly when the rest of the program holds it or it is a buffer of a session that has not ended: a session that ends leaves nothing
behind, and none gives back what is not its own. -/
theorem c101_released_partial (base : Nat → Nat) (L : Mem.Layout base) (as : List Act) (ok : ∀ a ∈ as, okAct a) (os : List Out) (w : Wk)
    (h : run (init base) as = some (os, w)) (i j : Nat) (hi : i < 6) :
    j ∈ w.pool.inuse i ↔ (i, j) ∈ w.held ∨ ∃ s ∈ w.sess, s.closed = none ∧ ((i, j) = s.up.blk ∨ (i, j) = s.down.blk) := by
  obtain ⟨-, lv, H⟩ := run_inv L as (init_inv base) ok h
  have h1 := H.mi.live i j
  rw [← H.all (i, j)] at h1
  have h2 : i < Mem.nclass := hi
  simp only [h2, true_and, List.nil_append, List.mem_append, List.mem_flatMap] at h1
  rw [← h1]
  apply or_congr Iff.rfl
  apply exists_congr
  intro s
  apply and_congr Iff.rfl
  unfold blks
  split
  · next hc =>
    obtain ⟨y, hy⟩ := Option.isSome_iff_exists.mp hc
    simp [hy]
  · next hc =>
    have : s.closed = none := by simpa using hc
    simp [this]

/-- **C101.** With a free block of the smallest and two of the largest size, a session that reaches its relay is started. -/
theorem c101_started (w : Wk) (early : List UInt8) (srcUp : List Rx) (dstUp : List Tx) (srcDown : List Rx) (dstDown : List Tx) (hl : w.pool.locked = false)
    (h0 : w.pool.usable 0 ≠ []) (h5 : 2 ≤ (w.pool.usable 5).length) :
    ∃ w', step w (.start early srcUp dstUp srcDown dstDown) = some (.started, w') ∧ w'.sess.length = w.sess.length + 1 ∧ w'.held = w.held := by
  cases hu : w.pool.usable 5 with
  | nil => simp [hu] at h5
  | cons j rest =>
    cases hr : rest with
    | nil => simp [hu, hr] at h5
    | cons j' rest' =>
      have hp : Mem.pick (Meta.hdr + cap) = some 5 := by decide
      have hn : ¬ ((Meta.hdr + cap : Int) ≤ 0) := by decide
      have e1 : bufAlloc w.pool = .next (.ptr 5 j) { w.pool with
            usable := Mem.upd w.pool.usable 5 rest
            inuse := Mem.upd w.pool.inuse 5 (w.pool.inuse 5 ++ [j])
            mem := Mem.zero w.pool.mem (w.pool.addr 5 j) (Mem.space 5) } := by
        simp only [bufAlloc, Mem.alloc, hn, hl, h0, hp, hu, if_false, Bool.false_eq_true]
      simp only [step, start, e1]
      have e2 : ∀ p : Mem.St, p.locked = false → p.usable 0 ≠ [] → p.usable 5 = j' :: rest' → ∃ p', bufAlloc p = .next (.ptr 5 j') p' ∧ p'.locked = false := by
        intro p g1 g2 g3
        exact ⟨{ p with
            usable := Mem.upd p.usable 5 rest'
            inuse := Mem.upd p.inuse 5 (p.inuse 5 ++ [j'])
            mem := Mem.zero p.mem (p.addr 5 j') (Mem.space 5) }, by
          simp only [bufAlloc, Mem.alloc, hn, g1, g2, hp, g3, if_false, Bool.false_eq_true], g1⟩
      obtain ⟨p', e3, e4⟩ := e2 { w.pool with
            usable := Mem.upd w.pool.usable 5 rest
            inuse := Mem.upd w.pool.inuse 5 (w.pool.inuse 5 ++ [j])
            mem := Mem.zero w.pool.mem (w.pool.addr 5 j) (Mem.space 5) } hl (by simpa [Mem.upd] using h0) (by simp [Mem.upd, hr])
      simp only [e3]
      have e5 : ∀ (p : Mem.St) (s : MSess), p.locked = false → ∃ p'', settle p s = some p'' := by
        intro p s g
        unfold settle
        split
        · simp [give, Mem.free, g]
        · exact ⟨p, rfl⟩
      generalize MSess.put _ _ _ = s
      obtain ⟨p'', e6⟩ := e5 { p' with mem := (trafficRecv (wr p'.mem (MDir.start' p' (5, j) early.length srcUp dstUp).start early)
        (MDir.start' p' (5, j) early.length srcUp dstUp)).1 } s e4
      rw [e6]
      exact ⟨_, rfl, by simp, rfl⟩

/-- Case: the worker that has just started. -/
example (base : Nat → Nat) : ∃ w', step (init base) (.start [] [.data 1 [2]] [.sent 1] [] []) = some (.started, w') ∧ w'.sess.length = 1 := by
  obtain ⟨w', h1, h2, -⟩ := c101_started (init base) [] [.data 1 [2]] [.sent 1] [] [] rfl
    (List.ne_nil_of_length_pos (by simp [init, Mem.init, Mem.count])) (by simp [init, Mem.init, Mem.count])
  exact ⟨w', h1, h2⟩

/-- Six areas that do not overlap. -/
def areas : Nat → Nat := fun i => i * 20000000

theorem areas_layout : Mem.Layout areas := by
  unfold Mem.Layout
  decide +kernel

/-- Two sessions at the same time, one with bytes received early; the second ends and a third starts. -/
def day : List Act :=
  [.start [] [.data 1 [2]] [.sent 1, .again, .sent 5] [] [], .start [9] [.data 3 []] [.sent 7] [.data 4 []] [.sent 1], .event 0 (.writable .up),
    .event 1 (.readable .down), .alloc 100, .write 0 7 42, .event 1 .timeout, .start [] [.data 8 []] [.sent 7] [] [], .free 0]

/-- What happens in it. -/
example : (run (init areas) day).map (fun r => (r.1, r.2.sess.map fun s => (s.up.out, s.down.out, s.closed))) =
    some ([.started, .started, .done, .done, .done, .done, .done, .started, .done],
      [([1, 2], [], none), ([9, 3], [4], some .timeout), ([8], [], none)]) := by decide +kernel

example : ∃ (os : List Out) (w : Wk) (s : MSess) (v : Spec.Env), run (init areas) day = some (os, w) ∧ w.sess[1]? = some s ∧
    (Spec.starts (day.zip os))[1]? = some v ∧ v.early = [9] ∧ s.up.out <+: v.early ++ streamOf v.srcUp := by
  have hok : ∀ a ∈ day, okAct a := by simp [day, okAct]
  have hs : (run (init areas) day).isSome = true := by decide +kernel
  obtain ⟨⟨os, w⟩, hr⟩ := Option.isSome_iff_exists.mp hs
  have h1 : (run (init areas) day).map (fun r => ((r.2.sess[1]?).isSome, ((Spec.starts (day.zip r.1))[1]?).map fun v => v.early)) =
    some (true, some [9]) := by decide +kernel
  rw [hr] at h1
  simp only [Option.map_some, Option.some.injEq, Prod.mk.injEq] at h1
  obtain ⟨s, hk⟩ := Option.isSome_iff_exists.mp h1.1
  obtain ⟨v, e1, e2, -⟩ := c101_own_bytes_partial areas areas_layout day hok os w hr 1 s hk
  rw [e1] at h1
  exact ⟨os, w, s, v, hr, hk, e1, by simpa using h1.2, e2⟩

/-- Afterwards four buffers of the largest class and no other block are in use. -/
example : (run (init areas) day).map (fun r => (List.range 6).map fun i => r.2.pool.inuse i) = some [[], [], [], [], [], [0, 1, 4, 5]] := by
  decide +kernel

theorem run_allocs (n : Int) : ∀ (m : Nat) (w : Wk) (rs : List Mem.Ret) (p : Mem.St),
    Mem.run w.pool (List.replicate m (.alloc n)) = some (rs, p) →
    ∃ os w', run w (List.replicate m (.alloc n)) = some (os, w') ∧ w'.pool = p
  | 0, w, rs, p, h => by
    simp only [List.replicate_zero, Mem.run, Option.some.injEq, Prod.mk.injEq] at h
    exact ⟨[], w, rfl, h.2⟩
  | m + 1, w, rs, p, h => by
    rw [List.replicate_succ] at h ⊢
    obtain ⟨r, p1, rs', hs, h1, -⟩ := Mem.run_cons h
    have hs' : Mem.alloc w.pool n = .next r p1 := hs
    cases r with
    | ptr i j =>
      obtain ⟨os, w', e1, e2⟩ := run_allocs n m { w with pool := p1, held := w.held ++ [(i, j)] } rs' p h1
      exact ⟨.done :: os, w', by simp only [run, step, hs', e1, Option.map_some], e2⟩
    | null =>
      obtain ⟨os, w', e1, e2⟩ := run_allocs n m { w with pool := p1 } rs' p h1
      exact ⟨.done :: os, w', by simp only [run, step, hs', e1, Option.map_some], e2⟩
    | done =>
      obtain ⟨os, w', e1, e2⟩ := run_allocs n m { w with pool := p1 } rs' p h1
      exact ⟨.done :: os, w', by simp only [run, step, hs', e1, Option.map_some], e2⟩

/-- **C101 is false when a size class of the pool runs out**: the web server leaves one buffer of 4136 bytes behind for every further request on a kept connection (C56). After 1024
of them the next one makes the pool hand out its own list head and overwrite what follows it (C16); the sessions of the worker are then no longer apart from the rest. -/
theorem c101_exhausted_counterexample (base : Nat → Nat) :
    ∃ os w, run (init base) (List.replicate 1024 (.alloc 4136)) = some (os, w) ∧ step w (.alloc 4136) = none := by
  obtain ⟨rs, p, h1, h2, h3, h4⟩ := Mem.run_drain (n := 4136) (i := 4) (by decide) (by decide) 1024 (Mem.init base) rfl
    (by simp [Mem.init, Mem.count]) (Or.inr (by simp [Mem.init, Mem.count]))
  obtain ⟨os, w, e1, e2⟩ := run_allocs 4136 1024 (init base) rs p h1
  refine ⟨os, w, e1, ?_⟩
  have h0 : p.usable 0 ≠ [] := by rw [h4 0 (by decide)]; simp [Mem.init, Mem.count]
  have h5 : p.usable 4 = [] := by rw [h2]; simp [Mem.init, Mem.count]
  have : Mem.alloc p 4136 = .corrupt := ((Mem.c16_outcome_partial p 4136 (by decide) h3).2.2 4 (by decide) h0).1 h5
  simp only [step, e2, this]

end Verif.Worker
