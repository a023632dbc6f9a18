import Verif.Model.Exit
import Verif.Props.AhoFree
/-
C97: a worker that stops gives back everything once and finishes what it has accepted.
-/
namespace Verif.Exit
open Verif

/-- What is released for the listening sockets. -/
def conObjs (l : List Nat) : List Obj := l.flatMap fun i => [.ev i, .con i]

theorem mem_conObjs {l : List Nat} {o : Obj} : o ∈ conObjs l ↔ ∃ i ∈ l, o = .ev i ∨ o = .con i := by
  simp [conObjs]

/-- The listening sockets are released one after the other. -/
theorem listeners_ok (l : List Nat) (w : World) (hn : l.Nodup) (hp : w.live .pool = true)
    (hm : ∀ i ∈ l, w.ptr (.con i) = true ∧ w.live (.con i) = true ∧ w.live (.ev i) = true) :
    l.foldlM freeListener w =
      .ok { w with freed := w.freed ++ conObjs l, closed := w.closed ++ l.map fun i => (.listen i, w.opened (.listen i)) } := by
  induction l generalizing w with
  | nil => simp [conObjs, pure, Except.pure]
  | cons i l ih =>
    obtain ⟨h1, h2, h3⟩ := hm i (by simp)
    rw [List.nodup_cons] at hn
    have hp' := hp
    have h1' := h1
    simp only [World.live, World.ptr, Bool.and_eq_true, Bool.not_eq_true', List.contains_eq_mem, decide_eq_false_iff_not] at hp h1 h2 h3
    have e : freeListener w i = .ok { w with freed := w.freed ++ [.ev i, .con i], closed := w.closed ++ [(.listen i, w.opened (.listen i))] } := by
      simp [freeListener, h1', touch, World.live, h2, h3, hp, freeP, free, close, bind, Except.bind]
    rw [List.foldlM_cons, e]
    show List.foldlM freeListener _ l = _
    rw [ih _ hn.2]
    · congr 1
      simp only [World.mk.injEq, true_and]
      refine ⟨by simp [conObjs], ?_, trivial⟩
      simp only [List.append_assoc, List.map_cons, List.cons_append, List.nil_append, List.append_cancel_left_eq, List.cons.injEq, true_and]
      refine List.map_congr_left fun j hj => ?_
      have : j ≠ i := by rintro rfl; exact hn.1 hj
      simp [World.opened, this]
    · simp [World.live, hp]
    · intro j hj
      obtain ⟨g1, g2, g3⟩ := hm j (by simp [hj])
      have : j ≠ i := by rintro rfl; exact hn.1 hj
      simp only [World.live, World.ptr, Bool.and_eq_true, Bool.not_eq_true', List.contains_eq_mem, decide_eq_false_iff_not] at g1 g2 g3
      simp [World.live, World.ptr, g1, g2, g3, this]

theorem listenEnd_eq (l : List Nat) (w : World) : l.foldl (fun w i => close (.listen i) w) w =
    { w with closed := (l.foldl (fun w i => close (.listen i) w) w).closed } ∧
    (l.foldl (fun w i => close (.listen i) w) w).closed.map (·.1) = w.closed.map (·.1) ++ l.map Fd.listen := by
  induction l generalizing w with
  | nil => simp
  | cons i l ih =>
    obtain ⟨h1, h2⟩ := ih (close (.listen i) w)
    constructor
    · rw [List.foldl_cons, h1]; simp [close]
    · rw [List.foldl_cons, h2]; simp [close]

/-- The objects in the order of their release. -/
def order (used : List Nat) (g : Start.G) : List Obj :=
  [.ssl] ++ (if g.heap then [.heap] else []) ++ conObjs used ++ [.epev, .event] ++ (if g.ac.isSome then [.matcher] else []) ++ [.tunnel] ++
    (if g.web then [.mime, .api, .web] else []) ++ (if g.dns then [.hash, .dns] else []) ++ [.pool, .log, .shm, .proc]

/-- The descriptors in the order of the `close` calls. -/
def closes (used : List Nat) : List Fd := used.map Fd.listen ++ [.epoll, .logMain, .logAccess] ++ used.map Fd.listen

theorem exit_ok (used : List Nat) (hn : used.Nodup) (g : Start.G) (hg : g.ev = true) (unsent : List (List UInt8)) (trie : Aho.Trie)
    (ht : g.ac.isSome = true → ∃ out, Aho.freeAll trie = .ok out) :
    ∃ w, exit trie (world used true g unsent) = .ok w ∧ w.freed = order used g ∧ w.closed.map (·.1) = closes used ∧ w.unsent = unsent ∧
      w.made = has used true g ∧ w.start = (world used true g unsent).start := by
  obtain ⟨heap, ev, epoll, ac, web, dns⟩ := g
  simp only at hg ht
  subst hg
  set_option linter.unusedSimpArgs false in
  have key : ∀ (w1 : World), w1.used = used → w1.made = has used true ⟨heap, true, epoll, ac, web, dns⟩ → (∀ o ∈ w1.freed, o = .ssl ∨ o = .heap) →
      (∀ o ∈ w1.cleared, o = .ssl) → 
      evExit w1 = .ok { w1 with
        freed := w1.freed ++ conObjs used ++ [.epev, .event]
        cleared := w1.cleared ++ [.event]
        closed := (w1.closed ++ used.map fun i => (Fd.listen i, w1.opened (.listen i))) ++
          [(.epoll, World.opened { w1 with closed := w1.closed ++ used.map fun i => (Fd.listen i, w1.opened (.listen i)) } .epoll)] } := by
    intro w1 h1 h2 h3 h4
    have hnf : ∀ o, o ≠ .ssl → o ≠ .heap → o ∉ w1.freed := fun o a b c => by rcases h3 o c with h | h <;> contradiction
    have hnc : ∀ o, o ≠ .ssl → o ∉ w1.cleared := fun o a c => a (h4 o c)
    unfold evExit
    rw [listeners_ok w1.used w1 (h1 ▸ hn)]
    · rw [h1]
      simp [bind, Except.bind, Except.map, pure, Except.pure, World.ptr, World.live, touch, freeP, free, close, clear, h2, has, hnf, hnc, mem_conObjs,
        World.opened]
    · simp [World.live, h2, has, hnf]
    · intro i hi
      rw [h1] at hi
      simp [World.live, World.ptr, h2, has, hnf, hnc, hi]
  have hssl : sslEnd (world used true ⟨heap, true, epoll, ac, web, dns⟩ unsent) =
      .ok { world used true ⟨heap, true, epoll, ac, web, dns⟩ unsent with freed := [.ssl], cleared := [.ssl] } := by
    simp [sslEnd, World.ptr, world, has, freeP, touch, free, World.live, clear, bind, Except.bind, Except.map, pure, Except.pure]
  have htm : timerEnd { world used true ⟨heap, true, epoll, ac, web, dns⟩ unsent with freed := [.ssl], cleared := [.ssl] } =
      .ok { world used true ⟨heap, true, epoll, ac, web, dns⟩ unsent with
        freed := [.ssl] ++ (if heap then [.heap] else []), cleared := [.ssl] } := by
    cases heap <;> simp [timerEnd, World.ptr, world, has, free, World.live]
  have hev := key { world used true ⟨heap, true, epoll, ac, web, dns⟩ unsent with
        freed := [.ssl] ++ (if heap then [.heap] else []), cleared := [.ssl] } rfl rfl
        (by intro o ho; cases heap <;> simp_all) (by intro o ho; simp_all)
  have hheap : ∀ o : Obj, o ≠ .heap → o ∉ (if heap then [Obj.heap] else []) := by intro o ho; cases heap <;> simp [ho]
  have hmem : ∀ o : Obj, (∀ i, o ≠ .ev i) → (∀ i, o ≠ .con i) → o ∉ conObjs used := by
    intro o h1 h2 h
    obtain ⟨i, -, h | h⟩ := mem_conObjs.1 h
    · exact h1 i h
    · exact h2 i h
  have hcl : ((({ world used true ⟨heap, true, epoll, ac, web, dns⟩ unsent with
      freed := [.ssl] ++ (if heap then [.heap] else []), cleared := [.ssl] } : World).closed ++
      used.map fun i => (Fd.listen i, World.opened { world used true ⟨heap, true, epoll, ac, web, dns⟩ unsent with
      freed := [.ssl] ++ (if heap then [.heap] else []), cleared := [.ssl] } (.listen i))).map (·.1)) = used.map Fd.listen := by
    simp [world]
  have htn : ∀ w : World, w.made = has used true ⟨heap, true, epoll, ac, web, dns⟩ → w.ptr .tunnel = true → w.live .tunnel = true →
      w.live .pool = true → (Obj.matcher ∉ w.freed ∧ Obj.matcher ∉ w.cleared) →
      tunnelExit trie w = .ok { w with freed := w.freed ++ (if ac.isSome then [.matcher] else []) ++ [.tunnel], cleared := w.cleared ++ [.tunnel] } := by
    intro w hm h1 h2 h3 h4
    cases ac with
    | none =>
      have hp : w.ptr .matcher = false := by simp [World.ptr, hm, has]
      simp [tunnelExit, h1, touch, h2, hp, freeP, h3, free, clear, bind, Except.bind, Except.map, pure, Except.pure]
    | some m =>
      obtain ⟨out, ho⟩ := ht rfl
      have hp : w.ptr .matcher = true := by simp [World.ptr, hm, has, h4]
      have hl : w.live .matcher = true := by simp [World.live, hm, has, h4]
      simp only [World.live, Bool.and_eq_true, Bool.not_eq_true', List.contains_eq_mem, decide_eq_false_iff_not] at h2 h3 hl
      simp [tunnelExit, h1, touch, h2, hp, freeP, h3, free, clear, bind, Except.bind, Except.map, pure, Except.pure, ho, World.live, hl]
  have hwb : ∀ w : World, w.made = has used true ⟨heap, true, epoll, ac, web, dns⟩ → w.live .pool = true →
      (∀ o ∈ [Obj.web, .mime, .api], o ∉ w.freed ∧ o ∉ w.cleared) →
      webEnd w = .ok { w with freed := w.freed ++ (if web then [.mime, .api, .web] else []), cleared := w.cleared ++ (if web then [.mime, .api] else []) } := by
    intro w hm h3 h4
    cases web with
    | false =>
      have hp : w.ptr .web = false := by simp [World.ptr, hm, has]
      simp [webEnd, hp]
    | true =>
      simp only [World.live, Bool.and_eq_true, Bool.not_eq_true', List.contains_eq_mem, decide_eq_false_iff_not] at h3
      simp at h4
      obtain ⟨u, made, cl, fr, st, c, un⟩ := w
      simp only at hm h3 h4
      subst hm
      simp [webEnd, World.ptr, has, h4, touch, freeP, h3, free, clear, bind, Except.bind, Except.map, pure, Except.pure, World.live]
  have hdn : ∀ w : World, w.made = has used true ⟨heap, true, epoll, ac, web, dns⟩ → w.live .pool = true →
      (∀ o ∈ [Obj.dns, .hash], o ∉ w.freed ∧ o ∉ w.cleared) →
      dnsEnd w = .ok { w with freed := w.freed ++ (if dns then [.hash, .dns] else []), cleared := w.cleared ++ (if dns then [.hash, .dns] else []) } := by
    intro w hm h3 h4
    cases dns with
    | false =>
      have hp : w.ptr .dns = false := by simp [World.ptr, hm, has]
      simp [dnsEnd, hp]
    | true =>
      simp only [World.live, Bool.and_eq_true, Bool.not_eq_true', List.contains_eq_mem, decide_eq_false_iff_not] at h3
      simp at h4
      obtain ⟨u, made, cl, fr, st, c, un⟩ := w
      simp only at hm h3 h4
      subst hm
      simp [dnsEnd, World.ptr, has, h4, touch, freeP, h3, free, clear, bind, Except.bind, Except.map, pure, Except.pure, World.live]
  have hac : ∀ o : Obj, o ≠ .matcher → o ∉ (if ac.isSome then [Obj.matcher] else []) := by intro o ho; cases ac <;> simp [ho]
  have hwebs : ∀ o : Obj, o ≠ .web → o ≠ .mime → o ≠ .api → o ∉ (if web then [Obj.mime, .api, .web] else []) := by
    intro o h1 h2 h3; cases web <;> simp [h1, h2, h3]
  have hwebc : ∀ o : Obj, o ≠ .mime → o ≠ .api → o ∉ (if web then [Obj.mime, .api] else []) := by
    intro o h1 h2; cases web <;> simp [h1, h2]
  have hdnss : ∀ o : Obj, o ≠ .dns → o ≠ .hash → o ∉ (if dns then [Obj.hash, .dns] else []) := by
    intro o h1 h2; cases dns <;> simp [h1, h2]
  simp only [exit, workerExit, hssl, htm, hev, bind, Except.bind]
  rw [htn _ rfl (by simp [World.ptr, world, has]) (by simp [World.live, world, has, hheap, hmem]) (by simp [World.live, world, has, hheap, hmem])
    (by simp [hheap, hmem])]
  dsimp only
  rw [hwb _ rfl (by simp [World.live, world, has, hheap, hmem, hac]) (by simp [hheap, hmem, hac])]
  dsimp only
  rw [hdn _ rfl (by simp [World.live, world, has, hheap, hmem, hac, hwebs]) (by simp [hheap, hmem, hac, hwebs, hwebc])]
  dsimp only
  have hpe : ∀ w : World, w.made .pool = true → Obj.pool ∉ w.freed → Obj.pool ∉ w.cleared → poolEnd w = .ok { w with freed := w.freed ++ [.pool] } := by
    intro w h1 h2 h3; simp [poolEnd, World.ptr, h1, h3, free, World.live, h2]
  rw [hpe _ rfl (by simp [hheap, hmem, hac, hwebs, hdnss]) (by simp [hwebc, hdnss])]
  dsimp only
  have hcore : ∀ w : World, w.used = used → w.made = has used true ⟨heap, true, epoll, ac, web, dns⟩ →
      (∀ o ∈ [Obj.log, .proc, .shm], o ∉ w.freed ∧ o ∉ w.cleared) →
      ∃ c, coreExit w = .ok { w with freed := w.freed ++ [.log, .shm, .proc], cleared := w.cleared ++ [.log], closed := c } ∧
        c.map (·.1) = w.closed.map (·.1) ++ [.logMain, .logAccess] ++ used.map Fd.listen := by
    intro w hu hm h4
    simp at h4
    obtain ⟨e1, e2⟩ := listenEnd_eq used { w with
      freed := w.freed ++ [.log, .shm, .proc], cleared := w.cleared ++ [.log], closed := (close .logAccess (close .logMain w)).closed }
    refine ⟨(used.foldl (fun w i => close (.listen i) w) { w with
      freed := w.freed ++ [.log, .shm, .proc], cleared := w.cleared ++ [.log], closed := (close .logAccess (close .logMain w)).closed }).closed, ?_, ?_⟩
    rotate_left
    · rw [e2]; simp [close]
    · rw [← e1]
      simp [coreExit, logEnd, processEnd, World.ptr, hm, has, h4, touch, World.live, free, close, clear, bind, Except.bind, Except.map, pure, Except.pure,
        listenEnd, hu]
  have fin : ∀ w : World, w.used = used → w.made = has used true ⟨heap, true, epoll, ac, web, dns⟩ →
      (∀ o ∈ [Obj.log, .proc, .shm], o ∉ w.freed ∧ o ∉ w.cleared) → w.freed ++ [.log, .shm, .proc] = order used ⟨heap, true, epoll, ac, web, dns⟩ →
      w.closed.map (·.1) = used.map Fd.listen ++ [.epoll] → w.unsent = unsent →
      w.start = (world used true ⟨heap, true, epoll, ac, web, dns⟩ unsent).start →
      ∃ w', coreExit w = .ok w' ∧ w'.freed = order used ⟨heap, true, epoll, ac, web, dns⟩ ∧ w'.closed.map (·.1) = closes used ∧ w'.unsent = unsent ∧
        w'.made = has used true ⟨heap, true, epoll, ac, web, dns⟩ ∧ w'.start = (world used true ⟨heap, true, epoll, ac, web, dns⟩ unsent).start := by
    intro w hu hm h4 hf hcc hun hst
    obtain ⟨c, hc1, hc2⟩ := hcore w hu hm h4
    exact ⟨_, hc1, hf, by rw [hc2, hcc, closes]; simp, hun, hm, hst⟩
  apply fin
  · rfl
  · rfl
  · simp [hheap, hmem, hac, hwebs, hdnss, hwebc]
  · simp [order]
  · simp [world]
  · rfl
  · rfl

theorem order_mem (used : List Nat) (g : Start.G) (hg : g.ev = true) (o : Obj) : o ∈ order used g ↔ has used true g o = true := by
  obtain ⟨heap, ev, epoll, ac, web, dns⟩ := g
  simp only at hg
  subst hg
  have hc : ∀ o, o ∈ conObjs used ↔ ∃ i ∈ used, o = .ev i ∨ o = .con i := fun o => mem_conObjs
  cases o <;> cases heap <;> cases ac <;> cases web <;> cases dns <;> simp [order, has, hc]

theorem conObjs_nodup (used : List Nat) (hn : used.Nodup) : (conObjs used).Nodup := by
  induction used with
  | nil => simp [conObjs]
  | cons i l ih =>
    rw [List.nodup_cons] at hn
    have e : conObjs (i :: l) = [.ev i, .con i] ++ conObjs l := by simp [conObjs]
    rw [e, List.nodup_append]
    refine ⟨by simp, ih hn.2, ?_⟩
    intro a ha b hb
    obtain ⟨j, hj, h⟩ := mem_conObjs.1 hb
    have : i ≠ j := by rintro rfl; exact hn.1 hj
    simp only [List.mem_cons, List.not_mem_nil, or_false] at ha
    rcases ha with rfl | rfl <;> rcases h with rfl | rfl <;> simp [this]

theorem order_nodup (used : List Nat) (hn : used.Nodup) (g : Start.G) : (order used g).Nodup := by
  obtain ⟨heap, ev, epoll, ac, web, dns⟩ := g
  have h1 := conObjs_nodup used hn
  have hmem : ∀ o : Obj, (∀ i, o ≠ .ev i) → (∀ i, o ≠ .con i) → o ∉ conObjs used := by
    intro o h1 h2 h
    obtain ⟨i, -, h | h⟩ := mem_conObjs.1 h
    · exact h1 i h
    · exact h2 i h
  have hd : ∀ a ∈ conObjs used, ∀ b : Obj, (∀ i, b ≠ .ev i) → (∀ i, b ≠ .con i) → a ≠ b := by
    rintro a ha b hb1 hb2 rfl; exact hmem a hb1 hb2 ha
  cases heap <;> cases ac <;> cases web <;> cases dns <;>
    simp [order, List.nodup_append, h1, hmem]
  all_goals
    intro a ha
    obtain ⟨i, -, rfl | rfl⟩ := mem_conObjs.1 ha <;> simp

/-- The contexts a worker can have if it has a pool, and that its matcher can be released. -/
theorem init_shape {e : Start.WEnv} {g : Start.G} {ok : Bool} (h : Start.workerInit e = some (g, ok)) (hp : e.pool = true)
    (hk : e.keys.flatten.length ≤ 4096) :
    g.ev = true ∧ (g.ac.isSome = true → ∃ out, Aho.freeAll ((g.ac.map (·.trie)).getD Aho.empty) = .ok out) := by
  have ht : ∀ g0 g1 ok1, g0.ev = true → g0.ac = none → Start.tunnelInit e g0 = some (g1, ok1) →
      g1.ev = true ∧ (g1.ac.isSome = true → ∃ out, Aho.freeAll ((g1.ac.map (·.trie)).getD Aho.empty) = .ok out) := by
    intro g0 g1 ok1 hev hac h
    unfold Start.tunnelInit at h
    split at h
    · simp at h; obtain ⟨rfl, -⟩ := h; exact ⟨hev, by simp [hac]⟩
    · split at h
      · simp at h; obtain ⟨rfl, -⟩ := h; exact ⟨hev, by simp [hac]⟩
      · split at h
        · simp at h; obtain ⟨rfl, -⟩ := h; exact ⟨hev, fun _ => ⟨[], by show Aho.freeAll Aho.empty = .ok []; decide +kernel⟩⟩
        · split at h
          · simp at h
          · rename_i m hm
            simp at h; obtain ⟨rfl, -⟩ := h
            refine ⟨hev, fun _ => ?_⟩
            obtain ⟨out, ho, -⟩ := Aho.c90_keys e.keys hk
            refine ⟨out, ?_⟩
            have : m.trie = Aho.addAll e.keys := by
              unfold Auth.load at hm
              split at hm
              · simp at hm
              · simp at hm; subst hm; rfl
            simpa [this] using ho
  unfold Start.workerInit at h
  simp only [hp, Bool.not_true, Bool.false_eq_true, if_false] at h
  split at h
  · simp at h
  · rename_i g1 h1; simp at h; obtain ⟨rfl, -⟩ := h; exact ht _ _ _ rfl rfl h1
  · rename_i g1 h1
    have := ht _ _ _ rfl rfl h1
    split at h
    · simp at h; obtain ⟨rfl, -⟩ := h; exact this
    · simp at h

/-- A worker that has a pool, on a machine where everything works, with the keys "abc" and "bd". -/
def demoEnv : Start.WEnv := ⟨true, true, true, true, true, true, true, [[97, 98, 99], [98, 100]]⟩

/-- **C97 (partial)**: whatever else failed when a worker started, if it has its pool and its key file fits the buffer, then stopping it uses no memory
after its release, releases every object that was allocated exactly once, and closes every descriptor that was open. (Not so without the pool:
`c97_early_counterexample`; and not so for what connections still have to send: `c97_lost_counterexample`.) -/
theorem c97_clean_partial (e : Start.WEnv) (hp : e.pool = true) (hk : e.keys.flatten.length ≤ 4096) (used : List Nat) (hn : used.Nodup)
    (unsent : List (List UInt8)) (r : Except Fault World) (h : stopped e used unsent = some r) :
    ∃ w g ok, r = .ok w ∧ Start.workerInit e = some (g, ok) ∧ w.made = has used true g ∧
      (∀ o, w.freed.count o = if has used true g o then 1 else 0) ∧ (∀ d, w.opened d = false) := by
  unfold stopped at h
  split at h
  · simp at h
  · rename_i g ok hi
    simp only [Option.some.injEq] at h
    obtain ⟨hg, ht⟩ := init_shape hi hp hk
    obtain ⟨w, h1, h2, h3, h4, h5, h6⟩ := exit_ok used hn g hg unsent _ ht
    rw [hp, h1] at h
    refine ⟨w, g, ok, h.symm, hi, h5, fun o => ?_, fun d => ?_⟩
    · rw [h2]
      by_cases ho : has used true g o = true
      · rw [if_pos ho, List.count_eq_one_of_mem (order_nodup used hn g) ((order_mem used g hg o).2 ho)]
      · rw [if_neg ho, List.count_eq_zero]
        exact fun hm => ho ((order_mem used g hg o).1 hm)
    · unfold World.opened
      rw [h3, h6]
      cases d <;> simp [closes, world]

/-- The hypotheses are met by a server with two listening sockets, and all of its nineteen objects are released. -/
example : (stopped demoEnv [0, 1] []).map (fun r => r.toOption.map (·.freed)) =
    some (some [.ssl, .heap, .ev 0, .con 0, .ev 1, .con 1, .epev, .event, .matcher, .tunnel, .mime, .api, .web, .hash, .dns, .pool, .log, .shm, .proc]) := by
  decide +kernel

/-- Also by one that has no matcher and did not finish its initialisation. -/
example : (stopped { demoEnv with matcher := false } [0, 1] []).map (fun r => r.toOption.map (·.freed)) =
    some (some [.ssl, .heap, .ev 0, .con 0, .ev 1, .con 1, .epev, .event, .tunnel, .pool, .log, .shm, .proc]) := by
  decide +kernel

/-- **C97 is false for a worker without a pool**: told to stop before it has looked at its queue for the first time, it dereferences the NULL connection
of its first listening socket; nothing is released and nothing closed. -/
theorem c97_early_counterexample (e : Start.WEnv) (hp : e.pool = false) (i : Nat) (used : List Nat) (unsent : List (List UInt8)) :
    stopped e (i :: used) unsent = some (.error (.null (.con i))) := by
  simp [stopped, Start.workerInit, hp, exit, workerExit, sslEnd, timerEnd, evExit, World.ptr, world, has, bind, Except.bind, freeListener]

/-- Such an environment. -/
example : stopped { demoEnv with pool := false } [3] [] = some (.error (.null (.con 3))) := by
  simp [stopped, Start.workerInit, exit, workerExit, sslEnd, timerEnd, evExit, World.ptr, world, has, bind, Except.bind, freeListener]

/-- **C97 is false as to the descriptors of the listening sockets**: each is passed to `close` twice, first by `ev_exit`, then by `listen_end`. (In between
nothing opens a descriptor, so the second call fails and does no harm.) -/
theorem c97_twice_counterexample (e : Start.WEnv) (hp : e.pool = true) (hk : e.keys.flatten.length ≤ 4096) (used : List Nat) (hn : used.Nodup)
    (unsent : List (List UInt8)) (w : World) (h : stopped e used unsent = some (.ok w)) (i : Nat) (hi : i ∈ used) :
    (w.closed.map (·.1)).count (.listen i) = 2 ∧ (w.closed.map (·.1)).count .epoll = 1 ∧ (w.closed.map (·.1)).count .logMain = 1 ∧
      (w.closed.map (·.1)).count .logAccess = 1 := by
  unfold stopped at h
  split at h
  · simp at h
  · rename_i g ok hgi
    simp only [Option.some.injEq] at h
    obtain ⟨hg, ht⟩ := init_shape hgi hp hk
    obtain ⟨w', h1, h2, h3, h4, h5, h6⟩ := exit_ok used hn g hg unsent _ ht
    rw [hp, h1] at h
    simp only [Except.ok.injEq] at h
    subst h
    rw [h3]
    have hinj : Function.Injective Fd.listen := fun a b h => by simpa using h
    have h1 : (used.map Fd.listen).count (.listen i) = 1 := by
      exact List.count_eq_one_of_mem (hn.map hinj) (List.mem_map_of_mem hi)
    have h0 : ∀ d, (∀ j, d ≠ .listen j) → (used.map Fd.listen).count d = 0 := by
      intro d hd
      rw [List.count_eq_zero]
      simp only [List.mem_map, not_exists, not_and]
      exact fun j _ h => hd j h.symm
    refine ⟨?_, ?_, ?_, ?_⟩
    · simp [closes, List.count_append, h1]
    · simp [closes, List.count_append, h0]
    · simp [closes, List.count_append, h0]
    · simp [closes, List.count_append, h0]

/-- In a server with two listening sockets the second `close` of each fails. -/
example : (stopped demoEnv [0, 1] []).map (fun r => r.toOption.map (·.closed)) =
    some (some [(.listen 0, true), (.listen 1, true), (.epoll, true), (.logMain, true), (.logAccess, true), (.listen 0, false), (.listen 1, false)]) := by
  decide +kernel

/-- **C97 is false as to what was accepted**: what the worker has taken from one side of its connections and not yet passed on when it is told to stop
is never sent. -/
theorem c97_lost_counterexample (e : Start.WEnv) (hp : e.pool = true) (hk : e.keys.flatten.length ≤ 4096) (used : List Nat) (hn : used.Nodup)
    (unsent : List (List UInt8)) (w : World) (h : stopped e used unsent = some (.ok w)) : w.unsent = unsent := by
  unfold stopped at h
  split at h
  · simp at h
  · rename_i g ok hgi
    simp only [Option.some.injEq] at h
    obtain ⟨hg, ht⟩ := init_shape hgi hp hk
    obtain ⟨w', h1, h2, h3, h4, h5, h6⟩ := exit_ok used hn g hg unsent _ ht
    rw [hp, h1] at h
    simp only [Except.ok.injEq] at h
    subst h
    exact h4

example : (stopped demoEnv [0, 1] [[1, 2, 3]]).map (fun r => r.toOption.map (·.unsent)) = some (some [[1, 2, 3]]) := by
  decide +kernel

/-- **C97 for the master**: it releases the log, the table of processes and the shared memory, each once, and closes every listening socket and both log files
once. -/
theorem c97_master (used : List Nat) :
    ∃ w, masterStopped used = .ok w ∧ w.freed = [.log, .shm, .proc] ∧
      w.closed.map (·.1) = [.logMain, .logAccess] ++ used.map Fd.listen ∧ (∀ o, w.live o = false) ∧
      (∀ d, d ≠ .epoll → w.opened d = false) := by
  have hl := listenEnd_eq used { world used false {} [] with
    freed := [.log, .shm, .proc], cleared := [.log], closed := [(.logMain, true), (.logAccess, true)] }
  obtain ⟨e1, e2⟩ := hl
  refine ⟨used.foldl (fun w i => close (.listen i) w) { world used false {} [] with
      freed := [.log, .shm, .proc], cleared := [.log], closed := [(.logMain, true), (.logAccess, true)] }, ?_, ?_, ?_, ?_, ?_⟩
  · simp [masterStopped, coreExit, logEnd, processEnd, World.ptr, world, has, touch, World.live, free, close, clear, bind, Except.bind, pure, Except.pure,
        listenEnd, World.opened]
  · rw [e1]
  · rw [e2]; simp
  · intro o
    rw [e1]
    cases o <;> simp [World.live, world, has]
  · intro d hd
    rw [World.opened, e2, e1]
    cases d <;> simp [world] at hd ⊢

example : (masterStopped [0, 1]).toOption.map (·.closed) = some [(.logMain, true), (.logAccess, true), (.listen 0, true), (.listen 1, true)] := by
  decide +kernel

end Verif.Exit
