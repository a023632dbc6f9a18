import Verif.Spec.Conns
import Verif.Proofs.Timer
import Verif.Proofs.Mem
import Mathlib.Data.List.Perm.Basic
/-
Connections, their blocks and timers stay in step.
-/
namespace Verif.Conns
open scoped List
open Verif.BHeap (Indexed elems mem_elems)

/-! ### The pool, seen from class 0 -/

/-- The blocks of class 0 in use are exactly those of `L`. -/
structure PoolInv (p : Mem.St) (L : List Nat) : Prop where
  lock : p.locked = false
  split : p.usable 0 ++ p.inuse 0 ~ List.range 2048
  used : L ~ p.inuse 0

theorem PoolInv.perm {p : Mem.St} {L M : List Nat} (I : PoolInv p L) (h : M ~ L) : PoolInv p M := ⟨I.lock, I.split, h.trans I.used⟩

theorem PoolInv.nodup {p : Mem.St} {L : List Nat} (I : PoolInv p L) : L.Nodup := by
  have h := I.split.nodup_iff.mpr List.nodup_range
  exact I.used.nodup_iff.mpr (List.nodup_append.mp h).2.1

theorem PoolInv.length {p : Mem.St} {L : List Nat} (I : PoolInv p L) : (p.usable 0).length + L.length = 2048 := by
  have h := I.split.length_eq
  rw [List.length_append, List.length_range] at h
  rw [I.used.length_eq]; exact h

theorem alloc_small {p : Mem.St} {L : List Nat} (I : PoolInv p L) {n : Int} (h0 : 0 < n) (hn : n ≤ 512) :
    (Mem.alloc p n = .next .null p ∧ L.length = 2048) ∨
      ∃ j p', Mem.alloc p n = .next (.ptr 0 j) p' ∧ j ∉ L ∧ PoolInv p' (j :: L) := by
  have hp : Mem.pick n = some 0 := by unfold Mem.pick; rw [if_pos hn]
  have hl := I.length
  have hs := I.split
  have hd := I.split.nodup_iff.mpr List.nodup_range
  unfold Mem.alloc
  rw [if_neg (by omega), I.lock]
  simp only [Bool.false_eq_true, if_false, hp]
  cases hu : p.usable 0 with
  | nil => left; rw [hu] at hl; simp at hl; exact ⟨by simp, hl⟩
  | cons j rest =>
    right
    rw [hu] at hs hd
    refine ⟨j, _, by simp; rfl, ?_, ?_⟩
    · intro hj
      have := (I.used.mem_iff).mp hj
      rw [List.cons_append, List.nodup_cons] at hd
      exact hd.1 (by simp [this])
    · refine ⟨rfl, ?_, ?_⟩
      · simp only [Mem.upd_same]
        refine List.Perm.trans ?_ hs
        rw [← List.append_assoc]
        exact (List.perm_append_comm (l₁ := rest ++ p.inuse 0) (l₂ := [j])).trans (by simp)
      · simp only [Mem.upd_same]
        exact ((I.used.cons j)).trans (List.perm_append_comm (l₁ := [j]) (l₂ := p.inuse 0))

theorem free_small {p : Mem.St} {L : List Nat} {j : Nat} (I : PoolInv p (j :: L)) :
    ∃ p', Mem.free p 0 j = .next .done p' ∧ PoolInv p' L := by
  have hd := I.split.nodup_iff.mpr List.nodup_range
  have hj : j ∈ p.inuse 0 := (I.used.mem_iff).mp (by simp)
  have hnu : j ∉ p.usable 0 := fun h => (List.nodup_append.mp hd).2.2 j h j hj rfl
  have hc : j :: (p.inuse 0).erase j ~ p.inuse 0 := (List.perm_cons_erase hj).symm
  unfold Mem.free
  rw [I.lock]
  refine ⟨_, rfl, ?_⟩
  refine ⟨rfl, ?_, ?_⟩
  · simp only [Mem.upd_same]
    rw [List.erase_of_not_mem hnu, List.append_assoc]
    refine List.Perm.trans ?_ I.split
    exact List.Perm.append_left _ (by simpa using hc)
  · simp only [Mem.upd_same]
    exact (List.perm_cons j).mp (I.used.trans hc.symm)

theorem free_large {p : Mem.St} {L : List Nat} (I : PoolInv p L) {i : Nat} (hi : i ≠ 0) (j : Nat) :
    ∃ p', Mem.free p i j = .next .done p' ∧ PoolInv p' L := by
  unfold Mem.free
  rw [I.lock]
  refine ⟨_, rfl, ⟨rfl, ?_, ?_⟩⟩
  · simp only [Mem.upd_ne _ _ (Ne.symm hi)]; exact I.split
  · simp only [Mem.upd_ne _ _ (Ne.symm hi)]; exact I.used

theorem alloc_any {p : Mem.St} {L : List Nat} (I : PoolInv p L) (n : Int) :
    (Mem.alloc p n = .assertFail ∧ n ≤ 0) ∨ (Mem.alloc p n = .corrupt ∧ 512 < n) ∨ Mem.alloc p n = .next .null p ∨
      (∃ j p', Mem.alloc p n = .next (.ptr 0 j) p' ∧ j ∉ L ∧ PoolInv p' (j :: L)) ∨
      ∃ i j p', Mem.alloc p n = .next (.ptr i j) p' ∧ i ≠ 0 ∧ PoolInv p' L := by
  by_cases h0 : n ≤ 0
  · left; exact ⟨by unfold Mem.alloc; rw [if_pos h0], h0⟩
  by_cases hn : n ≤ 512
  · rcases alloc_small I (n := n) (by omega) hn with h | h
    · right; right; left; exact h.1
    · right; right; right; left; exact h
  have hp : Mem.pick n ≠ some 0 := by
    unfold Mem.pick
    repeat' split
    all_goals first | omega | simp
  unfold Mem.alloc
  rw [if_neg h0, I.lock]
  simp only [Bool.false_eq_true, if_false]
  split
  · simp
  · cases hpk : Mem.pick n with
    | none => simp
    | some i =>
      have hi : i ≠ 0 := fun e => hp (by rw [hpk, e])
      cases hu : p.usable i with
      | nil => right; left; exact ⟨by simp only [hu], by omega⟩
      | cons j rest =>
        right; right; right; right
        refine ⟨i, j, _, by simp only [hu]; rfl, hi, ⟨rfl, ?_, ?_⟩⟩
        · simp only [Mem.upd_ne _ _ (Ne.symm hi)]; exact I.split
        · simp only [Mem.upd_ne _ _ (Ne.symm hi)]; exact I.used

/-! ### Timers -/

theorem siftUp_space (h : BHeap.Heap) (node i : Nat) : (BHeap.siftUp h node i).space = h.space := by
  fun_induction BHeap.siftUp h node i with
  | case1 h i hi ih => rw [ih]; rfl
  | case2 h i hi => rfl

theorem siftDown_space (h : BHeap.Heap) (node i : Nat) : (BHeap.siftDown h node i).space = h.space := by
  fun_induction BHeap.siftDown h node i with
  | case1 h i hi ih => rw [ih]; rfl
  | case2 h i hi => rfl

theorem tmDel_space {s s' : Timer.St} {t : Nat} (h : Timer.tmDel s t = some s') : s'.heap.space = s.heap.space := by
  unfold Timer.tmDel at h
  split at h
  · unfold BHeap.del at h
    repeat' split at h
    all_goals simp only [Option.map_some, Option.map_none, Option.some.injEq, reduceCtorEq] at h
    all_goals subst h
    all_goals simp [siftDown_space]
  · cases h; rfl

theorem tmAdd_space {s s' : Timer.St} {t : Nat} {d : Int} (h : Timer.tmAdd s t d = some s') : s'.heap.space = s.heap.space := by
  unfold Timer.tmAdd at h
  simp only [Option.map_eq_some_iff] at h
  obtain ⟨s1, h1, rfl⟩ := h
  rw [← tmDel_space h1]
  unfold BHeap.add
  simp only
  split
  · rfl
  · simp [siftUp_space]

theorem expireQuiet_space (s : Timer.St) : ∀ {es w s'}, Timer.expireQuiet s = some (es, w, s') → s'.heap.space = s.heap.space := by
  fun_induction Timer.expireQuiet s with
  | case1 s hm => intro es w s' h; cases h; rfl
  | case2 s m hm hk => intro es w s' h; cases h; rfl
  | case3 s m hm hk hd => intro es w s' h; cases h
  | case4 s m hm hk s1 hd hlt ih =>
    intro es w s' h
    simp only [Option.map_eq_some_iff] at h
    obtain ⟨⟨e2, w2, s3⟩, h2, h3⟩ := h
    simp only [Prod.mk.injEq] at h3
    obtain ⟨rfl, rfl, rfl⟩ := h3
    rw [ih h2, tmDel_space hd]
  | case5 s m hm hk s1 hd hlt => intro es w s' h; cases h

theorem timer_inv_sub {U V : List Nat} {s : Timer.St} {a : Timer.Armed} (I : Timer.Inv U s a) (hV : V.length ≤ s.heap.space)
    (h : ∀ t, s.set t = true → t ∈ V) : Timer.Inv V s a := ⟨I.indexed, hV, I.pos, I.mem, I.armed, h⟩

/-- Clearing the fields of a timer that is not armed. -/
theorem zeroTimer_inv {U : List Nat} {s : Timer.St} {a : Timer.Armed} (I : Timer.Inv U s a) {t : Nat} (h : s.set t = false) :
    Timer.Inv U (zeroTimer s t) (fun x => if x = t then none else a x) := by
  have hnm : t ∉ elems s.heap := fun hm => by rw [(I.mem t).mp hm] at h; cases h
  have hset : (zeroTimer s t).set = s.set := by
    funext x; simp only [zeroTimer]
    by_cases hx : x = t
    · subst hx; simp [h]
    · rw [BHeap.set_ne _ _ hx]
  constructor
  · intro i i1 i2
    have hne : s.heap.arr i ≠ t := fun e => hnm (mem_elems.mpr ⟨i, i1, i2, e⟩)
    simp only [zeroTimer]
    rw [BHeap.set_ne _ _ hne]
    exact I.indexed i i1 i2
  · exact I.room
  · exact I.pos
  · intro x; rw [hset]; exact I.mem x
  · intro x
    rw [hset]
    by_cases hx : x = t
    · subst hx; simp [h]
    · simp only [hx, if_false, zeroTimer, BHeap.set_ne _ _ hx]; exact I.armed x
  · intro x; rw [hset]; exact I.univ x

/-- With room for all timers in existence, arming is not refused. -/
theorem add_accepts {U : List Nat} {s : Timer.St} {a : Timer.Armed} (I : Timer.Inv U s a) {t : Nat} (ht : t ∈ U) (d : Int) {s1 : Timer.St}
    (h : Timer.tmDel s t = some s1) : (BHeap.add { s1.heap with key := BHeap.set s1.heap.key t (s1.now + d) } t).isNone = false := by
  obtain ⟨s1', e1, I1, n1, f1, -, o1⟩ := Timer.tmDel_spec I t
  rw [h] at e1; cases e1
  have hnm : t ∉ elems s1.heap := fun h => by rw [(I1.mem t).mp h] at f1; cases f1
  have hroom : s1.heap.n < s1.heap.space := by
    have hnd : (t :: elems s1.heap).Nodup := List.nodup_cons.mpr ⟨hnm, BHeap.elems_nodup I1.indexed⟩
    have hsub : (t :: elems s1.heap) ⊆ U := by
      intro x hx
      rw [List.mem_cons] at hx
      rcases hx with rfl | hx
      · exact ht
      · exact I1.univ x ((I1.mem x).mp hx)
    have := (hnd.subperm hsub).length_le
    rw [List.length_cons, BHeap.elems_length] at this
    have := I1.room
    omega
  unfold BHeap.add
  simp only
  rw [if_neg (by omega)]
  rfl

/-! ### The worlds of histories -/

theorem good_append (n : Nat) : ∀ (es es' : List Ev) (w : World),
    w.Good n (es ++ es') ↔ w.Good n es ∧ (es.foldl World.next w).Good n es'
  | [], es', w => by simp [World.Good]
  | e :: es, es', w => by simp [World.Good, good_append n es es', and_assoc]

/-! ### The invariant -/

/-- Timers in existence. -/
def timers (s : St) : List Nat := s.dns.toList ++ s.conns.map (·.2)

/-- Blocks of class 0 held by other code. -/
def small (l : List (Nat × Nat)) : List Nat := (l.filter (fun b => b.1 = 0)).map (·.2)

/-- Blocks of class 0 that are held. -/
def owned (s : St) : List Nat := timers s ++ (s.conns.map (·.1) ++ small s.others)

/-- Blocks, timers and the world agree. -/
structure Inv (s : St) (w : World) : Prop where
  pool : PoolInv s.pool (owned s)
  space : s.tm.heap.space = 1536
  timer : Timer.Inv (timers s) s.tm w.armed
  live : ∀ x, w.live x ↔ x ∈ timers s

theorem timers_bound {s : St} (h : PoolInv s.pool (owned s)) : (timers s).length ≤ 1024 := by
  have := h.length
  simp only [owned, timers, List.length_append, List.length_map] at this ⊢
  have : s.dns.toList.length ≤ 1 := by cases s.dns <;> simp
  omega

theorem timers_nodup {s : St} (h : PoolInv s.pool (owned s)) : (timers s).Nodup := (List.nodup_append.mp h.nodup).1

theorem live_bound {s : St} {w : World} (I : Inv s w) {l : List Nat} (hl : l.Nodup) (h : ∀ t ∈ l, w.live t) : l.length ≤ 1024 :=
  ((hl.subperm (fun x hx => (I.live x).mp (h x hx))).length_le).trans (timers_bound I.pool)

/-- What one piece of code achieves: its events are allowed, and the invariant holds again. -/
def Step (s : St) (w : World) (s' : St) : Prop :=
  ∃ es, s'.log = s.log ++ es ∧ w.Good 1024 es ∧ Inv s' (es.foldl World.next w) ∧
    (s'.stop = s.stop ∨ s'.stop = some .assertFail ∨ s'.stop = some .exhausted)

theorem Step.refl {s : St} {w : World} (I : Inv s w) : Step s w s := ⟨[], by simp, trivial, I, Or.inl rfl⟩

theorem inv_stop {s : St} {w : World} (I : Inv s w) (x : Option Stop) : Inv { s with stop := x } w := ⟨I.pool, I.space, I.timer, I.live⟩

theorem disarm_step {s : St} {w : World} (I : Inv s w) {t : Nat} (ht : t ∈ timers s) :
    ∃ tm, disarm s t = { s with tm := tm, log := s.log ++ [.tm (.cancel t)] } ∧ tm.set t = false ∧
      w.Good 1024 [.tm (.cancel t)] ∧ Inv { s with tm := tm, log := s.log ++ [.tm (.cancel t)] } (w.next (.tm (.cancel t))) := by
  obtain ⟨tm, e1, I1, n1, f1, -, -⟩ := Timer.tmDel_spec I.timer t
  refine ⟨tm, by simp [disarm, e1], f1, ?_, ?_⟩
  · exact ⟨(I.live t).mpr ht, fun l hl h => live_bound I hl h, trivial⟩
  · exact ⟨I.pool, by rw [← I.space]; exact tmDel_space e1, I1, I.live⟩

theorem arm_step {s : St} {w : World} (I : Inv s w) {t : Nat} (ht : t ∈ timers s) (d : Int) :
    w.Good 1024 [.tm (.arm t (s.tm.now + d))] ∧
      Inv (arm s t d) (w.next (.tm (.arm t (s.tm.now + d)))) ∧ (arm s t d).log = s.log ++ [.tm (.arm t (s.tm.now + d))] ∧
      (arm s t d).stop = s.stop := by
  obtain ⟨tm1, e1, -⟩ := Timer.tmDel_spec I.timer t
  obtain ⟨tm, e2, I2, -⟩ := Timer.tmAdd_spec I.timer ht d
  have hf := add_accepts I.timer ht d e1
  have he : arm s t d = { s with tm := tm, log := s.log ++ [.tm (.arm t (s.tm.now + d))] } := by
    unfold arm; rw [e1, e2]; simp only [hf]; simp
  rw [he]
  refine ⟨⟨(I.live t).mpr ht, fun l hl h => live_bound I hl h, trivial⟩, ⟨I.pool, ?_, I2, I.live⟩, rfl, rfl⟩
  rw [← I.space]; exact tmAdd_space e2

/-- A block with a timer is taken. -/
theorem opened_step {s s' : St} {w : World} (I : Inv s w) {e : Nat} (hp : PoolInv s'.pool (owned s'))
    (htm : s'.tm = zeroTimer s.tm e) (ht : timers s' ~ e :: timers s) :
    w.Good 1024 [.opened e] ∧ Inv s' (w.next (.opened e)) := by
  have hnd := (ht.nodup_iff.mp (timers_nodup hp))
  rw [List.nodup_cons] at hnd
  have hset : s.tm.set e = false := by
    by_contra h
    exact hnd.1 (I.timer.univ e (by simpa using h))
  have I' : Inv s' (w.next (.opened e)) := by
    refine ⟨hp, by rw [htm]; exact I.space, ?_, ?_⟩
    · rw [htm]
      refine timer_inv_sub (zeroTimer_inv I.timer hset) ?_ ?_
      · have := timers_bound hp
        have := I.space
        simp only [zeroTimer]; omega
      · intro x hx
        have := (zeroTimer_inv I.timer hset).univ x hx
        exact (ht.mem_iff).mpr (by simp [this])
    · intro x
      simp only [World.next, ht.mem_iff, List.mem_cons, I.live]
  exact ⟨⟨fun h => hnd.1 ((I.live e).mp h), fun l hl h => live_bound I' hl h, trivial⟩, I'⟩

theorem open_step {s : St} {w : World} (I : Inv s w) : Step s w (openConn s) := by
  unfold openConn
  rcases alloc_small I.pool (n := 96) (by decide) (by decide) with ⟨e1, -⟩ | ⟨c, p1, e1, hc, P1⟩
  · rw [e1]; exact ⟨[], by simp, trivial, ⟨I.pool, I.space, I.timer, I.live⟩, Or.inl rfl⟩
  · rw [e1]
    simp only
    rcases alloc_small P1 (n := 104) (by decide) (by decide) with ⟨e2, -⟩ | ⟨e, p2, e2, he, P2⟩
    · rw [e2]
      simp only
      obtain ⟨p3, e3, P3⟩ := free_small P1
      rw [e3]
      exact ⟨[], by simp, trivial, ⟨P3, I.space, I.timer, I.live⟩, Or.inl rfl⟩
    · rw [e2]
      simp only
      have ht : s.dns.toList ++ (s.conns ++ [(c, e)]).map (·.2) ~ e :: timers s := by
        simp only [timers, List.map_append, List.map_cons, List.map_nil, ← List.append_assoc]
        exact List.perm_append_comm (l₂ := [e])
      have hp : PoolInv p2 ((s.dns.toList ++ (s.conns ++ [(c, e)]).map (·.2)) ++
          ((s.conns ++ [(c, e)]).map (·.1) ++ small s.others)) := by
        refine P2.perm ((List.Perm.append_right _ ht).trans ?_)
        simp only [List.cons_append, owned]
        refine List.Perm.cons _ ?_
        simp only [List.map_append, List.map_cons, List.map_nil]
        have : timers s ++ (List.map (·.1) s.conns ++ [c] ++ small s.others) ~ c :: (timers s ++ (List.map (·.1) s.conns ++ small s.others)) := by
          rw [List.append_assoc (List.map (·.1) s.conns), List.singleton_append]
          refine (List.Perm.append_left _ (List.perm_middle)).trans ?_
          exact List.perm_middle
        exact this
      have := opened_step (s' := { s with pool := p2, tm := zeroTimer s.tm e, conns := s.conns ++ [(c, e)], log := s.log ++ [.opened e] })
        I hp rfl ht
      exact ⟨[.opened e], rfl, this.1, this.2, Or.inl rfl⟩

theorem perm_eraseIdx {α : Type} {l : List α} {k : Nat} {x : α} (h : l[k]? = some x) : x :: l.eraseIdx k ~ l := by
  obtain ⟨hk, rfl⟩ := List.getElem?_eq_some_iff.mp h
  exact List.getElem_cons_eraseIdx_perm hk

theorem close_step {s : St} {w : World} (I : Inv s w) (hs : s.stop = none) (k : Nat) : Step s w (closeConn s k) := by
  unfold closeConn
  split
  · exact Step.refl I
  · rename_i c e hk
    have hmem : (c, e) ∈ s.conns := List.mem_of_getElem? hk
    have hpm := perm_eraseIdx hk
    have het : e ∈ timers s := by simp only [timers, List.mem_append, List.mem_map]; right; exact ⟨_, hmem, rfl⟩
    obtain ⟨tm, e1, f1, g1, I1⟩ := disarm_step I het
    simp only [e1, hs, Option.isSome_none, Bool.false_eq_true, if_false]
    have hpt : e :: (s.dns.toList ++ (s.conns.eraseIdx k).map (·.2)) ~ timers s := by
      unfold timers
      refine (List.perm_middle.symm).trans (List.Perm.append_left _ ?_)
      have := hpm.map (·.2)
      simpa using this
    have hpc : c :: (s.conns.eraseIdx k).map (·.1) ~ s.conns.map (·.1) := by
      have := hpm.map (·.1)
      simpa using this
    have hown : e :: c :: ((s.dns.toList ++ (s.conns.eraseIdx k).map (·.2)) ++ ((s.conns.eraseIdx k).map (·.1) ++ small s.others)) ~ owned s := by
      unfold owned
      refine List.Perm.trans ?_ (List.Perm.append hpt (List.Perm.append_right _ hpc))
      simp only [List.cons_append]
      refine List.Perm.cons _ ?_
      exact List.perm_middle.symm
    obtain ⟨p1, e2, P1⟩ := free_small (I.pool.perm hown)
    obtain ⟨p2, e3, P2⟩ := free_small P1
    simp only [giveBack, e2, Option.isSome_none, Bool.false_eq_true, if_false, e3]
    have hnd := hpt.nodup_iff.mpr (timers_nodup I.pool)
    rw [List.nodup_cons] at hnd
    have hnone : (w.next (.tm (.cancel e))).armed e = none := by simp [World.next, Timer.after]
    refine ⟨[.tm (.cancel e), .freed e], by simp, ?_, ?_, Or.inl hs.symm⟩
    · refine ⟨g1.1, g1.2.1, ⟨⟨(I.live e).mpr het, hnone⟩, ?_, trivial⟩⟩
      intro l hl h
      exact live_bound I hl (fun t ht => (h t ht).2)
    · refine ⟨P2, I1.space, ?_, ?_⟩
      · have ha : (List.foldl World.next w [.tm (.cancel e), .freed e]).armed = (w.next (.tm (.cancel e))).armed := by
          funext x
          simp only [List.foldl_cons, List.foldl_nil, World.next]
          split
          · rename_i hx; subst hx; simp [Timer.after]
          · rfl
        rw [ha]
        refine timer_inv_sub I1.timer ?_ ?_
        · have h1 := timers_bound I.pool
          have h2 := I1.space
          have h3 := hpt.length_eq
          rw [List.length_cons] at h3
          simp only at h2
          simp only [timers, h2]
          omega
        · intro t ht
          have h1 := I1.timer.univ t ht
          have h2 : t ∈ timers s := h1
          rw [← hpt.mem_iff, List.mem_cons] at h2
          rcases h2 with rfl | h2
          · exact absurd ht (by simp only [f1]; exact Bool.false_ne_true)
          · exact h2
      · intro x
        have hx := hpt.mem_iff (a := x)
        rw [List.mem_cons] at hx
        simp only [List.foldl_cons, List.foldl_nil, World.next, I.live, ← hx]
        constructor
        · rintro ⟨h1, h2 | h2⟩
          · exact absurd h2 h1
          · exact h2
        · intro h
          exact ⟨fun hx => hnd.1 (hx ▸ h), Or.inr h⟩

theorem dnsInit_step {s : St} {w : World} (I : Inv s w) : Step s w (dnsInit s) := by
  unfold dnsInit
  split
  · exact Step.refl I
  · rename_i hd
    rcases alloc_small I.pool (n := 48) (by decide) (by decide) with ⟨e1, -⟩ | ⟨e, p1, e1, he, P1⟩
    · rw [e1]; exact ⟨[], by simp, trivial, ⟨I.pool, I.space, I.timer, I.live⟩, Or.inl rfl⟩
    · rw [e1]
      simp only
      have ho := opened_step (s' := { s with pool := p1, tm := zeroTimer s.tm e, dns := some e, log := s.log ++ [.opened e] }) (e := e) I
        (by
          simp only [owned, timers, hd, Option.toList_some, Option.toList_none, List.nil_append, List.cons_append] at P1 ⊢
          exact P1) rfl (by simp [timers, hd])
      obtain ⟨g1, I1⟩ := ho
      obtain ⟨g2, I2, l2, s2⟩ := arm_step I1 (t := e) (by simp [timers]) 30000
      refine ⟨[.opened e] ++ [.tm (.arm e _)], ?_, (good_append _ [.opened e] _ _).mpr ⟨g1, g2⟩, ?_, Or.inl s2⟩
      · rw [l2, List.append_assoc]
      · exact I2

theorem other_step {s : St} {w : World} (I : Inv s w) (n : Int) :
    Step s w (other s n) ∧ (0 < n → n ≤ 512 → (other s n).stop = s.stop) := by
  unfold other
  rcases alloc_any I.pool n with ⟨e1, hn⟩ | ⟨e1, hn⟩ | e1 | ⟨j, p1, e1, hj, P1⟩ | ⟨i, j, p1, e1, hi, P1⟩
  · rw [e1]; exact ⟨⟨[], by simp [poolStop], trivial, inv_stop I _, by simp [poolStop]⟩, fun h _ => by omega⟩
  · rw [e1]; exact ⟨⟨[], by simp [poolStop], trivial, inv_stop I _, by simp [poolStop]⟩, fun _ h => by omega⟩
  · rw [e1]; exact ⟨⟨[], by simp, trivial, ⟨I.pool, I.space, I.timer, I.live⟩, Or.inl rfl⟩, fun _ _ => rfl⟩
  · rw [e1]
    refine ⟨⟨[], by simp, trivial, ⟨?_, I.space, I.timer, I.live⟩, Or.inl rfl⟩, fun _ _ => rfl⟩
    refine P1.perm ?_
    simp only [owned, timers, small, List.filter_append, List.map_append, List.filter_cons, decide_true, if_true, List.filter_nil, List.map_cons,
      List.map_nil, ← List.append_assoc]
    exact List.perm_append_comm (l₂ := [j])
  · rw [e1]
    refine ⟨⟨[], by simp, trivial, ⟨?_, I.space, I.timer, I.live⟩, Or.inl rfl⟩, fun _ _ => rfl⟩
    refine P1.perm ?_
    simp [owned, timers, small, List.filter_append, hi]

theorem otherFree_step {s : St} {w : World} (I : Inv s w) {k : Nat} {b : Nat × Nat} (hk : s.others[k]? = some b) :
    Step s w (giveBack { s with others := s.others.eraseIdx k } b) ∧
      (giveBack { s with others := s.others.eraseIdx k } b).stop = s.stop := by
  obtain ⟨i, j⟩ := b
  have hpm := perm_eraseIdx hk
  have hf := (hpm.filter (fun b => decide (b.1 = 0))).map (·.2)
  unfold giveBack
  by_cases hi : i = 0
  · subst hi
    simp only [List.filter_cons, decide_true, if_true, List.map_cons] at hf
    have ho : j :: (timers s ++ (s.conns.map (·.1) ++ small (s.others.eraseIdx k))) ~ owned s := by
      unfold owned
      refine (List.perm_middle.symm).trans (List.Perm.append_left _ ?_)
      refine (List.perm_middle.symm).trans (List.Perm.append_left _ ?_)
      exact hf
    obtain ⟨p, e1, P1⟩ := free_small (I.pool.perm ho)
    simp only [e1]
    exact ⟨⟨[], by simp, trivial, ⟨P1, I.space, I.timer, I.live⟩, Or.inl rfl⟩, trivial⟩
  · simp only [List.filter_cons, hi, decide_false, Bool.false_eq_true, if_false] at hf
    obtain ⟨p, e1, P1⟩ := free_large I.pool hi j
    simp only [e1]
    refine ⟨⟨[], by simp, trivial, ⟨P1.perm ?_, I.space, I.timer, I.live⟩, Or.inl rfl⟩, trivial⟩
    exact List.Perm.append_left _ (List.Perm.append_left _ hf)

theorem open_stop {s : St} {w : World} (I : Inv s w) : (openConn s).stop = s.stop := by
  unfold openConn
  rcases alloc_small I.pool (n := 96) (by decide) (by decide) with ⟨e1, -⟩ | ⟨c, p1, e1, hc, P1⟩
  · rw [e1]
  · rw [e1]
    simp only
    rcases alloc_small P1 (n := 104) (by decide) (by decide) with ⟨e2, -⟩ | ⟨e, p2, e2, he, P2⟩
    · rw [e2]
      obtain ⟨p3, e3, P3⟩ := free_small P1
      simp only [e3]
    · simp only [e2]

theorem close_stop {s : St} {w : World} (I : Inv s w) (hs : s.stop = none) (k : Nat) : (closeConn s k).stop = none := by
  obtain ⟨es, -, -, -, h | h | h⟩ := close_step I hs k
  · rw [h, hs]
  all_goals
    exfalso
    revert h
    unfold closeConn
    split
    · simp [hs]
    · rename_i c e hk
      have hmem : (c, e) ∈ s.conns := List.mem_of_getElem? hk
      have het : e ∈ timers s := by simp only [timers, List.mem_append, List.mem_map]; right; exact ⟨_, hmem, rfl⟩
      obtain ⟨tm, e1, -⟩ := disarm_step I het
      simp only [e1, hs, Option.isSome_none, Bool.false_eq_true, if_false, giveBack, Mem.free, I.pool.lock]
      simp

theorem dnsInit_stop {s : St} {w : World} (I : Inv s w) : (dnsInit s).stop = s.stop := by
  unfold dnsInit
  split
  · rfl
  · rename_i hd
    rcases alloc_small I.pool (n := 48) (by decide) (by decide) with ⟨e1, -⟩ | ⟨e, p1, e1, he, P1⟩
    · rw [e1]
    · rw [e1]
      simp only
      have ho := opened_step (s' := { s with pool := p1, tm := zeroTimer s.tm e, dns := some e, log := s.log ++ [.opened e] }) (e := e) I
        (by
          simp only [owned, timers, hd, Option.toList_some, Option.toList_none, List.nil_append, List.cons_append] at P1 ⊢
          exact P1) rfl (by simp [timers, hd])
      exact (arm_step ho.2 (t := e) (by simp [timers]) 30000).2.2.2

theorem act_step {s : St} {w : World} (I : Inv s w) (a : Act) : Step s w (act s a) ∧ (a.fits → s.stop = none → (act s a).stop = none) := by
  unfold act
  split
  · rename_i h; exact ⟨Step.refl I, fun _ hs => hs⟩
  · rename_i hs
    have hs : s.stop = none := by simpa using hs
    cases a with
    | «open» => exact ⟨open_step I, fun _ _ => by simp only [open_stop I, hs]⟩
    | close k => exact ⟨close_step I hs k, fun _ _ => close_stop I hs k⟩
    | arm k d =>
      simp only
      split
      · exact ⟨Step.refl I, fun _ hs => hs⟩
      · rename_i c e hk
        have het : e ∈ timers s := by
          simp only [timers, List.mem_append, List.mem_map]; right; exact ⟨_, List.mem_of_getElem? hk, rfl⟩
        obtain ⟨g, I1, l1, st⟩ := arm_step I het d
        exact ⟨⟨_, l1, g, I1, Or.inl st⟩, fun _ _ => by rw [st, hs]⟩
    | disarm k =>
      simp only
      split
      · exact ⟨Step.refl I, fun _ hs => hs⟩
      · rename_i c e hk
        have het : e ∈ timers s := by
          simp only [timers, List.mem_append, List.mem_map]; right; exact ⟨_, List.mem_of_getElem? hk, rfl⟩
        obtain ⟨tm, e1, -, g, I1⟩ := disarm_step I het
        rw [e1]
        exact ⟨⟨_, rfl, g, I1, Or.inl rfl⟩, fun _ _ => hs⟩
    | dnsInit => exact ⟨dnsInit_step I, fun _ _ => by simp only [dnsInit_stop I, hs]⟩
    | dnsArm =>
      simp only
      split
      · exact ⟨Step.refl I, fun _ hs => hs⟩
      · rename_i e hd
        obtain ⟨g, I1, l1, st⟩ := arm_step I (t := e) (by simp [timers, hd]) 30000
        exact ⟨⟨_, l1, g, I1, Or.inl st⟩, fun _ _ => by rw [st, hs]⟩
    | other n =>
      obtain ⟨h1, h2⟩ := other_step I n
      exact ⟨h1, fun hf _ => by simp only [h2 hf.1 hf.2, hs]⟩
    | otherFree k =>
      simp only
      split
      · exact ⟨Step.refl I, fun _ hs => hs⟩
      · rename_i b hk
        obtain ⟨h1, h2⟩ := otherFree_step I hk
        exact ⟨h1, fun _ _ => by rw [h2, hs]⟩

theorem Step.trans {s s' s'' : St} {w : World} (h : Step s w s')
    (h' : ∀ w', Inv s' w' → Step s' w' s'') : Step s w s'' := by
  obtain ⟨es, l1, g1, I1, st1⟩ := h
  obtain ⟨es', l2, g2, I2, st2⟩ := h' _ I1
  refine ⟨es ++ es', by rw [l2, l1, List.append_assoc], (good_append _ _ _ _).mpr ⟨g1, g2⟩, by rw [List.foldl_append]; exact I2, ?_⟩
  rcases st2 with h | h | h
  · rw [h]; exact st1
  · exact Or.inr (Or.inl h)
  · exact Or.inr (Or.inr h)

theorem acts_step : ∀ (as : List Act) {s : St} {w : World}, Inv s w →
    Step s w (acts s as) ∧ ((∀ a ∈ as, a.fits) → s.stop = none → (acts s as).stop = none)
  | [], s, w, I => ⟨Step.refl I, fun _ h => h⟩
  | a :: as, s, w, I => by
    obtain ⟨h1, h2⟩ := act_step I a
    obtain ⟨es, -, -, I1, -⟩ := id h1
    refine ⟨h1.trans (fun w' I' => (acts_step as I').1), fun hf hs => ?_⟩
    exact (acts_step as I1).2 (fun b hb => hf b (by simp [hb])) (h2 (hf a (by simp)) hs)

theorem tm_foldl : ∀ (es : List Timer.Ev) (w : World),
    ((es.map Ev.tm).foldl World.next w).live = w.live ∧ ((es.map Ev.tm).foldl World.next w).armed = es.foldl Timer.after w.armed
  | [], w => ⟨rfl, rfl⟩
  | e :: es, w => by
    have := tm_foldl es (w.next (.tm e))
    exact ⟨this.1, this.2⟩

/-- A quiet pass only fires timers that are armed and due. -/
theorem quiet_good {s : St} {w : World} (I : Inv s w) : ∀ (es : List Timer.Ev) (a : Timer.Armed), Timer.Sound a es →
    (∀ e ∈ es, ∃ t n, e = .fire t n) → (∀ t d, a t = some d → t ∈ timers s) →
    World.Good 1024 ⟨w.live, a⟩ (es.map Ev.tm)
  | [], a, _, _, _ => trivial
  | e :: es, a, hs, hf, hl => by
    obtain ⟨t, n, rfl⟩ := hf e (by simp)
    obtain ⟨⟨d, h1, h2⟩, h3⟩ := hs
    refine ⟨⟨(I.live t).mpr (hl t d h1), d, h1, h2⟩, fun l hl h => live_bound I hl h, ?_⟩
    refine quiet_good I es _ h3 (fun e he => hf e (by simp [he])) ?_
    intro t' d' h'
    simp only [Timer.after] at h'
    split at h'
    · cases h'
    · exact hl t' d' h'

theorem quiet_fires (s : Timer.St) : ∀ {es w s'}, Timer.expireQuiet s = some (es, w, s') → ∀ e ∈ es, ∃ t n, e = Timer.Ev.fire t n := by
  fun_induction Timer.expireQuiet s with
  | case1 s hm => intro es w s' h; cases h; simp
  | case2 s m hm hk => intro es w s' h; cases h; simp
  | case3 s m hm hk hd => intro es w s' h; cases h
  | case4 s m hm hk s1 hd hlt ih =>
    intro es w s' h
    simp only [Option.map_eq_some_iff] at h
    obtain ⟨⟨e2, w2, s3⟩, h2, h3⟩ := h
    simp only [Prod.mk.injEq] at h3
    obtain ⟨rfl, rfl, rfl⟩ := h3
    intro e he
    rw [List.mem_cons] at he
    rcases he with rfl | he
    · exact ⟨_, _, rfl⟩
    · exact ih h2 e he
  | case5 s m hm hk s1 hd hlt => intro es w s' h; cases h

theorem expire_step : ∀ (cbs : List (List Act)) {s : St} {w : World}, Inv s w →
    Step s w (expire s cbs) ∧ ((∀ a ∈ cbs.flatten, a.fits) → s.stop = none → (expire s cbs).stop = none)
  | [], s, w, I => by
    unfold expire
    split
    · exact ⟨Step.refl I, fun _ h => h⟩
    · obtain ⟨es, wt, tm, e1, I1, -, so, -⟩ := Timer.expireQuiet_spec s.tm I.timer
      rw [e1]
      refine ⟨⟨es.map Ev.tm, rfl, ?_, ?_, Or.inl rfl⟩, fun _ h => h⟩
      · refine quiet_good I es w.armed so (quiet_fires s.tm e1) ?_
        intro t d h
        have := I.timer.armed t
        rw [h] at this
        split at this
        · rename_i h2; exact I.timer.univ t h2
        · cases this
      · have := tm_foldl es w
        refine ⟨I.pool, by rw [← I.space]; exact expireQuiet_space s.tm e1, by rw [this.2]; exact I1, ?_⟩
        intro x; rw [this.1]; exact I.live x
  | cb :: rest, s, w, I => by
    unfold expire
    split
    · exact ⟨Step.refl I, fun _ h => h⟩
    · split
      · exact ⟨Step.refl I, fun _ h => h⟩
      · rename_i m hm
        split
        · exact ⟨Step.refl I, fun _ h => h⟩
        · rename_i hk
          obtain ⟨tm, e1, I1, n1, -⟩ := Timer.tmDel_spec I.timer m
          rw [e1]
          simp only
          obtain ⟨hn, rfl, hmem⟩ := Timer.minNode_mem hm
          have hset := (I.timer.mem _).mp hmem
          have hlive : s.tm.heap.arr 1 ∈ timers s := I.timer.univ _ hset
          have hI : Inv { s with tm := tm, log := s.log ++ [.tm (.fire (s.tm.heap.arr 1) s.tm.now)] }
              (w.next (.tm (.fire (s.tm.heap.arr 1) s.tm.now))) :=
            ⟨I.pool, by rw [← I.space]; exact tmDel_space e1, I1, I.live⟩
          have h0 : Step s w { s with tm := tm, log := s.log ++ [.tm (.fire (s.tm.heap.arr 1) s.tm.now)] } := by
            refine ⟨[.tm (.fire (s.tm.heap.arr 1) s.tm.now)], rfl, ?_, hI, Or.inl rfl⟩
            refine ⟨⟨(I.live _).mpr hlive, s.tm.heap.key (s.tm.heap.arr 1), ?_, by omega⟩, fun l hl h => live_bound I hl h, trivial⟩
            rw [I.timer.armed, if_pos hset]
          obtain ⟨a1, a2⟩ := acts_step cb hI
          obtain ⟨es, -, -, I2, -⟩ := id a1
          obtain ⟨b1, b2⟩ := expire_step rest I2
          refine ⟨h0.trans (fun w' I' => (acts_step cb I').1.trans (fun w'' I'' => (expire_step rest I'').1)), fun hf hs => ?_⟩
          refine b2 (fun a ha => hf a ?_) (a2 (fun a ha => hf a ?_) hs)
          · rw [List.flatten_cons, List.mem_append]; exact Or.inr ha
          · rw [List.flatten_cons, List.mem_append]; exact Or.inl ha

theorem step_step {s : St} {w : World} (I : Inv s w) (op : Op) :
    Step s w (step s op) ∧ (op.fits → s.stop = none → (step s op).stop = none) := by
  unfold step
  split
  · exact ⟨Step.refl I, fun _ h => h⟩
  · cases op with
    | act a => exact act_step I a
    | clock n =>
      refine ⟨⟨[], by simp, trivial, ⟨I.pool, I.space, ?_, I.live⟩, Or.inl rfl⟩, fun _ h => h⟩
      exact ⟨I.timer.indexed, I.timer.room, I.timer.pos, I.timer.mem, I.timer.armed, I.timer.univ⟩
    | expire cbs => exact expire_step cbs I

theorem run_step : ∀ (ops : List Op) {s : St} {w : World}, Inv s w →
    Step s w (run s ops) ∧ ((∀ op ∈ ops, op.fits) → s.stop = none → (run s ops).stop = none)
  | [], s, w, I => ⟨Step.refl I, fun _ h => h⟩
  | op :: ops, s, w, I => by
    obtain ⟨h1, h2⟩ := step_step I op
    obtain ⟨es, -, -, I1, -⟩ := id h1
    refine ⟨h1.trans (fun w' I' => (run_step ops I').1), fun hf hs => ?_⟩
    exact (run_step ops I1).2 (fun b hb => hf b (by simp [hb])) (h2 (hf op (by simp)) hs)

theorem init_inv (base : Nat → Nat) (now : Int) : Inv (init base now) World.empty where
  pool := ⟨rfl, by simp [init, Mem.init, Mem.count], by simp [owned, timers, init, small, Mem.init]⟩
  space := rfl
  timer := by
    have := Timer.init_inv [] (by decide) now
    exact this
  live := by intro x; simp [World.empty, timers, init]

end Verif.Conns
