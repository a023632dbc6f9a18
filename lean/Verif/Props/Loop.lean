import Verif.Model.Loop
import Verif.Spec.Clock
import Verif.Props.Timer
/-
Property C77: timers last as long as they should.
-/
namespace Verif.Timer
open Verif.BHeap (Ordered elems mem_elems)

theorem onTime_append (off late : Int) : ∀ (es es' : List (Int × Ev)) (a : Armed),
    OnTime off late a (es ++ es') ↔ OnTime off late a es ∧ OnTime off late ((es.map (·.2)).foldl after a) es'
  | [], es', a => by simp [OnTime]
  | (p, e) :: es, es', a => by simp [OnTime, onTime_append off late es es', and_assoc]

theorem act_arms {s : St} {x : Act} {es : List Ev} {s' : St} (h : act s x = some (es, s')) (hx : x.delayOk) :
    ∀ t d, .arm t d ∈ es → s.now ≤ d ∧ d < s.now + 2147483648 := by
  intro t d hm
  cases x with
  | add t' d' =>
    rw [(c21_times s).1 t' d' es s' h] at hm
    simp only [List.mem_singleton, Ev.arm.injEq] at hm
    obtain ⟨-, rfl⟩ := hm
    simp only [Act.delayOk] at hx
    omega
  | del t' =>
    simp only [act, Option.map_eq_some_iff, Prod.mk.injEq] at h
    obtain ⟨_, _, rfl, _⟩ := h
    simp at hm

theorem act_now {s : St} {x : Act} {es : List Ev} {s' : St} (h : act s x = some (es, s')) :
    s'.now = s.now ∧ ∀ t time, .fire t time ∉ es := by
  have hd : ∀ t s', tmDel s t = some s' → s'.now = s.now := by
    intro t s' h
    unfold tmDel at h
    split at h
    · rw [Option.map_eq_some_iff] at h
      obtain ⟨r, -, rfl⟩ := h; rfl
    · cases h; rfl
  cases x with
  | add t d =>
    simp only [act, tmAdd, Option.map_eq_some_iff, Prod.mk.injEq] at h
    obtain ⟨s1, ⟨s2, h2, rfl⟩, rfl, rfl⟩ := h
    exact ⟨hd t s2 h2, by simp⟩
  | del t =>
    simp only [act, Option.map_eq_some_iff, Prod.mk.injEq] at h
    obtain ⟨s1, h2, rfl, rfl⟩ := h
    exact ⟨hd t _ h2, by simp⟩

theorem acts_arms : ∀ {xs : List Act} {s : St} {es : List Ev} {s' : St}, acts s xs = some (es, s') → (∀ x ∈ xs, x.delayOk) →
    (∀ t d, .arm t d ∈ es → s.now ≤ d ∧ d < s.now + 2147483648) ∧ s'.now = s.now ∧ ∀ t time, .fire t time ∉ es
  | [], s, es, s', h, _ => by
    simp only [acts, Option.some.injEq, Prod.mk.injEq] at h
    obtain ⟨rfl, rfl⟩ := h
    simp
  | x :: xs, s, es, s', h, hx => by
    simp only [acts, Option.bind_eq_some_iff, Option.map_eq_some_iff] at h
    obtain ⟨⟨e1, s1⟩, h1, ⟨e2, s2⟩, h2, h3⟩ := h
    simp only [Prod.mk.injEq] at h3
    obtain ⟨rfl, rfl⟩ := h3
    obtain ⟨n1, f1⟩ := act_now h1
    obtain ⟨a2, n2, f2⟩ := acts_arms h2 (fun y hy => hx y (by simp [hy]))
    rw [n1] at a2
    refine ⟨fun t d hm => ?_, by rw [n2, n1], fun t time hm => ?_⟩
    · rcases List.mem_append.mp hm with hm | hm
      · exact act_arms h1 (hx x (by simp)) t d hm
      · exact a2 t d hm
    · rcases List.mem_append.mp hm with hm | hm
      · exact f1 t time hm
      · exact f2 t time hm

theorem expire_arms (s : St) (cbs : List (List Act)) : ∀ {es : List Ev} {w : Int} {s' : St}, expire s cbs = some (es, w, s') →
    (∀ x ∈ cbs.flatten, x.delayOk) → ∀ t d, .arm t d ∈ es → s.now ≤ d ∧ d < s.now + 2147483648 := by
  have delNow : ∀ (s s1 : St) m, tmDel s m = some s1 → s1.now = s.now := fun s s1 m hd =>
    (act_now (s := s) (x := .del m) (es := [.cancel m]) (s' := s1) (by simp [act, hd])).1
  have quiet : ∀ (s : St) {es : List Ev} {w : Int} {s' : St}, expireQuiet s = some (es, w, s') → ∀ t d, .arm t d ∉ es := by
    intro s
    fun_induction expireQuiet s with
    | case1 s hm => intro es w s' h; cases h; simp
    | case2 s m hm hk => intro es w s' h; cases h; simp
    | case3 s m hm hk hd => intro es w s' h; cases h
    | case4 s m hm hk s1 hd hlt ih =>
      intro es w s' h
      simp only [Option.map_eq_some_iff] at h
      obtain ⟨⟨e2, w2, s3⟩, h2, h3⟩ := h
      simp only [Prod.mk.injEq] at h3
      obtain ⟨rfl, rfl, rfl⟩ := h3
      intro t d hmem
      simp only [List.mem_cons, reduceCtorEq, false_or] at hmem
      exact ih h2 t d hmem
    | case5 s m hm hk s1 hd hlt => intro es w s' h; cases h
  fun_induction expire s cbs with
  | case1 s => intro es w s' h _ t d hm; exact absurd hm (quiet s h t d)
  | case2 s cb rest hm => intro es w s' h; cases h; simp
  | case3 s cb rest m hm hk => intro es w s' h; cases h; simp
  | case4 s cb rest m hm hk hd => intro es w s' h; cases h
  | case5 s cb rest m hm hk s1 hd ih =>
    intro es w s' h hx
    simp only [Option.bind_eq_some_iff, Option.map_eq_some_iff] at h
    obtain ⟨⟨e1, s2⟩, h1, ⟨e2, w2, s3⟩, h2, h3⟩ := h
    simp only [Prod.mk.injEq] at h3
    obtain ⟨rfl, rfl, rfl⟩ := h3
    obtain ⟨a1, n1, -⟩ := acts_arms h1 (fun y hy => hx y (by simp [hy]))
    have a2 := ih s2 h2 (fun y hy => hx y (by simp at hy ⊢; right; exact hy))
    rw [n1, delNow _ _ _ hd] at a2
    rw [delNow _ _ _ hd] at a1
    intro t d hmem
    simp only [List.cons_append, List.mem_cons, reduceCtorEq, List.mem_append, false_or] at hmem
    rcases hmem with hmem | hmem
    · exact a1 t d hmem
    · exact a2 t d hmem

/-- Deadlines that are not long past and not far away. -/
def Near (lo hi : Int) (a : Armed) : Prop := ∀ t d, a t = some d → lo ≤ d ∧ d < hi

theorem near_foldl {lo hi : Int} : ∀ (es : List Ev) (a : Armed), Near lo hi a → (∀ t d, .arm t d ∈ es → lo ≤ d ∧ d < hi) →
    Near lo hi (es.foldl after a)
  | [], _, h, _ => h
  | e :: es, a, h, he => by
    refine near_foldl es (after a e) ?_ (fun t d hm => he t d (by simp [hm]))
    intro t d hd
    cases e with
    | arm t' d' =>
      simp only [after] at hd
      split at hd
      · simp only [Option.some.injEq] at hd
        exact hd ▸ he t' d' (by simp)
      · exact h t d hd
    | cancel t' => simp only [after] at hd; split at hd; · cases hd
                   exact h t d hd
    | fire t' _ => simp only [after] at hd; split at hd; · cases hd
                   exact h t d hd

/-- The events of an expiry pass at real time `p`. -/
theorem onTime_pass {off late p now lo hi : Int} (hn : now ≤ p + off) (hl : p + off ≤ lo + late) :
    ∀ (es : List Ev) (a : Armed), Sound a es → Near lo hi a → (∀ t d, .arm t d ∈ es → lo ≤ d ∧ d < hi) →
      (∀ t time, .fire t time ∈ es → time = now) → OnTime off late a (es.map (p, ·))
  | [], _, _, _, _, _ => trivial
  | e :: es, a, hs, hN, ha, hf => by
    have hN' : Near lo hi (after a e) := by
      have := near_foldl [e] a hN (fun t d hm => ha t d (by simp at hm; simp [hm]))
      simpa using this
    have ih := onTime_pass hn hl es (after a e) hs.2 hN' (fun t d hm => ha t d (by simp [hm])) (fun t d hm => hf t d (by simp [hm]))
    refine ⟨?_, ih⟩
    cases e with
    | fire t time =>
      obtain ⟨d, hd, hle⟩ := hs.1
      have := hf t time (by simp)
      have := hN t d hd
      exact ⟨d, hd, by omega, by omega⟩
    | arm t d => trivial
    | cancel t => trivial

theorem onTime_acts {off late p : Int} : ∀ (es : List Ev) (a : Armed), (∀ t time, .fire t time ∉ es) → OnTime off late a (es.map (p, ·))
  | [], _, _ => trivial
  | e :: es, a, h => by
    refine ⟨?_, onTime_acts es _ (fun t d hm => h t d (by simp [hm]))⟩
    cases e with
    | fire t time => exact absurd (List.mem_cons_self ..) (h t time)
    | arm t d => trivial
    | cancel t => trivial

theorem toInt_id {w : Int} (h1 : 0 ≤ w) (h2 : w < 2147483648) : toInt w = w := by unfold toInt; omega

/-- The timers a turn names. -/
def Turn.acted (t : Turn) : List Act := t.cbs.flatten ++ t.acts

/-- The state between turns: clock `now`, real time `p`. -/
structure Good (off busy : Int) (U : List Nat) (s : St) (p : Int) (a : Armed) : Prop where
  inv : Inv U s a
  ord : Ordered s.heap
  past : s.now ≤ p + off
  fresh : p + off ≤ s.now + busy
  near : Near (s.now - busy) (s.now + 2147483648) a

theorem turn_good {off busy : Int} (_hb : 0 ≤ busy) {wall : Int → Int} (hw : ∀ r, wall r = r + off) {U : List Nat} {s : St} {p : Int}
    {a : Armed} (G : Good off busy U s p a) (t : Turn) (hU : ∀ x ∈ t.acted, x.timer ∈ U ∧ x.delayOk) (hbusy : 0 ≤ t.busy ∧ t.busy ≤ busy)
    {es : List (Int × Ev)} {s' : St} {p' : Int} (h : turn wall s p t = some (es, s', p')) (hc : Calm a (es.map (·.2))) :
    OnTime off (2 * busy) a es ∧ Good off busy U s' p' ((es.map (·.2)).foldl after a) := by
  obtain ⟨e1, w, s1, r1, I1, n1, so1, en1, o1⟩ := expire_spec s t.cbs G.inv (fun x hx => (hU x (by simp [Turn.acted, -List.mem_flatten, hx])).1)
  have arms1 := expire_arms s t.cbs r1 (fun x hx => (hU x (by simp [Turn.acted, -List.mem_flatten, hx])).2)
  have fires1 := (c21_times s).2 t.cbs e1 w s1 r1
  unfold turn at h
  rw [r1] at h
  simp only [Option.bind_some] at h
  split at h
  · rename_i hsl
    simp only [Option.map_eq_some_iff, Prod.mk.injEq] at h
    obtain ⟨⟨e2, s2⟩, r2, rfl, rfl, rfl⟩ := h
    have hmap : ((e1.map (p, ·) ++ e2.map (p + t.slept, ·)).map (·.2)) = e1 ++ e2 := by
      simp [List.map_append, Function.comp_def]
    rw [hmap] at hc ⊢
    rw [calm_append] at hc
    rw [List.foldl_append]
    have O1 : Ordered s1.heap := o1 G.ord hc.1
    have I1' : Inv U { s1 with now := wall (p + t.slept) } (e1.foldl after a) :=
      ⟨I1.indexed, I1.room, I1.pos, I1.mem, I1.armed, I1.univ⟩
    obtain ⟨e2', s2', r2', I2, n2, so2, o2⟩ := acts_spec t.acts I1' (fun x hx => (hU x (by simp [Turn.acted, hx])).1)
    rw [r2] at r2'
    obtain ⟨rfl, rfl⟩ := Prod.mk.inj (Option.some.inj r2')
    obtain ⟨arms2, -, fires2⟩ := acts_arms r2 (fun x hx => (hU x (by simp [Turn.acted, hx])).2)
    simp only [hw] at n2 arms2
    have N1 : Near (s.now - busy) (s.now + 2147483648) (e1.foldl after a) :=
      near_foldl e1 a G.near (fun t d hm => by have := arms1 t d hm; omega)
    -- the wait reaches to the earliest deadline
    have hwait : ∀ t d, (e1.foldl after a) t = some d → s.now < d ∧ w ≤ d - s.now ∧ 0 < w ∧ w < 2147483648 := by
      intro x d hd
      have hnear := N1 x d hd
      rw [I1.armed] at hd
      split at hd
      · rename_i hs
        cases hd
        obtain ⟨k, k1, kn, rfl⟩ := mem_elems.mp ((I1.mem x).mpr hs)
        have hroot := BHeap.ordered_root O1 k k1 kn
        rcases en1 with ⟨hm, -⟩ | ⟨m, hm, hlt, rfl⟩
        · have := I1.pos
          unfold BHeap.minNode at hm
          split at hm
          · omega
          · cases hm
        · obtain ⟨-, rfl, -⟩ := minNode_mem hm
          omega
      · cases hd
    simp only [sleeps, decide_eq_true_eq] at hsl
    have hpast := G.past
    have hfresh := G.fresh
    have N2 : Near (p + t.slept + off - busy) (p + t.slept + off + 2147483648) (e1.foldl after a) := by
      intro x d hd
      obtain ⟨h1, h2, h3, h4⟩ := hwait x d hd
      rw [toInt_id (by omega) h4] at hsl
      have := N1 x d hd
      omega
    refine ⟨(onTime_append _ _ _ _ _).mpr ⟨?_, ?_⟩, ⟨I2, o2 O1 hc.2, ?_, ?_, ?_⟩⟩
    · exact onTime_pass hpast (lo := s.now - busy) (hi := s.now + 2147483648) (by omega) e1 a so1 G.near
        (fun t d hm => by have := arms1 t d hm; omega) fires1
    · exact onTime_acts e2 _ fires2
    · rw [n2]; omega
    · rw [n2]; omega
    · rw [n2]
      exact near_foldl e2 _ N2 (fun t d hm => by have := arms2 t d hm; omega)
  · cases h

theorem turns_good {off busy : Int} (hb : 0 ≤ busy) {wall : Int → Int} (hw : ∀ r, wall r = r + off) {U : List Nat} :
    ∀ (ts : List Turn) {s : St} {p : Int} {a : Armed}, Good off busy U s p a →
    (∀ t ∈ ts, (∀ x ∈ t.acted, x.timer ∈ U ∧ x.delayOk) ∧ 0 ≤ t.busy ∧ t.busy ≤ busy) →
    ∀ {es : List (Int × Ev)} {s' : St} {p' : Int}, turns wall s p ts = some (es, s', p') → Calm a (es.map (·.2)) →
    OnTime off (2 * busy) a es ∧ Good off busy U s' p' ((es.map (·.2)).foldl after a)
  | [], s, p, a, G, _, es, s', p', h, _ => by
    simp only [turns, Option.some.injEq, Prod.mk.injEq] at h
    obtain ⟨rfl, rfl, rfl⟩ := h
    exact ⟨trivial, G⟩
  | t :: ts, s, p, a, G, hts, es, s', p', h, hc => by
    simp only [turns, Option.bind_eq_some_iff, Option.map_eq_some_iff] at h
    obtain ⟨⟨e1, s1, p1⟩, h1, ⟨e2, s2, p2⟩, h2, h3⟩ := h
    simp only [Prod.mk.injEq] at h3
    obtain ⟨rfl, rfl, rfl⟩ := h3
    rw [List.map_append, calm_append] at hc
    obtain ⟨ht, htb⟩ := hts t (by simp)
    obtain ⟨o1, G1⟩ := turn_good hb hw G t ht htb h1 hc.1
    obtain ⟨o2, G2⟩ := turns_good hb hw ts G1 (fun t' ht' => hts t' (by simp [ht'])) h2 hc.2
    refine ⟨(onTime_append _ _ _ _ _).mpr ⟨o1, o2⟩, ?_⟩
    rw [List.map_append, List.foldl_append]
    exact G2

/-- C77, for a clock that runs evenly (always `off` ahead of real time) and histories in which no armed timer is cancelled or re-armed except
one due before all others. If handlers, callbacks and the scheduler never take more than `busy` in one turn of the loop, every timer callback
runs no earlier than its deadline and no later than `2 * busy` after it, and at no moment is a timer overdue by more than that. The full
property, for every clock, is false: see the counterexamples; for arbitrary cancellations see `c22_late_counterexample`. -/
theorem c77_on_time_partial (off busy : Int) (hb : 0 ≤ busy) (wall : Int → Int) (hw : ∀ r, wall r = r + off)
    (U : List Nat) (hU : U.length ≤ 1536) (start : Int) (ts : List Turn)
    (hts : ∀ t ∈ ts, (∀ x ∈ t.cbs.flatten ++ t.acts, x.timer ∈ U ∧ x.delayOk) ∧ 0 ≤ t.busy ∧ t.busy ≤ busy)
    {es : List (Int × Ev)} {s : St} {real : Int} (h : turns wall (init (wall start)) start ts = some (es, s, real))
    (hc : Calm (fun _ => none) (es.map (·.2))) :
    OnTime off (2 * busy) (fun _ => none) es ∧
    ∀ t d, ((es.map (·.2)).foldl after (fun _ => none)) t = some d → real + off ≤ d + 2 * busy := by
  have G0 : Good off busy U (init (wall start)) start (fun _ => none) :=
    ⟨init_inv U hU _, init_ordered _, by simp [init, hw], by simp [init, hw]; omega, by intro t d h; cases h⟩
  obtain ⟨o, G⟩ := turns_good hb hw ts G0 hts h hc
  refine ⟨o, fun t d hd => ?_⟩
  have h1 := G.near t d hd
  have h2 := G.fresh
  omega

/-- C77: the loop is never stuck before a turn: with any clock, whatever the callbacks and handlers do, a turn is possible with some
time in `epoll_wait`. -/
theorem c77_turn_possible (U : List Nat) (hU : U.length ≤ 1536) (wall : Int → Int) (start : Int) (ops : List Op)
    (hops : ∀ op ∈ ops, ∀ t ∈ op.timers, t ∈ U) (cbs : List (List Act)) (as : List Act)
    (hx : ∀ x ∈ cbs.flatten ++ as, x.timer ∈ U) {es : List Ev} {s : St} (h : run (init (wall start)) ops = some (es, s)) (p busy : Int) :
    (turn wall s p ⟨cbs, 0, as, busy⟩).isSome := by
  obtain ⟨es0, s0, g1, I, -, -⟩ := run_spec ops (init_inv U hU (wall start)) hops
  rw [h] at g1; cases g1
  obtain ⟨e1, w, s1, r1, I1, -⟩ := expire_spec s cbs I (fun x hm => hx x (by simp [-List.mem_flatten, hm]))
  have I1' : Inv U { s1 with now := wall (p + 0) } (e1.foldl after (es.foldl after fun _ => none)) :=
    ⟨I1.indexed, I1.room, I1.pos, I1.mem, I1.armed, I1.univ⟩
  obtain ⟨e2, s2, r2, -⟩ := acts_spec as I1' (fun x hm => hx x (by simp [hm]))
  unfold turn
  rw [r1]
  simp only [Option.bind_some]
  rw [if_pos (by simp only [sleeps, decide_eq_true_eq]; omega), r2]
  simp

/-- A clock that is set by `by_` at real time `at_`. -/
def stepped (at_ by_ : Int) : Int → Int := fun r => if r < at_ then r else r + by_

theorem start_turn (wall : Int → Int) (start d : Int) (hw : wall start = start) :
    ∃ s, turn wall (init start) start ⟨[], 0, [.add 1 d], 0⟩ = some ([(start, .arm 1 (start + d))], s, start) ∧
      Inv [1] s (after (fun _ => none) (.arm 1 (start + d))) ∧ s.now = start := by
  have I0 : Inv [1] { init start with now := wall (start + 0) } (fun _ => none) := by
    have := init_inv [1] (by decide) (start); exact ⟨this.indexed, this.room, this.pos, this.mem, this.armed, this.univ⟩
  obtain ⟨s', e1, I1, n1, -⟩ := tmAdd_spec I0 (t := 1) (by simp) d
  refine ⟨s', ?_, ?_, ?_⟩
  · have h0 : expire (init start) [] = some ([], 200, init start) := by
      simp [expire, expireQuiet, BHeap.minNode, init, BHeap.create]
    unfold turn
    simp only [h0, Option.bind_some]
    rw [if_pos (by decide)]
    simp only [acts, act, e1, Option.map_some, Option.bind_some]
    simp [hw]
  · simpa [hw] using I1
  · simpa [hw] using n1

/-- One timer armed. -/
theorem one_turn {s : St} {d : Int} (I : Inv [1] s (after (fun _ => none) (.arm 1 d))) :
    (d ≤ s.now → ∃ s', expire s [] = some ([.fire 1 s.now], 200, s') ∧ Inv [1] s' (fun _ => none)) ∧
    (s.now < d → expire s [] = some ([], d - s.now, s)) := by
  have hset : s.set 1 = true := by
    have := I.armed 1; simp only [after] at this
    by_contra hc
    rw [if_neg hc] at this; simp at this
  have hkey : s.heap.key 1 = d := by
    have := I.armed 1; simp only [after, if_pos hset] at this; simpa using this.symm
  have hothers : ∀ x, s.set x = true → x = 1 := fun x hx => by simpa using I.univ x hx
  have hmem := (I.mem 1).mpr hset
  obtain ⟨k, k1, kn, hk⟩ := mem_elems.mp hmem
  have hmin : BHeap.minNode s.heap = some 1 := by
    unfold BHeap.minNode
    rw [if_neg (by have := I.pos; omega)]
    rw [hothers _ ((I.mem _).mp (mem_elems.mpr ⟨1, by omega, by omega, rfl⟩))]
  constructor
  · intro hle
    obtain ⟨es, w, s', r, I', n', so, en, -⟩ := expire_spec s [] I (by simp)
    have hq : expire s [] = expireQuiet s := rfl
    obtain ⟨s1, e1, I1, n1, -, hn1, -⟩ := tmDel_spec I 1
    have hcancel : after (after (fun _ => none) (.arm 1 d)) (.cancel 1) = fun _ => none := by
      funext x; simp only [after]; split <;> rfl
    rw [hcancel] at I1
    have hno : ∀ x, s1.set x ≠ true := by
      intro x hx; have := I1.armed x; rw [if_pos hx] at this; cases this
    have hmin1 : BHeap.minNode s1.heap = none := by
      cases hm : BHeap.minNode s1.heap with
      | none => rfl
      | some m => exact absurd ((I1.mem m).mp (minNode_mem hm).2.2) (hno m)
    refine ⟨s1, ?_, I1⟩
    rw [hq, expireQuiet.eq_def]
    simp only [hmin, e1]
    rw [if_neg (by omega)]
    split
    · rename_i hm
      rw [expireQuiet.eq_def, hmin1]
      rfl
    · rename_i hlt
      have := hn1 hset
      omega
  · intro hlt
    have hq : expire s [] = expireQuiet s := rfl
    rw [hq, expireQuiet.eq_def]
    simp only [hmin]
    rw [if_pos (by omega), hkey]

/-- C77 is false when the clock is set forward: a timer of any length `d` fires at once, without any of its time having passed, if the clock
jumps ahead by `d`. -/
theorem c77_forward_counterexample (start d : Int) (hd : 0 < d) (hd' : d < 2147483648) :
    ∃ s, turns (stepped (start + 1) d) (init start) start [⟨[], 0, [.add 1 d], 0⟩, ⟨[], 1, [], 0⟩, ⟨[], 0, [], 0⟩] =
      some ([(start, .arm 1 (start + d)), (start + 1, .fire 1 (start + 1 + d))], s, start + 1) := by
  obtain ⟨s, h1, I, n⟩ := start_turn (stepped (start + 1) d) start d (by simp only [stepped]; rw [if_pos (by omega)])
  have h2 := (one_turn I).2 (by omega)
  have I2 : Inv [1] { s with now := stepped (start + 1) d (start + 1) } (after (fun _ => none) (.arm 1 (start + d))) :=
    ⟨I.indexed, I.room, I.pos, I.mem, I.armed, I.univ⟩
  have hs : stepped (start + 1) d (start + 1) = start + 1 + d := by simp [stepped]
  obtain ⟨s3, h3, I3⟩ := (one_turn I2).1 (by simp only [hs]; omega)
  refine ⟨{ s3 with now := stepped (start + 1) d (start + 1) }, ?_⟩
  have t2 : turn (stepped (start + 1) d) s start ⟨[], 1, [], 0⟩ =
      some ([], { s with now := stepped (start + 1) d (start + 1) }, start + 1) := by
    unfold turn
    simp only [h2, Option.bind_some]
    rw [if_pos (by simp only [sleeps, decide_eq_true_eq]; rw [toInt_id (by omega) (by omega)]; omega)]
    simp [acts]
  have t3 : turn (stepped (start + 1) d) { s with now := stepped (start + 1) d (start + 1) } (start + 1) ⟨[], 0, [], 0⟩ =
      some ([(start + 1, .fire 1 (start + 1 + d))], { s3 with now := stepped (start + 1) d (start + 1) }, start + 1) := by
    unfold turn
    simp only [h3, Option.bind_some]
    rw [if_pos (by decide)]
    simp [acts, hs]
  simp only [turns, h1, t2, t3, Option.bind_some, Option.map_some]
  simp

/-- Case: a timer of ten seconds, a clock set forward by as much. -/
example : ∃ s, turns (stepped 1001 10000) (init 1000) 1000 [⟨[], 0, [.add 1 10000], 0⟩, ⟨[], 1, [], 0⟩, ⟨[], 0, [], 0⟩] =
    some ([(1000, .arm 1 11000), (1001, .fire 1 11001)], s, 1001) := c77_forward_counterexample 1000 10000 (by decide) (by decide)

/-- C77 is false when the clock is set back: a timer of length `d` does not fire when its time has passed, nor until the clock has made up
for the step `b`: the next pass, at real time `start + d`, asks for a wait of another `b`. -/
theorem c77_back_counterexample (start d b : Int) (hd : 0 < d) (hd' : d < 2147483648) (hb : 0 < b) (hb' : b < 2147483648) :
    ∃ s, turns (stepped (start + 1) (-b)) (init start) start [⟨[], 0, [.add 1 d], 0⟩, ⟨[], d, [], 0⟩, ⟨[], b, [], 0⟩] =
      some ([(start, .arm 1 (start + d))], s, start + d + b) := by
  obtain ⟨s, h1, I, n⟩ := start_turn (stepped (start + 1) (-b)) start d (by simp only [stepped]; rw [if_pos (by omega)])
  have h2 := (one_turn I).2 (by omega)
  have hs : stepped (start + 1) (-b) (start + d) = start + d - b := by
    unfold stepped; rw [if_neg (by omega)]; omega
  have I2 : Inv [1] { s with now := stepped (start + 1) (-b) (start + d) } (after (fun _ => none) (.arm 1 (start + d))) :=
    ⟨I.indexed, I.room, I.pos, I.mem, I.armed, I.univ⟩
  have h3 := (one_turn I2).2 (by simp only [hs]; omega)
  refine ⟨{ s with now := stepped (start + 1) (-b) (start + d + b) }, ?_⟩
  have t2 : turn (stepped (start + 1) (-b)) s start ⟨[], d, [], 0⟩ =
      some ([], { s with now := stepped (start + 1) (-b) (start + d) }, start + d) := by
    unfold turn
    simp only [h2, Option.bind_some]
    rw [if_pos (by simp only [sleeps, decide_eq_true_eq]; rw [toInt_id (by omega) (by omega)]; omega)]
    simp [acts]
  have t3 : turn (stepped (start + 1) (-b)) { s with now := stepped (start + 1) (-b) (start + d) } (start + d) ⟨[], b, [], 0⟩ =
      some ([], { s with now := stepped (start + 1) (-b) (start + d + b) }, start + d + b) := by
    unfold turn
    simp only [h3, Option.bind_some]
    rw [if_pos (by simp only [sleeps, decide_eq_true_eq, hs]; rw [toInt_id (by omega) (by omega)]; omega)]
    simp [acts]
  simp only [turns, h1, t2, t3, Option.bind_some, Option.map_some]
  simp

/-- Case: a timer of ten seconds, a clock set back by an hour. -/
example : ∃ s, turns (stepped 1001 (-3600000)) (init 1000) 1000 [⟨[], 0, [.add 1 10000], 0⟩, ⟨[], 10000, [], 0⟩, ⟨[], 3600000, [], 0⟩] =
    some ([(1000, .arm 1 11000)], s, 3611000) := c77_back_counterexample 1000 10000 3600000 (by decide) (by decide) (by decide) (by decide)

/-- C77 is false in the worst way when the clock is set back by 25 to 49 days: the wait does not fit into an `int`, `epoll_wait` gets a negative
timeout, and the worker may sleep for any time `z` at all, with a timer of length `d` armed, as long as no socket has anything to
report. -/
theorem c77_asleep_counterexample (start d b z : Int) (hd : 0 < d) (hd' : d < 2147483648) (hb : 2147483648 ≤ b) (hb' : b < 4294967296)
    (hz : 0 ≤ z) :
    ∃ s, turns (stepped (start + 1) (-b)) (init start) start [⟨[], 0, [.add 1 d], 0⟩, ⟨[], d, [], 0⟩, ⟨[], z, [], 0⟩] =
      some ([(start, .arm 1 (start + d))], s, start + d + z) := by
  obtain ⟨s, h1, I, n⟩ := start_turn (stepped (start + 1) (-b)) start d (by simp only [stepped]; rw [if_pos (by omega)])
  have h2 := (one_turn I).2 (by omega)
  have hs : stepped (start + 1) (-b) (start + d) = start + d - b := by
    unfold stepped; rw [if_neg (by omega)]; omega
  have I2 : Inv [1] { s with now := stepped (start + 1) (-b) (start + d) } (after (fun _ => none) (.arm 1 (start + d))) :=
    ⟨I.indexed, I.room, I.pos, I.mem, I.armed, I.univ⟩
  have h3 := (one_turn I2).2 (by simp only [hs]; omega)
  refine ⟨{ s with now := stepped (start + 1) (-b) (start + d + z) }, ?_⟩
  have t2 : turn (stepped (start + 1) (-b)) s start ⟨[], d, [], 0⟩ =
      some ([], { s with now := stepped (start + 1) (-b) (start + d) }, start + d) := by
    unfold turn
    simp only [h2, Option.bind_some]
    rw [if_pos (by simp only [sleeps, decide_eq_true_eq]; rw [toInt_id (by omega) (by omega)]; omega)]
    simp [acts]
  have t3 : turn (stepped (start + 1) (-b)) { s with now := stepped (start + 1) (-b) (start + d) } (start + d) ⟨[], z, [], 0⟩ =
      some ([], { s with now := stepped (start + 1) (-b) (start + d + z) }, start + d + z) := by
    unfold turn
    simp only [h3, Option.bind_some]
    rw [if_pos (by simp only [sleeps, decide_eq_true_eq, hs, toInt]; omega)]
    simp [acts]
  simp only [turns, h1, t2, t3, Option.bind_some, Option.map_some]
  simp

/-- Non-trivial case for `c77_on_time_partial`: two timers armed by a handler, the first re-armed by its callback, the loop busy for some
milliseconds in between. -/
def sampleTurns : List Turn :=
  [⟨[], 50, [.add 1 100, .add 2 300], 4⟩, ⟨[], 100, [], 3⟩, ⟨[[.add 1 1000]], 196, [], 5⟩, ⟨[[]], 10, [], 0⟩]

/-- The hypotheses of `c77_on_time_partial` and `c77_turn_possible` hold for `sampleTurns`: two timers, one set anew by its callback. -/
example :
    (turns (fun r => r + 7) (init 1007) 1000 sampleTurns).map (fun r => (r.1, r.2.2)) =
      some ([(1050, .arm 1 1157), (1050, .arm 2 1357), (1157, .fire 1 1161), (1157, .arm 1 2161), (1358, .fire 2 1360)], 1368) := by
  decide +kernel

example : Calm (fun _ => none) [.arm 1 1157, .arm 2 1357, .fire 1 1161, .arm 1 2161, .fire 2 1360] := by
  simp [Calm, after, Earliest]

end Verif.Timer
