import Verif.Spec.Timer
import Verif.Proofs.BHeap
import Mathlib.Data.List.Perm.Subperm
/-
The timer heap holds exactly the armed timers.
-/
namespace Verif.Timer
open Verif.BHeap (Indexed Ordered elems mem_elems elems_length elems_nodup add_spec del_spec)

/-- Concrete state against armed deadlines; `U` bounds which timers exist. -/
structure Inv (U : List Nat) (s : St) (a : Armed) : Prop where
  indexed : Indexed s.heap
  room : U.length ≤ s.heap.space
  pos : 1 ≤ s.heap.space
  mem : ∀ t, t ∈ elems s.heap ↔ s.set t = true
  armed : ∀ t, a t = if s.set t then some (s.heap.key t) else none
  univ : ∀ t, s.set t = true → t ∈ U

theorem init_inv (U : List Nat) (hU : U.length ≤ space) (now : Int) : Inv U (init now) (fun _ => none) where
  indexed := by intro i h1 h2; simp [init, BHeap.create] at h2; omega
  room := hU
  pos := by simp [init, BHeap.create, space]
  mem := by intro t; simp [init, BHeap.create, elems]
  armed := by intro t; simp [init]
  univ := by intro t; simp [init]

theorem init_ordered (now : Int) : Ordered (init now).heap := by
  intro i h1 h2; simp [init, BHeap.create] at h2; omega

/-- Deleting this timer keeps the heap ordered. -/
def Safe (s : St) (t : Nat) : Prop := s.set t = true →
  s.heap.idx t = 1 ∨ s.heap.idx t = s.heap.n ∨
    s.heap.key (s.heap.arr (s.heap.idx t / 2)) ≤ s.heap.key (s.heap.arr s.heap.n)

theorem tmDel_spec {U : List Nat} {s : St} {a : Armed} (I : Inv U s a) (t : Nat) :
    ∃ s', tmDel s t = some s' ∧ Inv U s' (after a (.cancel t)) ∧ s'.now = s.now ∧ s'.set t = false ∧
      (s.set t = true → s'.heap.n + 1 = s.heap.n) ∧ (Ordered s.heap → Safe s t → Ordered s'.heap) := by
  unfold tmDel
  by_cases hset : s.set t = true
  · have hm := (I.mem t).mpr hset
    obtain ⟨k, k1, kn, rfl⟩ := mem_elems.mp hm
    have hk := I.indexed k k1 kn
    obtain ⟨h', e1, e2, e3, e4, e5, e6, e7, e8⟩ := del_spec I.indexed k1 kn I.pos
    simp only [hset, if_true, hk, e1, Option.map_some]
    refine ⟨_, rfl, ?_, rfl, by simp, ?_, ?_⟩
    · constructor
      · exact e5
      · simp only [Option.getD_some, e3]; exact I.room
      · simp only [Option.getD_some, e3]; exact I.pos
      · intro t
        simp only [Option.getD_some, e6, I.mem]
        by_cases ht : t = s.heap.arr k
        · subst ht; simp
        · simp [BHeap.set_ne _ _ ht, ht]
      · intro t
        simp only [after, Option.getD_some, e4]
        by_cases ht : t = s.heap.arr k
        · subst ht; simp
        · simp only [BHeap.set_ne _ _ ht, ht, if_false]; exact I.armed t
      · intro t
        by_cases ht : t = s.heap.arr k
        · subst ht; simp
        · simp only [BHeap.set_ne _ _ ht]; exact I.univ t
    · intro _; simp only [Option.getD_some]; omega
    · intro O hsafe
      simp only [Option.getD_some]
      have := hsafe hset
      rw [hk] at this
      exact (e8 O).mpr this
  · have hf : s.set t = false := by simpa using hset
    rw [if_neg hset]
    refine ⟨s, rfl, ?_, rfl, hf, fun h => absurd h hset, fun O _ => O⟩
    have : after a (.cancel t) = a := by
      funext x
      simp only [after]
      split
      · rename_i h; subst h; rw [I.armed]; simp [hf]
      · rfl
    rw [this]; exact I

theorem tmAdd_spec {U : List Nat} {s : St} {a : Armed} (I : Inv U s a) {t : Nat} (ht : t ∈ U) (d : Int) :
    ∃ s', tmAdd s t d = some s' ∧ Inv U s' (after a (.arm t (s.now + d))) ∧ s'.now = s.now ∧
      (Ordered s.heap → Safe s t → Ordered s'.heap) := by
  obtain ⟨s1, e1, I1, n1, f1, -, o1⟩ := tmDel_spec I t
  unfold tmAdd
  simp only [e1, Option.map_some]
  have hnm : t ∉ elems s1.heap := fun h => by rw [(I1.mem t).mp h] at f1; cases f1
  -- room: the elements are distinct members of U other than t
  have hroom : s1.heap.n < s1.heap.space := by
    have hnd : (t :: elems s1.heap).Nodup := List.nodup_cons.mpr ⟨hnm, elems_nodup I1.indexed⟩
    have hsub : (t :: elems s1.heap) ⊆ U := by
      intro x hx
      rw [List.mem_cons] at hx
      rcases hx with rfl | hx
      · exact ht
      · exact I1.univ x ((I1.mem x).mp hx)
    have := (hnd.subperm hsub).length_le
    rw [List.length_cons, elems_length] at this
    have := I1.room
    omega
  have hidx : Indexed { s1.heap with key := BHeap.set s1.heap.key t (s1.now + d) } := I1.indexed
  have hel : elems { s1.heap with key := BHeap.set s1.heap.key t (s1.now + d) } = elems s1.heap := rfl
  obtain ⟨h', a1, a2, a3, a4, a5, a6, a7, a8⟩ := add_spec (x := t) hidx hnm hroom
  simp only [a1, Option.getD_some]
  refine ⟨_, rfl, ?_, n1, ?_⟩
  · constructor
    · exact a5
    · simp only [a3]; exact I1.room
    · simp only [a3]; exact I1.pos
    · intro x
      simp only [a6, hel, I1.mem]
      by_cases hx : x = t
      · subst hx; simp
      · simp [BHeap.set_ne _ _ hx, hx]
    · intro x
      simp only [after, a4]
      by_cases hx : x = t
      · subst hx; simp [n1]
      · simp only [BHeap.set_ne _ _ hx, hx, if_false]
        have := I1.armed x
        simp only [after, hx, if_false] at this
        exact this
    · intro x
      by_cases hx : x = t
      · subst hx; simp [ht]
      · simp only [BHeap.set_ne _ _ hx]; exact I1.univ x
  · intro O hsafe
    apply a8
    intro i i2 hin
    have hO := o1 O hsafe i i2 hin
    have hne : ∀ k, 1 ≤ k → k ≤ s1.heap.n → s1.heap.arr k ≠ t := by
      intro k k1 kn e; exact hnm (mem_elems.mpr ⟨k, k1, kn, e⟩)
    simp only [BHeap.set_ne _ _ (hne i (by omega) hin), BHeap.set_ne _ _ (hne (i / 2) (by omega) (by simp only at hin; omega))]
    exact hO

/-- In an ordered heap the sole earliest timer is the root. -/
theorem earliest_safe {U : List Nat} {s : St} {a : Armed} (I : Inv U s a) (O : Ordered s.heap) {t : Nat} (he : Earliest a t) :
    Safe s t := by
  intro hset
  left
  obtain ⟨k, k1, kn, rfl⟩ := mem_elems.mp ((I.mem _).mpr hset)
  rw [I.indexed k k1 kn]
  by_contra hk
  have hroot := BHeap.ordered_root O k k1 kn
  have hne : s.heap.arr 1 ≠ s.heap.arr k := by
    intro e
    have h1 := I.indexed 1 (by omega) (by omega)
    have h2 := I.indexed k k1 kn
    rw [e] at h1; omega
  have hs1 : s.set (s.heap.arr 1) = true := (I.mem _).mp (mem_elems.mpr ⟨1, by omega, by omega, rfl⟩)
  have h1 : a (s.heap.arr k) = some (s.heap.key (s.heap.arr k)) := by rw [I.armed, if_pos hset]
  have h2 : a (s.heap.arr 1) = some (s.heap.key (s.heap.arr 1)) := by rw [I.armed, if_pos hs1]
  have := he _ h1 _ _ hne h2
  omega

theorem act_spec {U : List Nat} {s : St} {a : Armed} (I : Inv U s a) {x : Act} (hx : x.timer ∈ U) :
    ∃ es s', act s x = some (es, s') ∧ Inv U s' (es.foldl after a) ∧ s'.now = s.now ∧ Sound a es ∧
      (Ordered s.heap → Calm a es → Ordered s'.heap) := by
  cases x with
  | add t d =>
    obtain ⟨s', e1, I1, n1, o1⟩ := tmAdd_spec I (t := t) hx d
    refine ⟨[.arm t (s.now + d)], s', by simp [act, e1], by simpa using I1, n1, by simp [Sound], ?_⟩
    intro O hc
    simp only [Calm, and_true] at hc
    exact o1 O (earliest_safe I O hc)
  | del t =>
    obtain ⟨s', e1, I1, n1, -, -, o1⟩ := tmDel_spec I t
    refine ⟨[.cancel t], s', by simp [act, e1], by simpa using I1, n1, by simp [Sound], ?_⟩
    intro O hc
    simp only [Calm, and_true] at hc
    exact o1 O (earliest_safe I O hc)

theorem sound_append : ∀ (es es' : List Ev) (a : Armed), Sound a (es ++ es') ↔ Sound a es ∧ Sound (es.foldl after a) es'
  | [], es', a => by simp [Sound]
  | e :: es, es', a => by simp [Sound, sound_append es es', and_assoc]

theorem calm_append : ∀ (es es' : List Ev) (a : Armed), Calm a (es ++ es') ↔ Calm a es ∧ Calm (es.foldl after a) es'
  | [], es', a => by simp [Calm]
  | e :: es, es', a => by simp [Calm, calm_append es es', and_assoc]

theorem acts_spec {U : List Nat} : ∀ (xs : List Act) {s : St} {a : Armed}, Inv U s a → (∀ x ∈ xs, x.timer ∈ U) →
    ∃ es s', acts s xs = some (es, s') ∧ Inv U s' (es.foldl after a) ∧ s'.now = s.now ∧ Sound a es ∧
      (Ordered s.heap → Calm a es → Ordered s'.heap)
  | [], s, a, I, _ => ⟨[], s, rfl, I, rfl, trivial, fun O _ => O⟩
  | x :: xs, s, a, I, hx => by
    obtain ⟨e1, s1, r1, I1, n1, so1, o1⟩ := act_spec I (hx x (by simp))
    obtain ⟨e2, s2, r2, I2, n2, so2, o2⟩ := acts_spec xs I1 (fun y hy => hx y (by simp [hy]))
    refine ⟨e1 ++ e2, s2, by simp [acts, r1, r2], by rw [List.foldl_append]; exact I2, by rw [n2, n1],
      (sound_append _ _ _).mpr ⟨so1, so2⟩, ?_⟩
    intro O hc
    rw [calm_append] at hc
    exact o2 (o1 O hc.1) hc.2

/-- How a pass ends. -/
def Ended (s : St) (w : Int) : Prop :=
  (BHeap.minNode s.heap = none ∧ w = 200) ∨
    ∃ m, BHeap.minNode s.heap = some m ∧ s.now < s.heap.key m ∧ w = s.heap.key m - s.now

theorem minNode_mem {h : BHeap.Heap} {m : Nat} (hm : BHeap.minNode h = some m) : 1 ≤ h.n ∧ m = h.arr 1 ∧ m ∈ elems h := by
  unfold BHeap.minNode at hm
  split at hm
  · cases hm
  · simp only [Option.some.injEq] at hm
    subst hm
    exact ⟨by omega, rfl, mem_elems.mpr ⟨1, by omega, by omega, rfl⟩⟩

theorem expireQuiet_spec {U : List Nat} (s : St) : ∀ {a : Armed}, Inv U s a →
    ∃ es w s', expireQuiet s = some (es, w, s') ∧ Inv U s' (es.foldl after a) ∧ s'.now = s.now ∧ Sound a es ∧ Ended s' w ∧
      (Ordered s.heap → Calm a es → Ordered s'.heap) := by
  fun_induction expireQuiet s with
  | case1 s hm =>
    intro a I
    exact ⟨[], 200, s, rfl, I, rfl, trivial, Or.inl ⟨hm, rfl⟩, fun O _ => O⟩
  | case2 s m hm hk =>
    intro a I
    exact ⟨[], _, s, rfl, I, rfl, trivial, Or.inr ⟨m, hm, by omega, rfl⟩, fun O _ => O⟩
  | case3 s m hm hk hd =>
    intro a I
    obtain ⟨s', e1, -⟩ := tmDel_spec I m
    rw [e1] at hd; cases hd
  | case4 s m hm hk s1 hd hlt ih =>
    intro a I
    obtain ⟨s1', e1, I1, n1, -, -, o1⟩ := tmDel_spec I m
    rw [e1] at hd; cases hd
    have hfire : after a (.cancel m) = after a (.fire m s.now) := rfl
    rw [hfire] at I1
    obtain ⟨es', w, s3, r3, I3, n3, so3, en3, o3⟩ := ih I1
    obtain ⟨hn, rfl, hmem⟩ := minNode_mem hm
    have hset := (I.mem _).mp hmem
    refine ⟨.fire (s.heap.arr 1) s.now :: es', w, s3, by simp only [r3, Option.map_some], ?_, by rw [n3, n1], ?_, en3, ?_⟩
    · simpa using I3
    · simp only [Sound]
      refine ⟨⟨s.heap.key (s.heap.arr 1), ?_, by omega⟩, so3⟩
      rw [I.armed, if_pos hset]
    · intro O hc
      simp only [Calm, true_and] at hc
      refine o3 (o1 O ?_) hc
      intro _; left; exact I.indexed 1 (by omega) hn
  | case5 s m hm hk s1 hd hlt =>
    intro a I
    obtain ⟨s1', e1, I1, n1, -, hn1, o1⟩ := tmDel_spec I m
    rw [e1] at hd; cases hd
    obtain ⟨hn, rfl, hmem⟩ := minNode_mem hm
    have := hn1 ((I.mem _).mp hmem)
    omega

theorem expire_spec {U : List Nat} (s : St) (cbs : List (List Act)) : ∀ {a : Armed}, Inv U s a →
    (∀ x ∈ cbs.flatten, x.timer ∈ U) →
    ∃ es w s', expire s cbs = some (es, w, s') ∧ Inv U s' (es.foldl after a) ∧ s'.now = s.now ∧ Sound a es ∧ Ended s' w ∧
      (Ordered s.heap → Calm a es → Ordered s'.heap) := by
  fun_induction expire s cbs with
  | case1 s =>
    intro a I _
    exact expireQuiet_spec s I
  | case2 s cb rest hm =>
    intro a I _
    exact ⟨[], 200, s, rfl, I, rfl, trivial, Or.inl ⟨hm, rfl⟩, fun O _ => O⟩
  | case3 s cb rest m hm hk =>
    intro a I _
    exact ⟨[], _, s, rfl, I, rfl, trivial, Or.inr ⟨m, hm, by omega, rfl⟩, fun O _ => O⟩
  | case4 s cb rest m hm hk hd =>
    intro a I _
    obtain ⟨s', e1, -⟩ := tmDel_spec I m
    rw [e1] at hd; cases hd
  | case5 s cb rest m hm hk s1 hd ih =>
    intro a I hU
    obtain ⟨s1', e1, I1, n1, -, -, o1⟩ := tmDel_spec I m
    rw [e1] at hd; cases hd
    have hfire : after a (.cancel m) = after a (.fire m s.now) := rfl
    rw [hfire] at I1
    obtain ⟨es, s2, r2, I2, n2, so2, o2⟩ := acts_spec cb I1 (fun x hx => hU x (by simp [hx]))
    obtain ⟨es', w, s3, r3, I3, n3, so3, en3, o3⟩ := ih s2 I2 (fun x hx => hU x (by simp at hx ⊢; right; exact hx))
    obtain ⟨hn, rfl, hmem⟩ := minNode_mem hm
    have hset := (I.mem _).mp hmem
    refine ⟨.fire (s.heap.arr 1) s.now :: es ++ es', w, s3, by simp only [r2, Option.bind_some, r3, Option.map_some], ?_,
      by rw [n3, n2, n1], ?_, en3, ?_⟩
    · simpa [List.foldl_append] using I3
    · simp only [List.cons_append, Sound]
      refine ⟨⟨s.heap.key (s.heap.arr 1), ?_, by omega⟩, (sound_append _ _ _).mpr ⟨so2, so3⟩⟩
      rw [I.armed, if_pos hset]
    · intro O hc
      simp only [List.cons_append, Calm, true_and] at hc
      rw [calm_append] at hc
      refine o3 (o2 (o1 O ?_) hc.1) hc.2
      intro _; left; exact I.indexed 1 (by omega) hn

theorem run_spec {U : List Nat} : ∀ (ops : List Op) {s : St} {a : Armed}, Inv U s a → (∀ op ∈ ops, ∀ t ∈ op.timers, t ∈ U) →
    ∃ es s', run s ops = some (es, s') ∧ Inv U s' (es.foldl after a) ∧ Sound a es ∧
      (Ordered s.heap → Calm a es → Ordered s'.heap)
  | [], s, a, I, _ => ⟨[], s, rfl, I, trivial, fun O _ => O⟩
  | op :: ops, s, a, I, hU => by
    have key : ∃ e1 s1, step s op = some (e1, s1) ∧ Inv U s1 (e1.foldl after a) ∧ Sound a e1 ∧
        (Ordered s.heap → Calm a e1 → Ordered s1.heap) := by
      cases op with
      | act x =>
        obtain ⟨e1, s1, r1, I1, n1, so1, o1⟩ := act_spec I (x := x) (hU (.act x) (by simp) x.timer (by simp [Op.timers]))
        exact ⟨e1, s1, r1, I1, so1, o1⟩
      | clock n =>
        exact ⟨[], _, rfl, ⟨I.indexed, I.room, I.pos, I.mem, I.armed, I.univ⟩, trivial, fun O _ => O⟩
      | expire cbs =>
        obtain ⟨e1, w, s1, r1, I1, n1, so1, -, o1⟩ := expire_spec s cbs I (fun x hx => hU (.expire cbs) (by simp) x.timer (by
          simp only [Op.timers, List.mem_map]; exact ⟨x, hx, rfl⟩))
        exact ⟨e1, s1, by simp [step, r1], I1, so1, o1⟩
    obtain ⟨e1, s1, r1, I1, so1, o1⟩ := key
    obtain ⟨e2, s2, r2, I2, so2, o2⟩ := run_spec ops I1 (fun o ho => hU o (by simp [ho]))
    refine ⟨e1 ++ e2, s2, by simp [run, r1, r2], by rw [List.foldl_append]; exact I2,
      (sound_append _ _ _).mpr ⟨so1, so2⟩, ?_⟩
    intro O hc
    rw [calm_append] at hc
    exact o2 (o1 O hc.1) hc.2

end Verif.Timer
