import Verif.Model.Signals
/-
Property C94: a signal never finds the process without its state.
-/
namespace Verif.Signals

theorem run_append (st : St) (a b : List (List Sig × Op)) : run st (a ++ b) = run (run st a) b := by
  induction a generalizing st with
  | nil => rfl
  | cons x a ih => obtain ⟨l, o⟩ := x; simp only [List.cons_append, run]; exact ih _

theorem deliver_fin {st : St} (h : st.fin.isSome) (s : Sig) : deliver st s = st := by simp [deliver, h]

theorem delivers_fin {st : St} (h : st.fin.isSome) (l : List Sig) : l.foldl deliver st = st := by
  induction l with
  | nil => rfl
  | cons s l ih => rw [List.foldl_cons, deliver_fin h, ih]

theorem arrives_fin {st : St} (h : st.fin.isSome) (l : List Sig) : l.foldl arrive st = st := by
  induction l with
  | nil => rfl
  | cons s l ih =>
    rw [List.foldl_cons]
    have : arrive st s = st := by simp [arrive, h]
    rw [this, ih]

theorem op_fin {st : St} (h : st.fin.isSome) (o : Op) : op st o = st := by simp [op, h]

/-- A process that has ended does nothing any more. -/
theorem run_fin {st : St} (h : st.fin.isSome) (l : List (List Sig × Op)) : run st l = st := by
  induction l with
  | nil => rfl
  | cons x l ih =>
    obtain ⟨s, o⟩ := x
    simp only [run]
    rw [arrives_fin h, op_fin h, ih]

/-- A process with all handlers and its context. -/
structure Up (st : St) : Prop where
  all : ∀ s, s ∈ st.installed
  ctx : st.ctx = .live
  fin : st.fin = none

theorem deliver_up {st : St} (h : Up st) (s : Sig) : deliver st s = { st with handled := st.handled ++ [s] } := by
  simp [deliver, h.fin, h.all s, h.ctx]

theorem delivers_up {st : St} (h : Up st) (l : List Sig) : l.foldl deliver st = { st with handled := st.handled ++ l } := by
  induction l generalizing st with
  | nil => simp
  | cons s l ih =>
    rw [List.foldl_cons, deliver_up h, @ih { st with handled := st.handled ++ [s] } ⟨h.all, h.ctx, h.fin⟩]
    simp

/-- Arrivals in a running process: some are handled, the blocked ones wait. -/
theorem arrives_up {st : St} (h : Up st) (l : List Sig) : l.foldl arrive st =
    { st with handled := st.handled ++ l.filter (fun s => s ∉ st.blocked), waiting := st.waiting ++ l.filter (fun s => s ∈ st.blocked) } := by
  induction l generalizing st with
  | nil => simp
  | cons s l ih =>
    rw [List.foldl_cons]
    by_cases hb : s ∈ st.blocked
    · have : arrive st s = { st with waiting := st.waiting ++ [s] } := by simp [arrive, h.fin, hb]
      rw [this, @ih { st with waiting := st.waiting ++ [s] } ⟨h.all, h.ctx, h.fin⟩]
      simp [hb]
    · have : arrive st s = { st with handled := st.handled ++ [s] } := by
        rw [← deliver_up h s]
        simp [arrive, h.fin, hb]
      rw [this, @ih { st with handled := st.handled ++ [s] } ⟨h.all, h.ctx, h.fin⟩]
      simp [hb]

/-- The steps of a running process. -/
def Inner : Op → Prop
  | .block _ => True
  | .blockNone => True
  | .suspend => True
  | .work => True
  | _ => False

theorem op_inner {st : St} (h : Up st) {o : Op} (ho : Inner o) :
    Up (op st o) ∧ ((op st o).handled ++ (op st o).waiting).Perm (st.handled ++ st.waiting) := by
  cases o with
  | install s => exact absurd ho (by simp [Inner])
  | alloc => exact absurd ho (by simp [Inner])
  | free => exact absurd ho (by simp [Inner])
  | done => exact absurd ho (by simp [Inner])
  | work => simp only [op, h.fin]; exact ⟨h, List.Perm.refl _⟩
  | block l => simp only [op, h.fin]; exact ⟨⟨h.all, h.ctx, rfl⟩, List.Perm.refl _⟩
  | blockNone =>
    simp only [op, h.fin, Option.isSome_none, Bool.false_eq_true, if_false]
    rw [delivers_up (st := ⟨st.installed, [], [], st.ctx, st.handled, none⟩) ⟨h.all, h.ctx, rfl⟩]
    exact ⟨⟨h.all, h.ctx, rfl⟩, by simp⟩
  | suspend =>
    simp only [op, h.fin, Option.isSome_none, Bool.false_eq_true, if_false]
    rw [delivers_up (st := ⟨st.installed, st.blocked, [], st.ctx, st.handled, none⟩) ⟨h.all, h.ctx, rfl⟩]
    exact ⟨⟨h.all, h.ctx, rfl⟩, by simp⟩

/-- While a process runs it has ended neither way, and every signal that arrived was handled or waits. -/
theorem run_inner (l : List (List Sig × Op)) (hl : ∀ x ∈ l, Inner x.2) (st : St) (h : Up st) :
    Up (run st l) ∧ ((run st l).handled ++ (run st l).waiting).Perm (st.handled ++ st.waiting ++ (l.map (·.1)).flatten) := by
  induction l generalizing st with
  | nil => exact ⟨h, by simp [run]⟩
  | cons x l ih =>
    obtain ⟨s, o⟩ := x
    simp only [run]
    have ha := arrives_up h s
    have hu : Up (s.foldl arrive st) := by rw [ha]; exact ⟨h.all, h.ctx, h.fin⟩
    obtain ⟨g1, g2⟩ := op_inner hu (hl (s, o) (List.mem_cons_self ..))
    obtain ⟨i1, i2⟩ := ih (fun x hx => hl x (List.mem_cons_of_mem _ hx)) _ g1
    refine ⟨i1, i2.trans ?_⟩
    simp only [List.map_cons, List.flatten_cons]
    rw [← List.append_assoc]
    refine List.Perm.append_right _ (g2.trans ?_)
    rw [ha]
    show (st.handled ++ _ ++ (st.waiting ++ _)).Perm _
    have e : s.Perm (s.filter (fun x => decide (x ∈ st.blocked)) ++ s.filter (fun x => !decide (x ∈ st.blocked))) :=
      (List.filter_append_perm _ _).symm
    have e2 : (s.filter fun x => decide (x ∉ st.blocked)) = s.filter fun x => !decide (x ∈ st.blocked) := by
      congr 1; funext x; simp
    rw [e2]
    refine List.Perm.trans ?_ (List.Perm.append_left _ e.symm)
    generalize s.filter (fun x => decide (x ∈ st.blocked)) = u
    generalize s.filter (fun x => !decide (x ∈ st.blocked)) = v
    rw [List.append_assoc, List.append_assoc]
    refine List.Perm.append_left _ ?_
    rw [← List.append_assoc v, ← List.append_assoc st.waiting]
    refine (List.Perm.append_right u List.perm_append_comm).trans ?_
    rw [List.append_assoc, List.append_assoc]
    exact List.Perm.append_left _ List.perm_append_comm

/-- The same without blocking: handled in the order of arrival. -/
theorem run_open (l : List (List Sig × Op)) (hl : ∀ x ∈ l, x.2 = .work ∨ x.2 = .blockNone) (st : St) (h : Up st) (hb : st.blocked = [])
    (hw : st.waiting = []) : run st l = { st with handled := st.handled ++ (l.map (·.1)).flatten } := by
  induction l generalizing st with
  | nil => simp [run]
  | cons x l ih =>
    obtain ⟨s, o⟩ := x
    simp only [run]
    have ha : s.foldl arrive st = { st with handled := st.handled ++ s } := by
      rw [arrives_up h s, hb]
      simp [hw]
    have ho : op (s.foldl arrive st) o = { st with handled := st.handled ++ s } := by
      rw [ha]
      rcases hl (s, o) (List.mem_cons_self ..) with h' | h' <;> simp only at h' <;> subst h' <;> simp [op, h.fin, hw, hb]
    rw [ho, ih (fun x hx => hl x (List.mem_cons_of_mem _ hx)) { st with handled := st.handled ++ s } ⟨h.all, h.ctx, h.fin⟩ hb hw]
    simp

/-- After `process_init`, if no signal came in between. -/
theorem run_start : run init (start.map fun o => ([], o)) = ⟨[.int, .hup, .chld, .pipe, .usr1, .usr2], [], [], .live, [], none⟩ := by decide

theorem up_start : Up ⟨[.int, .hup, .chld, .pipe, .usr1, .usr2], [], [], .live, [], none⟩ :=
  ⟨fun s => by cases s <;> decide, rfl, rfl⟩

theorem up_worker : Up workerInit := ⟨fun s => by cases s <;> decide, rfl, rfl⟩

theorem run_tail (l : List (List Sig × Op)) (hl : ∀ x ∈ l, x = ([], .work)) (st : St) : run st l = st := by
  induction l generalizing st with
  | nil => rfl
  | cons x l ih =>
    rw [hl x (List.mem_cons_self ..)]
    simp only [run, List.foldl_nil]
    have : op st .work = st := by simp [op]
    rw [this]
    exact ih (fun x hx => hl x (List.mem_cons_of_mem _ hx)) st

/-- Steps before which nothing arrives. -/
theorem quiet_eq (l : List (List Sig × Op)) (h : ∀ x ∈ l, x.1 = []) : l = (l.map (·.2)).map fun o => ([], o) := by
  induction l with
  | nil => rfl
  | cons x l ih =>
    obtain ⟨s, o⟩ := x
    have : s = [] := h (s, o) (List.mem_cons_self ..)
    subst this
    simp only [List.map_cons]
    rw [← ih (fun x hx => h x (List.mem_cons_of_mem _ hx))]

/-- The program without workers, taken apart. -/
theorem single_split {n m k : Nat} {l : List (List Sig × Op)} (hl : l.map (·.2) = single n m k) :
    ∃ a mid sf t, l = a ++ mid ++ (sf, .free) :: t ∧ a.map (·.2) = start ∧
      mid.map (·.2) = List.replicate n .work ++ [.blockNone] ++ List.replicate m .work ∧ t.map (·.2) = List.replicate k .work ++ [.done] := by
  have e : single n m k = start ++ (List.replicate n .work ++ [.blockNone] ++ List.replicate m .work) ++ (.free :: (List.replicate k .work ++ [.done])) := by
    simp [single]
  rw [e, List.map_eq_append_iff] at hl
  obtain ⟨l1, l2, rfl, h1, h2⟩ := hl
  rw [List.map_eq_append_iff] at h1
  obtain ⟨a, mid, rfl, ha, hm⟩ := h1
  rw [List.map_eq_cons_iff] at h2
  obtain ⟨⟨sf, o⟩, t, rfl, ho, ht⟩ := h2
  simp only at ho
  subst ho
  exact ⟨a, mid, sf, t, rfl, ha, hm, ht⟩

theorem work_done (k : Nat) (t : List (List Sig × Op)) (ht : t.map (·.2) = List.replicate k .work ++ [.done]) (hq : ∀ x ∈ t, x.1 = []) (st : St)
    (hf : st.fin = none) : run st t = { st with fin := some .done } := by
  rw [quiet_eq t hq, ht, List.map_append, run_append, List.map_replicate, run_tail _ (fun x hx => List.eq_of_mem_replicate hx)]
  simp [run, op, hf]

/-- C94 (partial): the program without workers. If no signal arrives before the context is allocated (the first seven steps), nor after the
context was freed, then whatever signals arrive in between, and however long it runs, the process comes to its end and has dealt with every
signal once, in order. `n`, `m` and `k` count the other steps it makes. Missing: the two gaps (counterexamples below). -/
theorem c94_single_partial (n m k : Nat) (l : List (List Sig × Op)) (hl : l.map (·.2) = single n m k) (h1 : ∀ x ∈ l.take 7, x.1 = [])
    (h2 : ∀ x ∈ l.drop (7 + n + 1 + m + 1), x.1 = []) :
    (run init l).fin = some .done ∧ (run init l).handled = (l.map (·.1)).flatten := by
  obtain ⟨a, mid, sf, t, rfl, ha, hm, ht⟩ := single_split hl
  have la : a.length = 7 := by have := congrArg List.length ha; simpa [start] using this
  have lm : mid.length = n + 1 + m := by have := congrArg List.length hm; simp at this; omega
  have hqa : ∀ x ∈ a, x.1 = [] := by
    intro x hx
    refine h1 x ?_
    rw [List.append_assoc, ← la, List.take_left]
    exact hx
  have hqt : ∀ x ∈ t, x.1 = [] := by
    intro x hx
    refine h2 x ?_
    rw [show 7 + n + 1 + m + 1 = (a ++ mid).length + 1 by simp [la, lm]; omega, ← List.drop_drop, List.drop_left]
    exact hx
  have hin : ∀ x ∈ mid, x.2 = .work ∨ x.2 = .blockNone := by
    intro x hx
    have : x.2 ∈ mid.map (·.2) := List.mem_map.mpr ⟨x, hx, rfl⟩
    rw [hm] at this
    simp only [List.mem_append, List.mem_replicate, List.mem_singleton] at this
    rcases this with (⟨_, h⟩ | h) | ⟨_, h⟩
    · exact .inl h
    · exact .inr h
    · exact .inl h
  have e0 : a = start.map fun o => ([], o) := by rw [quiet_eq a hqa, ha]
  rw [run_append, run_append, e0, run_start, run_open mid hin _ up_start rfl rfl]
  simp only [run]
  have har := arrives_up (st := ⟨[.int, .hup, .chld, .pipe, .usr1, .usr2], [], [], .live, [] ++ (mid.map (·.1)).flatten, none⟩) ⟨up_start.all, rfl, rfl⟩ sf
  rw [har]
  simp only [op, Option.isSome_none, Bool.false_eq_true, if_false]
  rw [work_done k t ht hqt _ rfl]
  refine ⟨rfl, ?_⟩
  have hts : (t.map (·.1)).flatten = [] := by
    rw [List.flatten_eq_nil_iff]
    intro y hy
    obtain ⟨x, hx, rfl⟩ := List.mem_map.mp hy
    exact hqt x hx
  simp only [List.map_append, List.map_cons, List.flatten_append, List.flatten_cons, hts, List.map_map]
  simp [start]

/-- Case for `c94_single_partial`: an interrupt and a broken pipe. -/
example : (run init ([[], [], [], [], [], [], [], [.pipe], [], [.int, .pipe], [.hup], [], []].zip (single 1 1 1))).handled = [.pipe, .int, .pipe, .hup] ∧
    ([[], [], [], [], [], [], [], [Sig.pipe], [], [.int, .pipe], [.hup], [], []].zip (single 1 1 1)).map (·.2) = single 1 1 1 := by decide

theorem worker_split {n m k : Nat} {l : List (List Sig × Op)} (hl : l.map (·.2) = workerOps n m k) :
    ∃ mid sf t, l = mid ++ (sf, .free) :: t ∧
      mid.map (·.2) = List.replicate n .work ++ [.blockNone] ++ List.replicate m .work ∧ t.map (·.2) = List.replicate k .work ++ [.done] := by
  have e : workerOps n m k = (List.replicate n .work ++ [.blockNone] ++ List.replicate m .work) ++ (.free :: (List.replicate k .work ++ [.done])) := by
    simp [workerOps]
  rw [e, List.map_eq_append_iff] at hl
  obtain ⟨mid, l2, rfl, hm, h2⟩ := hl
  rw [List.map_eq_cons_iff] at h2
  obtain ⟨⟨sf, o⟩, t, rfl, ho, ht⟩ := h2
  simp only at ho
  subst ho
  exact ⟨mid, sf, t, rfl, hm, ht⟩

/-- C94 (partial): a worker, which starts with the signals of the master blocked. If no signal arrives after it has freed the context it comes
to its end and has dealt with every signal that arrived, those that were blocked included. -/
theorem c94_worker_partial (n m k : Nat) (l : List (List Sig × Op)) (hl : l.map (·.2) = workerOps n m k) (h2 : ∀ x ∈ l.drop (n + 1 + m + 1), x.1 = []) :
    (run workerInit l).fin = some .done ∧ (run workerInit l).handled.Perm (l.map (·.1)).flatten := by
  obtain ⟨mid, sf, t, rfl, hm, ht⟩ := worker_split hl
  have lm : mid.length = n + 1 + m := by have := congrArg List.length hm; simp at this; omega
  have hqt : ∀ x ∈ t, x.1 = [] := by
    intro x hx
    refine h2 x ?_
    rw [← lm, ← List.drop_drop, List.drop_left]
    exact hx
  clear h2 hl
  have hsplit : ∃ (a b : List (List Sig × Op)) (s : List Sig), mid = a ++ (s, .blockNone) :: b ∧ (∀ x ∈ a, x.2 = .work) ∧ ∀ x ∈ b, x.2 = .work := by
    refine ⟨mid.take n, mid.drop (n + 1), (mid[n]?.map (·.1)).getD [], ?_, ?_, ?_⟩
    · have hlen : mid.length = n + 1 + m := by have := congrArg List.length hm; simp at this; omega
      have hn : n < mid.length := by omega
      have he : mid[n]? = some mid[n] := List.getElem?_eq_getElem hn
      have h2 : (mid[n]).2 = .blockNone := by
        have := congrArg (fun l => l[n]?) hm
        simp only [List.getElem?_map, he, Option.map_some] at this
        rw [List.append_assoc, List.getElem?_append_right (by simp)] at this
        simpa using this
      rw [he]
      simp only [Option.map_some, Option.getD_some]
      rw [show (mid[n].1, Op.blockNone) = mid[n] from Prod.ext rfl h2.symm, List.getElem_cons_drop, List.take_append_drop]
    · intro x hx
      have : x.2 ∈ (mid.take n).map (·.2) := List.mem_map.mpr ⟨x, hx, rfl⟩
      rw [List.map_take, hm, List.append_assoc, List.take_append_of_le_length (by simp)] at this
      simp only [List.mem_take_iff_getElem, List.length_replicate, List.getElem_replicate] at this
      obtain ⟨_, _, h⟩ := this
      exact h.symm
    · intro x hx
      have : x.2 ∈ (mid.drop (n + 1)).map (·.2) := List.mem_map.mpr ⟨x, hx, rfl⟩
      rw [List.map_drop, hm] at this
      rw [show (n + 1) = (List.replicate n Op.work ++ [Op.blockNone]).length by simp, List.drop_left] at this
      exact List.eq_of_mem_replicate this
  obtain ⟨a, b, s, rfl, ha, hb⟩ := hsplit
  simp only [run_append]
  have hia : ∀ x ∈ a, Inner x.2 := fun x hx => by rw [ha x hx]; trivial
  obtain ⟨u1, p1⟩ := run_inner a hia workerInit up_worker
  generalize run workerInit a = st1 at u1 p1
  -- the mask is cleared: nothing waits any more
  have e2 : run st1 ((s, .blockNone) :: b) = run (op (s.foldl arrive st1) .blockNone) b := rfl
  have har := arrives_up u1 s
  have u2 : Up (s.foldl arrive st1) := by rw [har]; exact ⟨u1.all, u1.ctx, u1.fin⟩
  have g := op_inner u2 (o := .blockNone) trivial
  have gb : (op (s.foldl arrive st1) .blockNone).blocked = [] ∧ (op (s.foldl arrive st1) .blockNone).waiting = [] := by
    simp only [op, u2.fin, Option.isSome_none, Bool.false_eq_true, if_false]
    rw [delivers_up (st := ⟨(s.foldl arrive st1).installed, [], [], (s.foldl arrive st1).ctx, (s.foldl arrive st1).handled, none⟩) ⟨u2.all, u2.ctx, rfl⟩]
    
    exact ⟨rfl, rfl⟩
  have hp : (op (s.foldl arrive st1) .blockNone).handled.Perm ((a.map (·.1)).flatten ++ s) := by
    have := run_inner [(s, .blockNone)] (by simp [Inner]) st1 u1
    simp only [run, List.map_cons, List.map_nil, List.flatten_cons, List.flatten_nil, List.append_nil] at this
    have h3 := this.2
    rw [gb.2, List.append_nil] at h3
    refine h3.trans (List.Perm.append_right s ?_)
    simpa [workerInit] using p1
  rw [e2]
  have hop := run_open b (fun x hx => .inl (hb x hx)) _ g.1 gb.1 gb.2
  rw [hop]
  have g1 := g.1
  have g2 := gb.1
  clear hop g gb e2
  generalize op (s.foldl arrive st1) .blockNone = st2 at g1 g2 hp
  simp only [run]
  rw [arrives_up (st := { st2 with handled := st2.handled ++ (b.map (·.1)).flatten }) ⟨g1.all, g1.ctx, g1.fin⟩ sf]
  simp only [g2, List.not_mem_nil, not_false_eq_true, decide_true, decide_false, op, g1.fin, Option.isSome_none, Bool.false_eq_true, if_false]
  rw [work_done k t ht hqt _ rfl]
  refine ⟨rfl, ?_⟩
  have hts : (t.map (·.1)).flatten = [] := by
    rw [List.flatten_eq_nil_iff]
    intro y hy
    obtain ⟨x, hx, rfl⟩ := List.mem_map.mp hy
    exact hqt x hx
  simp only [List.map_append, List.flatten_append, List.map_cons, List.flatten_cons, hts, List.append_nil]
  have : List.filter (fun _ => true) sf = sf := by simp
  rw [this]
  refine List.Perm.append_right _ ?_
  rw [← List.append_assoc]
  exact List.Perm.append_right _ hp

/-- Case for `c94_worker_partial`: an interrupt before the mask is cleared is dealt with afterwards. -/
example : (run workerInit ([[.int], [.hup], [.int], [.pipe], [], []].zip (workerOps 1 1 1))).handled = [.hup, .int, .int, .pipe] ∧
    ([[Sig.int], [.hup], [.int], [.pipe], [], []].zip (workerOps 1 1 1)).map (·.2) = workerOps 1 1 1 := by decide

/-- Arrivals that are all blocked change nothing but the list of waiting signals. -/
theorem arrives_blocked {st : St} (l : List Sig) (hl : ∀ s ∈ l, s ∈ st.blocked) (hf : st.fin = none) :
    l.foldl arrive st = { st with waiting := st.waiting ++ l } := by
  induction l generalizing st with
  | nil => simp
  | cons s l ih =>
    rw [List.foldl_cons]
    have : arrive st s = { st with waiting := st.waiting ++ [s] } := by simp [arrive, hf, hl s (List.mem_cons_self ..)]
    rw [this, @ih { st with waiting := st.waiting ++ [s] } (fun x hx => hl x (List.mem_cons_of_mem _ hx)) hf]
    simp

/-- Only blocked signals wait, and only those named in a `block` are blocked. -/
theorem run_wait (Q : Sig → Prop) (l : List (List Sig × Op)) (hl : ∀ x ∈ l, Inner x.2) (hq : ∀ x ∈ l, ∀ b, x.2 = .block b → ∀ s ∈ b, Q s)
    (st : St) (h : Up st) (hb : ∀ s ∈ st.blocked, Q s) (hw : ∀ s ∈ st.waiting, Q s) :
    (∀ s ∈ (run st l).blocked, Q s) ∧ ∀ s ∈ (run st l).waiting, Q s := by
  induction l generalizing st with
  | nil => exact ⟨hb, hw⟩
  | cons x l ih =>
    obtain ⟨sg, o⟩ := x
    simp only [run]
    have ho := hl (sg, o) (List.mem_cons_self ..)
    have hqo := hq (sg, o) (List.mem_cons_self ..)
    have har := arrives_up h sg
    have hu2 : Up (sg.foldl arrive st) := by rw [har]; exact ⟨h.all, h.ctx, h.fin⟩
    have hb2 : ∀ s ∈ (sg.foldl arrive st).blocked, Q s := by rw [har]; exact hb
    have hw2 : ∀ s ∈ (sg.foldl arrive st).waiting, Q s := by
      rw [har]
      intro s hs
      rcases List.mem_append.mp hs with hs | hs
      · exact hw s hs
      · simp only [List.mem_filter, decide_eq_true_eq] at hs
        exact hb s hs.2
    generalize sg.foldl arrive st = st2 at hu2 hb2 hw2
    refine ih (fun x hx => hl x (List.mem_cons_of_mem _ hx)) (fun x hx => hq x (List.mem_cons_of_mem _ hx)) _ (op_inner hu2 ho).1 ?_ ?_
    · cases o with
      | block b =>
        simp only [op, hu2.fin]
        intro s hs
        rcases List.mem_append.mp hs with hs | hs
        · exact hb2 s hs
        · exact hqo b rfl s hs
      | blockNone =>
        simp only [op, hu2.fin, Option.isSome_none, Bool.false_eq_true, if_false]
        rw [delivers_up (st := ⟨st2.installed, [], [], st2.ctx, st2.handled, none⟩) ⟨hu2.all, hu2.ctx, rfl⟩]
        simp
      | suspend =>
        simp only [op, hu2.fin, Option.isSome_none, Bool.false_eq_true, if_false]
        rw [delivers_up (st := ⟨st2.installed, st2.blocked, [], st2.ctx, st2.handled, none⟩) ⟨hu2.all, hu2.ctx, rfl⟩]
        exact hb2
      | work => simp only [op, hu2.fin]; exact hb2
      | install _ => exact absurd ho (by simp [Inner])
      | alloc => exact absurd ho (by simp [Inner])
      | free => exact absurd ho (by simp [Inner])
      | done => exact absurd ho (by simp [Inner])
    · cases o with
      | block b => simp only [op, hu2.fin]; exact hw2
      | blockNone =>
        simp only [op, hu2.fin, Option.isSome_none, Bool.false_eq_true, if_false]
        rw [delivers_up (st := ⟨st2.installed, [], [], st2.ctx, st2.handled, none⟩) ⟨hu2.all, hu2.ctx, rfl⟩]
        simp
      | suspend =>
        simp only [op, hu2.fin, Option.isSome_none, Bool.false_eq_true, if_false]
        rw [delivers_up (st := ⟨st2.installed, st2.blocked, [], st2.ctx, st2.handled, none⟩) ⟨hu2.all, hu2.ctx, rfl⟩]
        simp
      | work => simp only [op, hu2.fin]; exact hw2
      | install _ => exact absurd ho (by simp [Inner])
      | alloc => exact absurd ho (by simp [Inner])
      | free => exact absurd ho (by simp [Inner])
      | done => exact absurd ho (by simp [Inner])

/-- The master, after a quiet start. -/
theorem master_end (n m k : Nat) (mid tail : List (List Sig × Op))
    (hm : mid.map (·.2) = List.replicate n .work ++ [.block [.chld, .int, .usr1, .usr2]] ++ List.replicate n .work ++ (List.replicate m [.suspend, .work]).flatten)
    (ht : tail.map (·.2) = [.free] ++ List.replicate k .work ++ [.done])
    (hs : ∀ x ∈ tail.drop 1, ∀ s ∈ x.1, s = .int ∨ s = .chld ∨ s = .usr1 ∨ s = .usr2) :
    let st := run init (start.map (fun o => ([], o)) ++ mid ++ tail)
    st.fin = some .done ∧ (st.handled ++ st.waiting).Perm (((mid ++ tail).map (·.1)).flatten) ∧
      ∀ s ∈ st.waiting, s = .int ∨ s = .chld ∨ s = .usr1 ∨ s = .usr2 := by
  have hl : ∀ x ∈ mid, Inner x.2 := by
    intro x hx
    have : x.2 ∈ mid.map (·.2) := List.mem_map.mpr ⟨x, hx, rfl⟩
    rw [hm] at this
    simp only [List.mem_append, List.mem_replicate, List.mem_singleton, List.mem_flatten] at this
    rcases this with ((⟨_, h⟩ | h) | ⟨_, h⟩) | ⟨l, ⟨_, rfl⟩, h⟩
    · rw [h]; trivial
    · rw [h]; trivial
    · rw [h]; trivial
    · simp only [List.mem_cons, List.not_mem_nil, or_false] at h
      rcases h with h | h <;> rw [h] <;> trivial
  -- the four signals are blocked at the end
  have hblk : ∀ (l : List (List Sig × Op)) (st : St), Up st → (∀ x ∈ l, Inner x.2 ∧ x.2 ≠ .blockNone) →
      ∀ s, (s ∈ st.blocked ∨ ∃ x ∈ l, ∃ b, x.2 = .block b ∧ s ∈ b) → s ∈ (run st l).blocked := by
    intro l
    induction l with
    | nil => intro st _ _ s h; simpa [run] using h
    | cons x l ih =>
      intro st hu hx s h
      obtain ⟨sg, o⟩ := x
      simp only [run]
      have har := arrives_up hu sg
      have hu2 : Up (sg.foldl arrive st) := by rw [har]; exact ⟨hu.all, hu.ctx, hu.fin⟩
      have hb2 : (sg.foldl arrive st).blocked = st.blocked := by rw [har]
      have ho := hx (sg, o) (List.mem_cons_self ..)
      refine ih _ (op_inner hu2 ho.1).1 (fun x hx' => hx x (List.mem_cons_of_mem _ hx')) s ?_
      have hmono : s ∈ st.blocked → s ∈ (op (sg.foldl arrive st) o).blocked := by
        intro hm'
        cases o with
        | blockNone => exact absurd rfl ho.2
        | block b => simp only [op, hu2.fin]; exact List.mem_append_left _ (by rw [hb2]; exact hm')
        | suspend =>
          simp only [op, hu2.fin, Option.isSome_none, Bool.false_eq_true, if_false]
          rw [delivers_up (st := ⟨(sg.foldl arrive st).installed, (sg.foldl arrive st).blocked, [], (sg.foldl arrive st).ctx,
            (sg.foldl arrive st).handled, none⟩) ⟨hu2.all, hu2.ctx, rfl⟩]
          show s ∈ (sg.foldl arrive st).blocked
          rw [hb2]; exact hm'
        | work => simp only [op, hu2.fin]; show s ∈ (sg.foldl arrive st).blocked; rw [hb2]; exact hm'
        | install _ => exact absurd ho.1 (by simp [Inner])
        | alloc => exact absurd ho.1 (by simp [Inner])
        | free => exact absurd ho.1 (by simp [Inner])
        | done => exact absurd ho.1 (by simp [Inner])
      rcases h with h | ⟨x, hx', b, hb, hsb⟩
      · exact .inl (hmono h)
      · rcases List.mem_cons.mp hx' with rfl | hx'
        · left
          simp only at hb
          subst hb
          simp only [op, hu2.fin]
          exact List.mem_append_right _ hsb
        · exact .inr ⟨x, hx', b, hb, hsb⟩
  have hnb : ∀ x ∈ mid, x.2 ≠ .blockNone := by
    intro x hx he
    have : x.2 ∈ mid.map (·.2) := List.mem_map.mpr ⟨x, hx, rfl⟩
    rw [hm, he] at this
    simp only [List.mem_append, List.mem_replicate, List.mem_singleton, List.mem_flatten] at this
    rcases this with ((⟨_, h⟩ | h) | ⟨_, h⟩) | ⟨l, ⟨_, rfl⟩, h⟩
    · cases h
    · cases h
    · cases h
    · simp only [List.mem_cons, List.not_mem_nil, or_false] at h
      rcases h with h | h <;> cases h
  have hin : ∃ x ∈ mid, x.2 = .block [.chld, .int, .usr1, .usr2] := by
    have : Op.block [.chld, .int, .usr1, .usr2] ∈ mid.map (·.2) := by rw [hm]; simp
    obtain ⟨x, hx, h⟩ := List.mem_map.mp this
    exact ⟨x, hx, h⟩
  obtain ⟨xb, hxb, hbb⟩ := hin
  simp only [run_append, run_start]
  have hb := hblk mid _ up_start (fun x hx => ⟨hl x hx, hnb x hx⟩)
  obtain ⟨u, up⟩ := run_inner mid hl _ up_start
  have ubw := run_wait (fun s => s = .int ∨ s = .chld ∨ s = .usr1 ∨ s = .usr2) mid hl (by
    intro x hx b hb'
    have : x.2 ∈ mid.map (·.2) := List.mem_map.mpr ⟨x, hx, rfl⟩
    rw [hm, hb'] at this
    simp only [List.mem_append, List.mem_replicate, List.mem_singleton, List.mem_flatten] at this
    rcases this with ((⟨_, h⟩ | h) | ⟨_, h⟩) | ⟨l, ⟨_, rfl⟩, h⟩
    · cases h
    · simp only [Op.block.injEq] at h
      subst h
      intro s hs'
      simp only [List.mem_cons, List.not_mem_nil, or_false] at hs'
      rcases hs' with rfl | rfl | rfl | rfl <;> simp
    · cases h
    · simp only [List.mem_cons, List.not_mem_nil, or_false] at h
      rcases h with h | h <;> cases h) _ up_start (by simp) (by simp)
  obtain ⟨ubs, uw⟩ := ubw
  simp only [List.nil_append] at up
  generalize hst : run ⟨[.int, .hup, .chld, .pipe, .usr1, .usr2], [], [], .live, [], none⟩ mid = st at hb u up uw ubs
  have hb4 : ∀ s, (s = .int ∨ s = .chld ∨ s = .usr1 ∨ s = .usr2) → s ∈ st.blocked := by
    intro s hs'
    refine hb s (.inr ⟨xb, hxb, _, hbb, ?_⟩)
    rcases hs' with rfl | rfl | rfl | rfl <;> simp
  -- the end
  cases tail with
  | nil => simp at ht
  | cons x tail =>
    simp only [List.map_cons, List.cons_append, List.nil_append, List.cons.injEq] at ht
    obtain ⟨hx2, ht⟩ := ht
    obtain ⟨xs, xo⟩ := x
    simp only at hx2
    subst hx2
    simp only [List.drop_succ_cons, List.drop_zero] at hs
    have ur := run_inner [(xs, .work)] (by simp [Inner]) st u
    have hx : run st [(xs, .work)] = xs.foldl arrive st := by simp [run, op]
    have ubl : (xs.foldl arrive st).blocked = st.blocked := by rw [arrives_up u xs]
    have uws : ∀ s ∈ (xs.foldl arrive st).waiting, s = .int ∨ s = .chld ∨ s = .usr1 ∨ s = .usr2 := by
      rw [arrives_up u xs]
      intro s hs'
      rcases List.mem_append.mp hs' with hs' | hs'
      · exact uw s hs'
      · simp only [List.mem_filter, decide_eq_true_eq] at hs'
        exact ubs s hs'.2
    rw [hx] at ur
    obtain ⟨u', up'⟩ := ur
    simp only [List.map_cons, List.map_nil, List.flatten_cons, List.flatten_nil, List.append_nil] at up'
    rw [← ubl] at hb4
    replace up := up'.trans (List.Perm.append_right xs up)
    rw [run]
    generalize xs.foldl arrive st = st' at *
    clear hx u uw ubs up' ubl hb hst st
    rename St => st
    have u := u'
    have uw := uws
    simp only [op, u.fin, Option.isSome_none, Bool.false_eq_true, if_false]
    have key : ∀ (k : Nat) (tl : List (List Sig × Op)) (st : St), tl.map (·.2) = List.replicate k .work ++ [.done] →
        (∀ x ∈ tl, ∀ s ∈ x.1, s ∈ st.blocked) → st.fin = none →
        (run st tl).fin = some .done ∧ (run st tl).handled = st.handled ∧ (run st tl).waiting = st.waiting ++ (tl.map (·.1)).flatten := by
      intro k
      induction k with
      | zero =>
        intro tl st h h2 h3
        cases tl with
        | nil => simp at h
        | cons y tl =>
          simp only [List.replicate_zero, List.nil_append, List.map_cons, List.cons.injEq, List.map_eq_nil_iff] at h
          obtain ⟨hy, rfl⟩ := h
          obtain ⟨ys, yo⟩ := y
          simp only at hy
          subst hy
          simp only [run]
          rw [arrives_blocked ys (h2 _ (List.mem_cons_self ..)) h3]
          simp [op, h3]
      | succ k ih =>
        intro tl st h h2 h3
        cases tl with
        | nil => simp [List.replicate_succ] at h
        | cons y tl =>
          simp only [List.replicate_succ, List.cons_append, List.map_cons, List.cons.injEq] at h
          obtain ⟨hy, h⟩ := h
          obtain ⟨ys, yo⟩ := y
          simp only at hy
          subst hy
          simp only [run]
          rw [arrives_blocked ys (h2 _ (List.mem_cons_self ..)) h3]
          have e : op { st with waiting := st.waiting ++ ys } .work = { st with waiting := st.waiting ++ ys } := by simp [op]
          rw [e]
          have := ih tl { st with waiting := st.waiting ++ ys } h (fun x hx => h2 x (List.mem_cons_of_mem _ hx)) h3
          simpa using this
    have h4 := hs
    obtain ⟨k1, k2, k3⟩ := key k tail ⟨st.installed, st.blocked, st.waiting, .freed, st.handled, none⟩ ht
      (fun y hy s hs' => hb4 s (h4 y hy s hs')) rfl
    refine ⟨k1, ?_, ?_⟩
    · rw [k2, k3]
      simp only [List.map_append, List.map_cons, List.flatten_append, List.flatten_cons]
      rw [← List.append_assoc, ← List.append_assoc]
      exact List.Perm.append_right _ up
    · rw [k3]
      intro s hs'
      rcases List.mem_append.mp hs' with hs' | hs'
      · exact uw s hs'
      · simp only [List.mem_flatten, List.mem_map] at hs'
        obtain ⟨l, ⟨y, hy, rfl⟩, h⟩ := hs'
        exact h4 y hy s h

/-- C94 (partial): the master. If no signal arrives before the context is allocated, and after the context was freed
only interrupts, SIGCHLD, SIGUSR1 and SIGUSR2 arrive (which are blocked then), it comes to its end, and every signal that arrived was
dealt with once or is one of these four and still waits at the end. -/
theorem c94_master_partial (n m k : Nat) (l : List (List Sig × Op)) (hl : l.map (·.2) = masterOps n m k) (h1 : ∀ x ∈ l.take 7, x.1 = [])
    (h2 : ∀ x ∈ l.drop (7 + n + 1 + n + 2 * m + 1), ∀ s ∈ x.1, s = .int ∨ s = .chld ∨ s = .usr1 ∨ s = .usr2) :
    (run init l).fin = some .done ∧ ((run init l).handled ++ (run init l).waiting).Perm (l.map (·.1)).flatten ∧
      ∀ s ∈ (run init l).waiting, s = .int ∨ s = .chld ∨ s = .usr1 ∨ s = .usr2 := by
  have e : masterOps n m k = start ++ (List.replicate n .work ++ [.block [.chld, .int, .usr1, .usr2]] ++ List.replicate n .work ++
      (List.replicate m [.suspend, .work]).flatten) ++ ([.free] ++ List.replicate k .work ++ [.done]) := by simp [masterOps]
  rw [e, List.map_eq_append_iff] at hl
  obtain ⟨l1, tail, rfl, hl1, ht⟩ := hl
  rw [List.map_eq_append_iff] at hl1
  obtain ⟨a, mid, rfl, ha, hm⟩ := hl1
  have la : a.length = 7 := by have := congrArg List.length ha; simpa [start] using this
  have lm : mid.length = n + 1 + n + 2 * m := by
    have := congrArg List.length hm
    simp [List.length_flatten, List.sum_replicate_nat] at this
    omega
  have hqa : ∀ x ∈ a, x.1 = [] := by
    intro x hx
    refine h1 x ?_
    rw [List.append_assoc, ← la, List.take_left]
    exact hx
  have e0 : a = start.map fun o => ([], o) := by rw [quiet_eq a hqa, ha]
  have := master_end n m k mid tail hm ht (by
    intro x hx
    refine h2 x ?_
    rw [show 7 + n + 1 + n + 2 * m + 1 = (a ++ mid).length + 1 by simp [la, lm]; omega, ← List.drop_drop, List.drop_left]
    exact hx)
  rw [e0]
  refine ⟨this.1, this.2.1.trans ?_, this.2.2⟩
  simp [start]

/-- Case for `c94_master_partial`: a child ends while the master waits, then a stop request; a child ends while the master is ending. -/
example : run init ([[], [], [], [], [], [], [], [], [.hup], [.chld], [], [.int], [], [.chld], [.usr1], [.chld], [.int]].zip (masterOps 1 2 1)) =
    ⟨[.int, .hup, .chld, .pipe, .usr1, .usr2], [.chld, .int, .usr1, .usr2], [.chld, .usr1, .chld, .int], .freed, [.hup, .chld, .int], some .done⟩ ∧
    (masterOps 1 2 1).length = 17 := by decide

/-- C94 is false of the code: a signal whose handler is installed but that arrives before the context is allocated makes the handler write through a NULL
pointer. `i` handlers are installed at that time, in the order of the code. -/
theorem c94_early_counterexample (i : Nat) (hi : i ≤ 6) (s : Sig) (hs : s ∈ [Sig.int, .hup, .chld, .pipe, .usr1, .usr2].take i)
    (more : List Sig) (o : Op) (a rest : List (List Sig × Op)) (n m k : Nat) (hl : (a ++ (s :: more, o) :: rest).map (·.2) = single n m k) (hlen : a.length = i)
    (hq : ∀ x ∈ a, x.1 = []) :
    (run init (a ++ (s :: more, o) :: rest)).fin = some (.nullPointer s) := by
  have ha : a = (start.take i).map fun o => ([], o) := by
    have : a.map (·.2) = start.take i := by
      have h := congrArg (List.take i) hl
      rw [List.map_append, List.take_left' (by simp [hlen])] at h
      rw [h, single]
      simp only [List.append_assoc]
      rw [List.take_append_of_le_length (by simp [start]; omega)]
    rw [quiet_eq a hq, this]
  rw [run_append, ha]
  clear hl hlen hq ha
  have h1 : run init ((start.take i).map fun o => ([], o)) = ⟨[Sig.int, .hup, .chld, .pipe, .usr1, .usr2].take i, [], [], .null, [], none⟩ := by
    have : i = 0 ∨ i = 1 ∨ i = 2 ∨ i = 3 ∨ i = 4 ∨ i = 5 ∨ i = 6 := by omega
    rcases this with rfl | rfl | rfl | rfl | rfl | rfl | rfl <;> decide
  rw [h1]
  simp only [run, List.foldl_cons]
  have h2 : arrive ⟨[Sig.int, .hup, .chld, .pipe, .usr1, .usr2].take i, [], [], .null, [], none⟩ s =
      ⟨[Sig.int, .hup, .chld, .pipe, .usr1, .usr2].take i, [], [], .null, [], some (.nullPointer s)⟩ := by
    simp [arrive, deliver, hs]
  rw [h2, arrives_fin rfl, op_fin rfl, run_fin rfl]

/-- Case for `c94_early_counterexample`: Ctrl-C during the start. -/
example : (run init ([([], .install .int), ([], .install .hup), ([.int], .install .chld)])).fin = some (.nullPointer .int) := by decide

/-- C94 is false of the code: in a process without workers a signal that arrives after the context was freed, for instance a second Ctrl-C while
it ends, makes the handler use the freed memory. -/
theorem c94_late_counterexample (n m k : Nat) (a b : List (List Sig × Op)) (s : Sig) (more : List Sig) (o : Op)
    (hl : (a ++ (s :: more, o) :: b).map (·.2) = single n m k) (hlen : 7 + n + 1 + m + 1 ≤ a.length) (h1 : ∀ x ∈ a.take 7, x.1 = [])
    (h2 : ∀ x ∈ a.drop (7 + n + 1 + m + 1), x.1 = []) :
    (run init (a ++ (s :: more, o) :: b)).fin = some (.afterFree s) := by
  have hla : a.map (·.2) = (single n m k).take a.length := by
    rw [← hl, List.map_append, List.take_left' (by simp)]
  obtain ⟨j, hj⟩ : ∃ j, a.length = 7 + n + 1 + m + 1 + j := ⟨a.length - (7 + n + 1 + m + 1), by omega⟩
  have hlenl : a.length + 1 + b.length = 7 + n + 1 + m + 1 + k + 1 := by
    have := congrArg List.length hl
    simp [single, start] at this
    omega
  have hja : a.map (·.2) = start ++ (List.replicate n .work ++ [.blockNone] ++ List.replicate m .work) ++ (.free :: List.replicate j .work) := by
    rw [hla, hj]
    have e : single n m k = (start ++ (List.replicate n .work ++ [.blockNone] ++ List.replicate m .work) ++ [.free]) ++ (List.replicate k .work ++ [.done]) := by
      simp [single]
    have e3 : (start ++ (List.replicate n Op.work ++ [Op.blockNone] ++ List.replicate m Op.work) ++ [Op.free]).length = 7 + n + 1 + m + 1 := by
      simp [start]; omega
    rw [e, List.take_append, List.take_of_length_le (by rw [e3]; omega), e3, show 7 + n + 1 + m + 1 + j - (7 + n + 1 + m + 1) = j by omega,
      List.take_append_of_le_length (by simp; omega), List.take_replicate, Nat.min_eq_left (by omega)]
    simp
  rw [List.map_eq_append_iff] at hja
  obtain ⟨l1, l2, rfl, h3, h4⟩ := hja
  rw [List.map_eq_append_iff] at h3
  obtain ⟨a0, mid, rfl, ha0, hm⟩ := h3
  rw [List.map_eq_cons_iff] at h4
  obtain ⟨⟨sf, o'⟩, t, rfl, ho, ht⟩ := h4
  simp only at ho
  subst ho
  have la : a0.length = 7 := by have := congrArg List.length ha0; simpa [start] using this
  have lm : mid.length = n + 1 + m := by have := congrArg List.length hm; simp at this; omega
  have hqa : ∀ x ∈ a0, x.1 = [] := by
    intro x hx
    refine h1 x ?_
    rw [List.append_assoc, ← la, List.take_left]
    exact hx
  have hqt : ∀ x ∈ t, x.1 = [] := by
    intro x hx
    refine h2 x ?_
    rw [show 7 + n + 1 + m + 1 = (a0 ++ mid).length + 1 by simp [la, lm]; omega, ← List.drop_drop, List.drop_left]
    exact hx
  have hin : ∀ x ∈ mid, x.2 = .work ∨ x.2 = .blockNone := by
    intro x hx
    have : x.2 ∈ mid.map (·.2) := List.mem_map.mpr ⟨x, hx, rfl⟩
    rw [hm] at this
    simp only [List.mem_append, List.mem_replicate, List.mem_singleton] at this
    rcases this with (⟨_, h⟩ | h) | ⟨_, h⟩
    · exact .inl h
    · exact .inr h
    · exact .inl h
  have e0 : a0 = start.map fun o => ([], o) := by rw [quiet_eq a0 hqa, ha0]
  have hw : t = List.replicate j ([], .work) := by rw [quiet_eq t hqt, ht, List.map_replicate]
  rw [run_append, run_append, run_append, e0, run_start, run_open mid hin _ up_start rfl rfl]
  generalize (mid.map (·.1)).flatten = hd
  have e5 : run ⟨[.int, .hup, .chld, .pipe, .usr1, .usr2], [], [], .live, [] ++ hd, none⟩ ((sf, .free) :: t) =
      ⟨[.int, .hup, .chld, .pipe, .usr1, .usr2], [], [], .freed, hd ++ sf, none⟩ := by
    rw [run, arrives_up (st := ⟨[.int, .hup, .chld, .pipe, .usr1, .usr2], [], [], .live, [] ++ hd, none⟩) ⟨up_start.all, rfl, rfl⟩ sf, hw,
      run_tail _ (fun x hx => List.eq_of_mem_replicate hx)]
    simp [op]
  rw [e5]
  generalize hd ++ sf = hd'
  have hin2 : s ∈ [Sig.int, .hup, .chld, .pipe, .usr1, .usr2] := by cases s <;> decide
  have h2' : arrive ⟨[Sig.int, .hup, .chld, .pipe, .usr1, .usr2], [], [], .freed, hd', none⟩ s =
      ⟨[Sig.int, .hup, .chld, .pipe, .usr1, .usr2], [], [], .freed, hd', some (.afterFree s)⟩ := by
    unfold arrive deliver
    simp only [Option.isSome_none, Bool.false_eq_true, if_false, List.not_mem_nil, hin2, not_true_eq_false]
  rw [run, List.foldl_cons, h2', arrives_fin rfl, op_fin rfl, run_fin rfl]

/-- Case for `c94_late_counterexample`: Ctrl-C twice. -/
example : (run init ([[], [], [], [], [], [], [], [], [.int], [], [.int], []].zip (single 0 1 2))).fin = some (.afterFree .int) := by decide

/-- C94 is false of the code before the first handler is installed: every signal but SIGCHLD ends the process, whatever would have followed; SIGCHLD leaves
no trace. -/
theorem c94_before_counterexample (s : Sig) (o : Op) (rest : List (List Sig × Op)) :
    (s ≠ .chld → (run init (([s], o) :: rest)).fin = some (.default s)) ∧ run init (([.chld], o) :: rest) = run init (([], o) :: rest) := by
  refine ⟨?_, ?_⟩
  · intro hs
    have e : op (arrive init s) o = { init with fin := some (.default s) } := by
      have : arrive init s = { init with fin := some (.default s) } := by simp [arrive, init, deliver, hs]
      rw [this]; exact op_fin rfl o
    simp only [run, List.foldl_cons, List.foldl_nil]
    rw [e, run_fin rfl]
  · have : arrive init .chld = init := by simp [arrive, init, deliver]
    simp only [run, List.foldl_cons, List.foldl_nil, this]

/-- Case for `c94_before_counterexample`: a reload that comes too early. -/
example : (run init ([[.hup], [], [], [], [], [], [], [], [], [], [], []].zip (single 1 1 1))).fin = some (.default .hup) := by decide

end Verif.Signals
