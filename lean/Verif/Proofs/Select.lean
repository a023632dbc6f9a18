import Verif.Model.Select
import Verif.Proofs.Event
namespace Verif.Select
open Verif Verif.Event

/-- What holds of the registration at every moment. -/
structure W (s : St) : Prop where
  nodup : s.queue.Nodup
  mem : ∀ id, id ∈ s.queue ↔ s.ev.alive id = true
  opn : ∀ id, s.ev.alive id = true → s.opened (s.fd id) = true
  inj : ∀ a b, s.ev.alive a = true → s.ev.alive b = true → s.fd a = s.fd b → a = b
  hr : ∀ id, s.ev.alive id = true → (s.opt id).r = true → s.rfds (s.fd id) = true
  hw : ∀ id, s.ev.alive id = true → (s.opt id).w = true → s.wfds (s.fd id) = true
  tr : s.stale = false → ∀ f, s.rfds f = true → ∃ id, s.ev.alive id = true ∧ s.fd id = f ∧ (s.opt id).r = true
  tw : s.stale = false → ∀ f, s.wfds f = true → ∃ id, s.ev.alive id = true ∧ s.fd id = f ∧ (s.opt id).w = true

theorem W.setEv {s : St} (w : W s) (e : Event.St) (h : e.alive = s.ev.alive) : W { s with ev := e } := by
  obtain ⟨a, b, c, d, e1, f, g, i⟩ := w
  constructor <;> simp only [h] <;> assumption

theorem init_W (o : Nat → Bool) : W (init o) := by
  constructor <;> simp [init]

theorem open_W {s : St} (w : W s) {id fd : Nat} (h1 : s.ev.alive id = false) (h2 : s.opened fd = false) : W (openConn s id fd) := by
  have hne : ∀ {x}, s.ev.alive x = true → x ≠ id := by rintro x hx rfl; simp [h1] at hx
  have hfd : ∀ {x}, s.ev.alive x = true → s.fd x ≠ fd := by rintro x hx rfl; simp [w.opn x hx] at h2
  constructor
  · simp only [openConn]
    rw [List.nodup_append]
    refine ⟨w.nodup, by simp, ?_⟩
    intro a ha b hb
    simp only [List.mem_singleton] at hb; subst hb
    exact hne ((w.mem a).1 ha)
  · intro x
    simp only [openConn, List.mem_append, List.mem_singleton, w.mem, alloc, upd]
    grind
  · intro x; have := w.opn x; simp only [openConn, alloc, upd]; grind
  · intro a b; have := w.inj a b; have := @hfd a; have := @hfd b; simp only [openConn, alloc, upd]; grind
  · intro x; have := w.hr x; have := @hfd x; simp only [openConn, alloc, upd]; simp only [Mask.none]; grind
  · intro x; have := w.hw x; have := @hfd x; simp only [openConn, alloc, upd]; simp only [Mask.none]; grind
  · intro hs f hf
    obtain ⟨x, hx1, hx2, hx3⟩ := w.tr hs f hf
    exact ⟨x, by simp [openConn, alloc, upd, hx1], by simp [openConn, upd, hne hx1, hx2], by simp [openConn, upd, hne hx1, hx3]⟩
  · intro hs f hf
    obtain ⟨x, hx1, hx2, hx3⟩ := w.tw hs f hf
    exact ⟨x, by simp [openConn, alloc, upd, hx1], by simp [openConn, upd, hne hx1, hx2], by simp [openConn, upd, hne hx1, hx3]⟩

theorem close_W {s : St} (w : W s) {id : Nat} (h1 : s.ev.alive id = true) : W (closeConn s id) := by
  constructor
  · exact w.nodup.filter _
  · intro x
    simp only [closeConn, List.mem_filter, w.mem, Event.free, upd]
    grind
  · intro x; have := w.opn x; have := w.inj x id; simp only [closeConn, Event.free, upd]; grind
  · intro a b; have := w.inj a b; simp only [closeConn, Event.free, upd]; grind
  · intro x; have := w.hr x; simp only [closeConn, Event.free, upd]; grind
  · intro x; have := w.hw x; simp only [closeConn, Event.free, upd]; grind
  · intro hs f hf
    simp only [closeConn, Bool.or_eq_false_iff, decide_eq_false_iff_not, ne_eq, Decidable.not_not] at hs
    obtain ⟨x, hx1, hx2, hx3⟩ := w.tr hs.1 f hf
    have : x ≠ id := by rintro rfl; simp [hs.2, Mask.none] at hx3
    exact ⟨x, by simp [closeConn, Event.free, upd, this, hx1], hx2, hx3⟩
  · intro hs f hf
    simp only [closeConn, Bool.or_eq_false_iff, decide_eq_false_iff_not, ne_eq, Decidable.not_not] at hs
    obtain ⟨x, hx1, hx2, hx3⟩ := w.tw hs.1 f hf
    have : x ≠ id := by rintro rfl; simp [hs.2, Mask.none] at hx3
    exact ⟨x, by simp [closeConn, Event.free, upd, this, hx1], hx2, hx3⟩

/-- What `ev_select_opt` leaves in a set. -/
theorem selectOpt_spec (c : Sel) (m : Mask) :
    (selectOpt c m).opt = m ∧
    (c.opt.r = true → c.rfds = true → (selectOpt c m).rfds = m.r) ∧ (c.opt.w = true → c.wfds = true → (selectOpt c m).wfds = m.w) ∧
    (c.opt.r = false → (selectOpt c m).rfds = (m.r || c.rfds)) ∧ (c.opt.w = false → (selectOpt c m).wfds = (m.w || c.wfds)) := by
  obtain ⟨⟨or, ow⟩, r, w⟩ := c
  obtain ⟨mr, mw⟩ := m
  cases or <;> cases ow <;> cases r <;> cases w <;> cases mr <;> cases mw <;> decide

theorem setOpt_W {s : St} (w : W s) {id : Nat} (h1 : s.ev.alive id = true) (m : Mask) : W (setOpt s id m) := by
  obtain ⟨p1, p2, p3, p4, p5⟩ := selectOpt_spec ⟨s.opt id, s.rfds (s.fd id), s.wfds (s.fd id)⟩ m
  have hr := w.hr id h1
  have hw := w.hw id h1
  have q1 : m.r = true → (selectOpt ⟨s.opt id, s.rfds (s.fd id), s.wfds (s.fd id)⟩ m).rfds = true := by
    intro hm; cases h : (s.opt id).r
    · rw [p4 h, hm]; rfl
    · rw [p2 h (hr h), hm]
  have q2 : m.w = true → (selectOpt ⟨s.opt id, s.rfds (s.fd id), s.wfds (s.fd id)⟩ m).wfds = true := by
    intro hm; cases h : (s.opt id).w
    · rw [p5 h, hm]; rfl
    · rw [p3 h (hw h), hm]
  have q3 : s.stale = false → (selectOpt ⟨s.opt id, s.rfds (s.fd id), s.wfds (s.fd id)⟩ m).rfds = true → m.r = true := by
    intro hs hm; cases h : (s.opt id).r
    · rw [p4 h] at hm
      cases hb : s.rfds (s.fd id)
      · simpa [hb] using hm
      · obtain ⟨x, x1, x2, x3⟩ := w.tr hs _ hb
        rw [w.inj x id x1 h1 x2, h] at x3; simp at x3
    · rw [p2 h (hr h)] at hm; exact hm
  have q4 : s.stale = false → (selectOpt ⟨s.opt id, s.rfds (s.fd id), s.wfds (s.fd id)⟩ m).wfds = true → m.w = true := by
    intro hs hm; cases h : (s.opt id).w
    · rw [p5 h] at hm
      cases hb : s.wfds (s.fd id)
      · simpa [hb] using hm
      · obtain ⟨x, x1, x2, x3⟩ := w.tw hs _ hb
        rw [w.inj x id x1 h1 x2, h] at x3; simp at x3
    · rw [p3 h (hw h)] at hm; exact hm
  constructor
  · exact w.nodup
  · exact w.mem
  · exact w.opn
  · exact w.inj
  · intro x hx
    simp only [setOpt, upd, p1]
    by_cases hxi : x = id
    · subst hxi; simpa using q1
    · have : s.fd x ≠ s.fd id := fun e => hxi (w.inj x id hx h1 e)
      simp only [hxi, this, if_false]; exact w.hr x hx
  · intro x hx
    simp only [setOpt, upd, p1]
    by_cases hxi : x = id
    · subst hxi; simpa using q2
    · have : s.fd x ≠ s.fd id := fun e => hxi (w.inj x id hx h1 e)
      simp only [hxi, this, if_false]; exact w.hw x hx
  · intro hs f hf
    simp only [setOpt, upd, p1] at hf ⊢
    by_cases he : f = s.fd id
    · subst he; rw [if_pos rfl] at hf
      exact ⟨id, h1, rfl, by simpa using q3 hs hf⟩
    · rw [if_neg he] at hf
      obtain ⟨x, x1, x2, x3⟩ := w.tr hs f hf
      have : x ≠ id := by rintro rfl; exact he x2.symm
      exact ⟨x, x1, x2, by simpa [this] using x3⟩
  · intro hs f hf
    simp only [setOpt, upd, p1] at hf ⊢
    by_cases he : f = s.fd id
    · subst he; rw [if_pos rfl] at hf
      exact ⟨id, h1, rfl, by simpa using q4 hs hf⟩
    · rw [if_neg he] at hf
      obtain ⟨x, x1, x2, x3⟩ := w.tw hs f hf
      have : x ≠ id := by rintro rfl; exact he x2.symm
      exact ⟨x, x1, x2, by simpa [this] using x3⟩

theorem act_W {s : St} (w : W s) (a : Act) : W (act s a) := by
  cases a with
  | «open» id fd =>
    simp only [act]
    split
    · exact w
    · rename_i h; simp only [Bool.or_eq_true, not_or, Bool.not_eq_true] at h; exact open_W w h.1 h.2
  | close id => simp only [act]; split; exact close_W w ‹_›; exact w
  | opt id m => simp only [act]; split; exact setOpt_W w ‹_› m; exact w

theorem acts_W (as : List Act) {s : St} (w : W s) : W (as.foldl act s) := by
  induction as generalizing s with
  | nil => exact w
  | cons a as ih => exact ih (act_W w a)

theorem body_alive (e : Event.St) (i : Nat) : (body e i).1.alive = e.alive := by
  unfold body; split
  · rfl
  · dsimp only; split
    · rfl
    · split <;> rfl

theorem loop_W (h : Nat → List Act) (k i : Nat) {s : St} (w : W s) : W (loop h k i s).1 := by
  induction k generalizing i s with
  | zero => exact w
  | succ k ih =>
    have ha := body_alive s.ev i
    simp only [loop]
    split
    · rename_i e he; rw [he] at ha; exact ih _ (w.setEv _ ha)
    · rename_i e c he; rw [he] at ha; exact ih _ (acts_W _ (w.setEv _ ha))

theorem collect1_alive (e : Event.St) (x : Nat × Bool × Bool) : (collect1 e x).alive = e.alive := by
  unfold collect1; dsimp only
  split <;> split <;> rfl

theorem collect_alive (e : Event.St) (rep : List (Nat × Bool × Bool)) : (collect e rep).alive = e.alive := by
  have : ∀ (rep : List (Nat × Bool × Bool)) (t : Event.St), (rep.foldl collect1 t).alive = t.alive := by
    intro rep; induction rep with
    | nil => intro t; rfl
    | cons x rep ih => intro t; rw [List.foldl_cons, ih, collect1_alive]
  exact this rep _

theorem batch_W (h : Nat → List Act) {s : St} (w : W s) (ready : Nat → Bool × Bool) (intr : Bool) : W (batch h s ready intr).1 :=
  loop_W h _ 0 (w.setEv _ (collect_alive _ _))

theorem step_W {s : St} (w : W s) (o : Op) : W (step s o) := by
  cases o with
  | act a => exact act_W w a
  | turn h ready intr => exact batch_W h w ready intr

theorem run_W (ops : List Op) {s : St} (w : W s) : W (run s ops) := by
  induction ops generalizing s with
  | nil => exact w
  | cons o ops ih => exact ih (step_W w o)

/-! ### The dispatch is that of `Event` -/

theorem act_ev (s : St) (a : Act) : ∃ as : List Event.Act, (act s a).ev = as.foldl Event.act s.ev := by
  cases a with
  | «open» id fd =>
    simp only [act]
    split
    · exact ⟨[], rfl⟩
    · rename_i h; simp only [Bool.or_eq_true, not_or, Bool.not_eq_true] at h
      exact ⟨[.alloc id], by simp [Event.act, h.1, openConn]⟩
  | close id =>
    simp only [act]
    split
    · exact ⟨[.free id], by simp [Event.act, *, closeConn]⟩
    · exact ⟨[], rfl⟩
  | opt id m => simp only [act]; split <;> exact ⟨[], rfl⟩

theorem acts_ev (as : List Act) (s : St) : ∃ as' : List Event.Act, (as.foldl act s).ev = as'.foldl Event.act s.ev := by
  induction as generalizing s with
  | nil => exact ⟨[], rfl⟩
  | cons a as ih =>
    obtain ⟨a1, h1⟩ := act_ev s a
    obtain ⟨a2, h2⟩ := ih (act s a)
    exact ⟨a1 ++ a2, by rw [List.foldl_cons, h2, h1, List.foldl_append]⟩

theorem evloop_congr (h h' : Nat → List Event.Act) (k i : Nat) (e : Event.St) (hh : ∀ j, i ≤ j → h j = h' j) :
    Event.loop h k i e = Event.loop h' k i e := by
  induction k generalizing i e with
  | zero => rfl
  | succ k ih =>
    simp only [Event.loop]
    split
    · exact ih _ _ (fun j hj => hh j (by omega))
    · rw [hh i (Nat.le_refl _), ih (i + 1) _ (fun j hj => hh j (by omega))]

theorem loop_ev (h : Nat → List Act) (k i : Nat) (s : St) :
    ∃ h', Event.loop h' k i s.ev = ((loop h k i s).1.ev, (loop h k i s).2) := by
  induction k generalizing i s with
  | zero => exact ⟨fun _ => [], rfl⟩
  | succ k ih =>
    rcases hb : body s.ev i with ⟨e, _ | c⟩
    · obtain ⟨h', hh⟩ := ih (i + 1) { s with ev := e }
      exact ⟨h', by simp only [Event.loop, loop, hb]; exact hh⟩
    · obtain ⟨as, ha⟩ := acts_ev (h i) { s with ev := e }
      obtain ⟨h', hh⟩ := ih (i + 1) ((h i).foldl act { s with ev := e })
      refine ⟨fun j => if j = i then as else h' j, ?_⟩
      simp only [Event.loop, loop, hb, if_true]
      rw [← ha, evloop_congr (fun j => if j = i then as else h' j) h' _ _ _ (fun j hj => by simp [show j ≠ i by omega]), hh]

theorem batch_ev (h : Nat → List Act) (s : St) (ready : Nat → Bool × Bool) (intr : Bool) :
    ∃ h', Event.batch h' s.ev (reported s ready intr) = ((batch h s ready intr).1.ev, (batch h s ready intr).2) :=
  loop_ev h _ 0 { s with ev := collect s.ev (reported s ready intr) }

/-- Between two turns no flag is set. -/
def Calm (e : Event.St) : Prop := ∀ id, e.alive id = true → (e.ev id).fread = false ∧ (e.ev id).fwrite = false

theorem act_calm {e : Event.St} (c : Calm e) (a : Event.Act) : Calm (Event.act e a) := by
  intro id
  have := c id
  cases a with
  | free x => simp only [Event.act]; split
              · simp only [Event.free, upd]; grind
              · exact this
  | alloc x => simp only [Event.act]; split
               · exact this
               · simp only [Event.alloc, upd]; grind

theorem acts_calm (as : List Event.Act) {e : Event.St} (c : Calm e) : Calm (as.foldl Event.act e) := by
  induction as generalizing e with
  | nil => exact c
  | cons a as ih => exact ih (act_calm c a)

theorem scan_ids (s : St) (ready : Nat → Bool × Bool) : (scan s ready).map (·.1) = s.queue := by
  simp [scan, Function.comp_def]

/-- What the dispatch needs of the report. -/
theorem reported_ok {s : St} (w : W s) (ready : Nat → Bool × Bool) (intr : Bool) :
    ((reported s ready intr).map (·.1)).Nodup ∧ (∀ e ∈ reported s ready intr, s.ev.alive e.1 = true) ∧
    (∀ id, s.ev.alive id = true → id ∉ (reported s ready intr).map (·.1) →
      ((s.ev.ev id).idxr = 0 ∨ (expand (reported s ready intr)).length ≤ (s.ev.ev id).idxr) ∧
      ((s.ev.ev id).idxw = 0 ∨ (expand (reported s ready intr)).length ≤ (s.ev.ev id).idxw)) := by
  have hc : reported s ready intr = [] ∨ reported s ready intr = scan s ready := by
    simp only [reported]; split
    · exact .inl rfl
    · split
      · exact .inl rfl
      · exact .inr rfl
  rcases hc with h | h
  · rw [h]; refine ⟨by simp, by simp, fun id _ _ => ⟨.inr ?_, .inr ?_⟩⟩ <;> simp [expand]
  · rw [h, scan_ids]
    refine ⟨w.nodup, ?_, fun id h1 h2 => absurd ((w.mem id).2 h1) h2⟩
    intro e he
    refine (w.mem _).1 ?_
    rw [← scan_ids s ready]
    exact List.mem_map_of_mem he

end Verif.Select
