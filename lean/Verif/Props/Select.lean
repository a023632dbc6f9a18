import Verif.Proofs.Select
/-
C96: with `select`, every event a live connection waits for is found and dispatched.
-/
namespace Verif.Select
open Verif Verif.Event

/-! ### Dispatch -/

/-- Flags are clear after every history. -/
theorem run_calm (o : Nat → Bool) (ops : List Op) : Calm (run (init o) ops).ev := by
  have : ∀ (ops : List Op) (s : St), W s → Calm s.ev → Calm (run s ops).ev := by
    intro ops
    induction ops with
    | nil => intro s _ c; exact c
    | cons op ops ih =>
      intro s w c
      refine ih _ (step_W w op) ?_
      cases op with
      | act a => obtain ⟨as, h⟩ := act_ev s a; simp only [step]; rw [h]; exact acts_calm as c
      | turn h ready intr =>
        obtain ⟨n, a, i⟩ := reported_ok w ready intr
        obtain ⟨h', hh⟩ := batch_ev h s ready intr
        have J0 := collect_J s.ev (reported s ready intr) n a c i
        have h3 := (loop_J h' _ 0 _ (by simpa using J0)).2.2
        change ∀ id, (Event.batch h' s.ev (reported s ready intr)).1.alive id = true → _ at h3
        simp only [step]
        change Calm (batch h s ready intr).1.ev
        have e1 : (batch h s ready intr).1.ev = (Event.batch h' s.ev (reported s ready intr)).1 := by rw [hh]
        rw [e1]; exact h3
  exact this ops _ (init_W o) (by intro id h; simp [init] at h)

/-- C96 (partial): after every history, in every turn, the handlers are called for what `ev_select_loop` reported, in order, each at most once and
only for live connections; a report is dropped only if an earlier handler of the same turn released the connection. (Unlike the epoll build, C38:
`select` scans all connections and so resets all recorded indices.) Missing: what is reported (`c96_found_partial`, `c96_dead_counterexample`). -/
theorem c96_dispatch_partial (o : Nat → Bool) (ops : List Op) (h : Nat → List Act) (ready : Nat → Bool × Bool) (intr : Bool) :
    let s := run (init o) ops
    let r := batch h s ready intr
    (called r.2).Sublist (expand (reported s ready intr)) ∧ (expand (reported s ready intr)).Nodup ∧
    (∀ e ∈ expand (reported s ready intr), r.1.ev.gen e.1 = s.ev.gen e.1 → e ∈ called r.2) ∧
    (∀ c ∈ r.2, c.alive = true ∧ c.gen = c.slotGen) := by
  intro s r
  have w : W s := run_W ops (init_W o)
  have c : Calm s.ev := run_calm o ops
  obtain ⟨n, a, i⟩ := reported_ok w ready intr
  obtain ⟨h', hh⟩ := batch_ev h s ready intr
  have J0 := collect_J s.ev (reported s ready intr) n a c i
  have k := collect_K s.ev (reported s ready intr) n
  obtain ⟨h1, h2, -⟩ := loop_J h' (collect s.ev (reported s ready intr)).evn 0 _ (by simpa using J0)
  rw [collect_pend _ _ n] at h1
  have e1 : r.1.ev = (Event.batch h' s.ev (reported s ready intr)).1 := by rw [hh]
  have e2 : r.2 = (Event.batch h' s.ev (reported s ready intr)).2 := by rw [hh]
  refine ⟨by rw [e2]; exact h1, expand_nodup n, ?_, ?_⟩
  · intro e he hg
    rw [e1] at hg; rw [e2]
    obtain ⟨j, hj, hje⟩ := List.mem_iff_getElem.1 he
    have hs := k.slots j e (by rw [List.getElem?_eq_getElem hj, hje])
    have := h2 j _ (Nat.zero_le _) (by rw [k.evn]; omega) hs (by simpa [Event.batch, k.gen] using hg)
    exact this
  · intro cc hcc
    rw [e2] at hcc
    exact loop_calls h' _ 0 _ (by simpa using J0.inv) cc hcc

/-- What connections 0 (descriptor 5) and 1 (descriptor 6) wait for: 0 for reading, 1 for both. -/
def twoOps : List Op := [.act (.open 0 5), .act (.open 1 6), .act (.opt 0 ⟨true, false⟩), .act (.opt 1 ⟨true, true⟩)]

/-- Case for `c96_dispatch_partial`: everything is ready; the handler of the first entry closes connection 1. -/
example : called (batch (fun i => if i = 0 then [.close 1] else []) (run (init fun _ => false) twoOps) (fun _ => (true, true)) false).2 =
    [(0, .r)] := by decide
example : called (batch (fun i => if i = 1 then [.open 2 8] else []) (run (init fun _ => false) twoOps) (fun _ => (true, true)) false).2 =
    [(0, .r), (1, .r), (1, .w)] := by decide

/-! ### What is reported -/

theorem foldl_max_le (q : List Nat) (f : Nat → Nat) (m0 : Nat) : m0 ≤ q.foldl (fun m id => max m (f id + 1)) m0 := by
  induction q generalizing m0 with
  | nil => exact Nat.le_refl _
  | cons a q ih => exact Nat.le_trans (Nat.le_max_left _ _) (ih _)

theorem lt_nfds {s : St} {id : Nat} (h : id ∈ s.queue) : s.fd id < nfds s := by
  have : ∀ (q : List Nat) (m0 : Nat), id ∈ q → s.fd id < q.foldl (fun m id => max m (s.fd id + 1)) m0 := by
    intro q
    induction q with
    | nil => intro m0 h; simp at h
    | cons a q ih =>
      intro m0 h
      rcases List.mem_cons.1 h with rfl | h
      · have := foldl_max_le q s.fd (max m0 (s.fd id + 1))
        simp only [List.foldl_cons]; omega
      · exact ih _ h
  exact this _ _ h

theorem mem_expand_scan {s : St} (w : W s) (ready : Nat → Bool × Bool) (id : Nat) :
    ((id, Dir.r) ∈ expand (scan s ready) ↔ s.ev.alive id = true ∧ s.rfds (s.fd id) = true ∧ (ready (s.fd id)).1 = true) ∧
    ((id, Dir.w) ∈ expand (scan s ready) ↔ s.ev.alive id = true ∧ s.wfds (s.fd id) = true ∧ (ready (s.fd id)).2 = true) := by
  have key : ∀ q : List Nat,
      ((id, Dir.r) ∈ expand (q.map fun id => (id, s.rfds (s.fd id) && (ready (s.fd id)).1, s.wfds (s.fd id) && (ready (s.fd id)).2)) ↔
        id ∈ q ∧ s.rfds (s.fd id) = true ∧ (ready (s.fd id)).1 = true) ∧
      ((id, Dir.w) ∈ expand (q.map fun id => (id, s.rfds (s.fd id) && (ready (s.fd id)).1, s.wfds (s.fd id) && (ready (s.fd id)).2)) ↔
        id ∈ q ∧ s.wfds (s.fd id) = true ∧ (ready (s.fd id)).2 = true) := by
    intro q
    induction q with
    | nil => simp [expand]
    | cons a q ih =>
      simp only [List.map_cons, expand, List.mem_append, List.mem_cons]
      constructor
      · rw [ih.1]; grind
      · rw [ih.2]; grind
  rw [← w.mem]; exact key s.queue

theorem found_zero {s : St} {ready : Nat → Bool × Bool} (h : found s ready = 0) {f : Nat} (hf : f < nfds s) :
    (s.rfds f && (ready f).1) = false ∧ (s.wfds f && (ready f).2) = false := by
  have := (List.sum_eq_zero_iff_forall_eq_nat.1 h) _ (List.mem_map_of_mem (List.mem_range.2 hf))
  cases h1 : (s.rfds f && (ready f).1) <;> cases h2 : (s.wfds f && (ready f).2) <;> simp [h1, h2] at this ⊢

theorem not_badf {s : St} (w : W s) (hs : s.stale = false) : badf s = false := by
  cases hb : badf s with
  | false => rfl
  | true =>
    simp only [badf, List.any_eq_true, List.mem_range, Bool.and_eq_true, Bool.or_eq_true, Bool.not_eq_true'] at hb
    obtain ⟨f, -, hf, hn⟩ := hb
    rcases hf with hf | hf
    · obtain ⟨id, h1, h2, -⟩ := w.tr hs f hf
      have := w.opn id h1; rw [h2, hn] at this; simp at this
    · obtain ⟨id, h1, h2, -⟩ := w.tw hs f hf
      have := w.opn id h1; rw [h2, hn] at this; simp at this

/-- If `select` does not fail, what is reported is what is in the sets and ready. -/
theorem mem_reported {s : St} (w : W s) (hb : badf s = false) (ready : Nat → Bool × Bool) (id : Nat) :
    ((id, Dir.r) ∈ expand (reported s ready false) ↔ s.ev.alive id = true ∧ s.rfds (s.fd id) = true ∧ (ready (s.fd id)).1 = true) ∧
    ((id, Dir.w) ∈ expand (reported s ready false) ↔ s.ev.alive id = true ∧ s.wfds (s.fd id) = true ∧ (ready (s.fd id)).2 = true) := by
  simp only [reported, hb, Bool.or_false, Bool.false_eq_true, if_false]
  split
  · rename_i h0
    simp only [expand, List.not_mem_nil, false_iff]
    constructor
    · rintro ⟨h1, h2, h3⟩
      have := (found_zero h0 (lt_nfds ((w.mem id).2 h1))).1
      simp [h2, h3] at this
    · rintro ⟨h1, h2, h3⟩
      have := (found_zero h0 (lt_nfds ((w.mem id).2 h1))).2
      simp [h2, h3] at this
  · exact mem_expand_scan w ready id

/-- C96 (partial): as long as no connection has been closed while it waited for events, `select` does not fail, and (unless a signal interrupts it)
exactly the live connections that are ready for what they wait for are reported. Missing: the program never withdraws a connection's interest before it
closes it, so the hypothesis fails with the first connection that ends (`c96_dead_counterexample`, `c96_spurious_counterexample`). -/
theorem c96_found_partial (o : Nat → Bool) (ops : List Op) (ready : Nat → Bool × Bool) (id : Nat) :
    let s := run (init o) ops
    s.stale = false →
    ((id, Dir.r) ∈ expand (reported s ready false) ↔ s.ev.alive id = true ∧ (s.opt id).r = true ∧ (ready (s.fd id)).1 = true) ∧
    ((id, Dir.w) ∈ expand (reported s ready false) ↔ s.ev.alive id = true ∧ (s.opt id).w = true ∧ (ready (s.fd id)).2 = true) := by
  intro s hs
  have w : W s := run_W ops (init_W o)
  obtain ⟨m1, m2⟩ := mem_reported w (not_badf w hs) ready id
  rw [m1, m2]
  constructor
  · constructor
    · rintro ⟨h1, h2, h3⟩
      obtain ⟨x, x1, x2, x3⟩ := w.tr hs _ h2
      rw [w.inj x id x1 h1 x2] at x3
      exact ⟨h1, x3, h3⟩
    · rintro ⟨h1, h2, h3⟩; exact ⟨h1, w.hr id h1 h2, h3⟩
  · constructor
    · rintro ⟨h1, h2, h3⟩
      obtain ⟨x, x1, x2, x3⟩ := w.tw hs _ h2
      rw [w.inj x id x1 h1 x2] at x3
      exact ⟨h1, x3, h3⟩
    · rintro ⟨h1, h2, h3⟩; exact ⟨h1, w.hw id h1 h2, h3⟩

/-- Case for `c96_found_partial`: a connection that has withdrawn its interest is closed, its descriptor is used again; nothing is stale and the two live
connections are reported. -/
example :
    let s := run (init fun _ => false) (twoOps ++ [.act (.opt 0 Mask.none), .act (.close 0), .act (.open 2 5), .act (.opt 2 ⟨false, true⟩)])
    s.stale = false ∧ expand (reported s (fun _ => (true, true)) false) = [(1, .r), (1, .w), (2, .w)] := by decide

/-! ### A closed connection stops the loop -/

/-- Descriptor `f` is in a set and closed, and live connection `b` has a higher descriptor. -/
def Stuck (s : St) (f b : Nat) : Prop := s.rfds f = true ∧ s.opened f = false ∧ s.ev.alive b = true ∧ f < s.fd b

theorem stuck_badf {s : St} (w : W s) {f b : Nat} (h : Stuck s f b) : badf s = true := by
  simp only [badf, List.any_eq_true, List.mem_range, Bool.and_eq_true, Bool.or_eq_true, Bool.not_eq_true']
  exact ⟨f, Nat.lt_trans h.2.2.2 (lt_nfds ((w.mem b).2 h.2.2.1)), .inl h.1, h.2.1⟩

theorem stuck_batch {s : St} (w : W s) {f b : Nat} (h : Stuck s f b) (hd : Nat → List Act) (ready : Nat → Bool × Bool) (intr : Bool) :
    reported s ready intr = [] ∧ batch hd s ready intr = ({ s with ev := { s.ev with evn := 0 } }, []) := by
  have e : reported s ready intr = [] := by simp [reported, stuck_badf w h]
  exact ⟨e, by simp [batch, e, collect, loop]⟩

/-- What may follow: turns of the loop with any handlers, and anything done by timers except that descriptor `f` is used again or `b` is closed. -/
def Keeps (f b : Nat) : Op → Prop
  | .turn _ _ _ => True
  | .act (.open _ fd) => fd ≠ f
  | .act (.close id) => id ≠ b
  | .act (.opt _ _) => True

theorem stuck_step {s : St} (w : W s) {f b : Nat} (h : Stuck s f b) (op : Op) (k : Keeps f b op) : Stuck (step s op) f b := by
  obtain ⟨h1, h2, h3, h4⟩ := h
  cases op with
  | turn hd ready intr =>
    simp only [step]
    rw [(stuck_batch w ⟨h1, h2, h3, h4⟩ hd ready intr).2]
    exact ⟨h1, h2, h3, h4⟩
  | act a =>
    cases a with
    | «open» id fd =>
      simp only [Keeps] at k
      simp only [step, act]
      split
      · exact ⟨h1, h2, h3, h4⟩
      · rename_i hn
        simp only [Bool.or_eq_true, not_or, Bool.not_eq_true] at hn
        have : b ≠ id := by rintro rfl; simp [h3] at hn
        exact ⟨h1, by simp [openConn, upd, Ne.symm k, h2], by simp [openConn, alloc, upd, h3], by simp [openConn, upd, this, h4]⟩
    | close id =>
      simp only [Keeps] at k
      simp only [step, act]
      split
      · exact ⟨h1, by simp only [closeConn, upd]; split <;> simp [h2], by simp [closeConn, Event.free, upd, Ne.symm k, h3], h4⟩
      · exact ⟨h1, h2, h3, h4⟩
    | opt id m =>
      simp only [step, act]
      split
      · rename_i ha
        have : f ≠ s.fd id := by rintro rfl; rw [w.opn id ha] at h2; simp at h2
        exact ⟨by simp [setOpt, upd, this, h1], h2, h3, h4⟩
      · exact ⟨h1, h2, h3, h4⟩

/-- C96 is false of the code. After any history let connection `a` wait for reading, and let live connection `b` have a higher descriptor. When `a` is
closed, no event is reported and no handler is called any more, whatever happens on the sockets, until `b` is closed too or the descriptor of `a` is
used again; and since new connections come from the handler of the listening socket, it is not. -/
theorem c96_dead_counterexample (o : Nat → Bool) (ops later : List Op) (a b : Nat) (hd : Nat → List Act) (ready : Nat → Bool × Bool) (intr : Bool) :
    let s := run (init o) ops
    s.ev.alive a = true → (s.opt a).r = true → s.ev.alive b = true → s.fd a < s.fd b → (∀ op ∈ later, Keeps (s.fd a) b op) →
    (batch hd (run (init o) (ops ++ [.act (.close a)] ++ later)) ready intr).2 = [] := by
  intro s ha hr hb hlt hk
  have w : W s := run_W ops (init_W o)
  have hab : b ≠ a := by rintro rfl; omega
  have h0 : Stuck (act s (.close a)) (s.fd a) b := by
    simp only [act, ha, if_true]
    exact ⟨w.hr a ha hr, by simp [closeConn, upd], by simp [closeConn, Event.free, upd, hab, hb], hlt⟩
  have key : ∀ (later : List Op) (t : St), W t → Stuck t (s.fd a) b → (∀ op ∈ later, Keeps (s.fd a) b op) →
      W (run t later) ∧ Stuck (run t later) (s.fd a) b := by
    intro later
    induction later with
    | nil => intro t w h _; exact ⟨w, h⟩
    | cons op later ih =>
      intro t w h hk
      exact ih _ (step_W w op) (stuck_step w h op (hk op (by simp))) (fun op' h' => hk op' (by simp [h']))
  obtain ⟨w2, h2⟩ := key later _ (act_W w _) h0 hk
  have e : run (init o) (ops ++ [.act (.close a)] ++ later) = run (act s (.close a)) later := by
    simp [run, s, List.foldl_append, step]
  rw [e, (stuck_batch w2 h2 hd ready intr).2]

/-- Case for `c96_dead_counterexample`: a listener (descriptor 4) and two clients (5, 6); the first client is closed. Both the listener and the second
client are ready, for ever; nothing is called. Before, everything was. -/
example :
    let ops : List Op := [.act (.open 9 4), .act (.opt 9 ⟨true, false⟩)] ++ twoOps
    let all : Nat → Bool × Bool := fun _ => (true, true)
    called (batch (fun _ => []) (run (init fun _ => false) ops) all false).2 = [(9, .r), (0, .r), (1, .r), (1, .w)] ∧
    called (batch (fun _ => []) (run (init fun _ => false) (ops ++ [.act (.close 0)] ++ [.turn (fun _ => []) all false])) all false).2 = [] := by decide

/-- C96: a descriptor number that is used again keeps the interest of the connection that had it before. After any history without stale numbers let
connection `a` wait for writing; it is closed, and connection `n` gets its number and waits for reading only. If the socket is writable, `n` is reported
as writable in every turn (`select` never waits). -/
theorem c96_spurious_counterexample (o : Nat → Bool) (ops : List Op) (a n : Nat) (ready : Nat → Bool × Bool) :
    let s := run (init o) ops
    s.stale = false → s.ev.alive a = true → (s.opt a).w = true → s.ev.alive n = false → (ready (s.fd a)).2 = true →
    let t := run (init o) (ops ++ [.act (.close a), .act (.open n (s.fd a)), .act (.opt n ⟨true, false⟩)])
    t.opt n = ⟨true, false⟩ ∧ (n, Dir.w) ∈ expand (reported t ready false) := by
  intro s hs ha hw hn hr t
  have w : W s := run_W ops (init_W o)
  have hna : n ≠ a := by rintro rfl; simp [ha] at hn
  have et : t = act (act (act s (.close a)) (.open n (s.fd a))) (.opt n ⟨true, false⟩) := by
    simp [t, s, run, List.foldl_append, step]
  have wt : W t := et ▸ act_W (act_W (act_W w _) _) _
  have e : t = setOpt (openConn (closeConn s a) n (s.fd a)) n ⟨true, false⟩ := by
    rw [et]
    simp [act, ha, closeConn, Event.free, upd, hna, hn, openConn, alloc]
  have hfd : t.fd n = s.fd a := by rw [e]; simp [setOpt, openConn, upd]
  have hopt : t.opt n = ⟨true, false⟩ := by rw [e]; simp only [setOpt, upd, if_true]; exact (selectOpt_spec _ _).1
  have hal : t.ev.alive n = true := by rw [e]; simp [setOpt, openConn, alloc, upd]
  have hwf : t.wfds (s.fd a) = true := by
    rw [e]
    simp only [setOpt, openConn, upd, if_true]
    rw [(selectOpt_spec _ _).2.2.2.2 rfl]
    simp [closeConn, w.hw a ha hw]
  have hop : ∀ f, t.opened f = s.opened f := by
    intro f; rw [e]; simp only [setOpt, openConn, closeConn, upd]
    split
    · rename_i h; rw [h, w.opn a ha]
    · rfl
  have hin : ∀ f, t.rfds f = true ∨ t.wfds f = true → s.opened f = true := by
    intro f hf
    by_cases h : f = s.fd a
    · rw [h]; exact w.opn a ha
    · rw [e] at hf
      simp only [setOpt, openConn, closeConn, upd, if_true, if_neg h] at hf
      rcases hf with hf | hf
      · obtain ⟨x, x1, x2, -⟩ := w.tr hs f hf; rw [← x2]; exact w.opn x x1
      · obtain ⟨x, x1, x2, -⟩ := w.tw hs f hf; rw [← x2]; exact w.opn x x1
  have hb : badf t = false := by
    cases hb : badf t with
    | false => rfl
    | true =>
      simp only [badf, List.any_eq_true, List.mem_range, Bool.and_eq_true, Bool.or_eq_true, Bool.not_eq_true'] at hb
      obtain ⟨f, -, hf, hc⟩ := hb
      rw [hop, hin f hf] at hc; simp at hc
  refine ⟨hopt, ((mem_reported wt hb ready n).2).2 ⟨hal, by rw [hfd]; exact hwf, by rw [hfd]; exact hr⟩⟩

/-- Case for `c96_spurious_counterexample`: connection 1 waited for both. -/
example : reported (run (init fun _ => false) (twoOps ++ [.act (.close 1), .act (.open 2 6), .act (.opt 2 ⟨true, false⟩)]))
    (fun _ => (false, true)) false = [(0, false, false), (2, false, true)] := by decide

/-! ### Bounds -/

/-- C96: a connection whose descriptor is 1024 or more writes beyond the sets, whatever it first waits for. -/
theorem c96_large_counterexample (o : Nat → Bool) (id fd : Nat) (want : Mask) (h : 1024 ≤ fd) (ho : o fd = false) (hw : want ≠ Mask.none) :
    (run (init o) [.act (.open id fd), .act (.opt id want)]).overrun = true := by
  simp [run, step, act, init, ho, openConn, alloc, upd, setOpt, h, Ne.symm hw]

/-- Case: descriptor 1024 waits for reading. -/
example : (run (init fun _ => false) [.act (.open 0 1024), .act (.opt 0 ⟨true, false⟩)]).overrun = true :=
  c96_large_counterexample _ 0 1024 _ (Nat.le_refl _) rfl (by decide)

/-- The action takes no descriptor above 1023. -/
def SmallAct : Act → Prop
  | .open _ fd => fd < 1024
  | _ => True

/-- Nothing in the operation, handlers included, takes a descriptor above 1023. -/
def SmallOp : Op → Prop
  | .act a => SmallAct a
  | .turn h _ _ => ∀ i, ∀ a ∈ h i, SmallAct a

/-- No overrun so far and all live descriptors below 1024. -/
def Small (s : St) : Prop := s.overrun = false ∧ ∀ id, s.ev.alive id = true → s.fd id < 1024

theorem act_small {s : St} (h : Small s) (a : Act) (ha : SmallAct a) : Small (act s a) := by
  obtain ⟨h1, h2⟩ := h
  cases a with
  | «open» id fd =>
    simp only [SmallAct] at ha
    simp only [act]; split
    · exact ⟨h1, h2⟩
    · refine ⟨h1, ?_⟩
      intro x; have := h2 x; simp only [openConn, alloc, upd]; grind
  | close id =>
    simp only [act]; split
    · refine ⟨h1, ?_⟩
      intro x; have := h2 x; simp only [closeConn, Event.free, upd]; grind
    · exact ⟨h1, h2⟩
  | opt id m =>
    simp only [act]; split
    · rename_i hal
      have := h2 id hal
      exact ⟨by simp [setOpt, h1, show ¬ 1024 ≤ s.fd id by omega], h2⟩
    · exact ⟨h1, h2⟩

theorem acts_small (as : List Act) {s : St} (h : Small s) (ha : ∀ a ∈ as, SmallAct a) : Small (as.foldl act s) := by
  induction as generalizing s with
  | nil => exact h
  | cons a as ih => exact ih (act_small h a (ha a (by simp))) (fun b hb => ha b (by simp [hb]))

theorem loop_small (h : Nat → List Act) (hh : ∀ i, ∀ a ∈ h i, SmallAct a) (k i : Nat) {s : St} (hs : Small s) : Small (loop h k i s).1 := by
  induction k generalizing i s with
  | zero => exact hs
  | succ k ih =>
    have ha := body_alive s.ev i
    simp only [loop]
    split
    · rename_i e he; rw [he] at ha; exact ih _ ⟨hs.1, by simp only at ha; simp only [ha]; exact hs.2⟩
    · rename_i e c he; rw [he] at ha
      exact ih _ (acts_small _ ⟨hs.1, by simp only at ha; simp only [ha]; exact hs.2⟩ (hh i))

theorem expand_len (rep : List (Nat × Bool × Bool)) : (expand rep).length ≤ 2 * rep.length := by
  induction rep with
  | nil => simp [expand]
  | cons e t ih =>
    obtain ⟨id, r, w⟩ := e
    simp only [expand, List.length_append, List.length_cons]
    cases r <;> cases w <;> simp <;> omega

/-- C96 (partial): nothing is written beyond the sets while all descriptors are below 1024, and nothing beyond the table of 1536 entries while there are at
most 768 connections. Missing: neither limit is enforced (`c96_large_counterexample`, `c96_table_counterexample`). -/
theorem c96_bounds_partial (o : Nat → Bool) (ops : List Op) (ready : Nat → Bool × Bool) (intr : Bool) :
    let s := run (init o) ops
    ((∀ op ∈ ops, SmallOp op) → s.overrun = false) ∧ (s.queue.length ≤ 768 → (collect s.ev (reported s ready intr)).evn ≤ 1536) := by
  intro s
  constructor
  · intro hsm
    have : ∀ (ops : List Op) (t : St), Small t → (∀ op ∈ ops, SmallOp op) → Small (run t ops) := by
      intro ops
      induction ops with
      | nil => intro t h _; exact h
      | cons op ops ih =>
        intro t h hh
        refine ih _ ?_ (fun op' h' => hh op' (by simp [h']))
        have ho := hh op (by simp)
        cases op with
        | act a => exact act_small h a ho
        | turn hd ready intr =>
          exact loop_small hd ho _ 0 (s := { t with ev := collect t.ev (reported t ready intr) })
            ⟨h.1, by simp only [collect_alive]; exact h.2⟩
    exact (this ops _ ⟨rfl, by intro id h; simp [init] at h⟩ hsm).1
  · intro hq
    rw [(collect_K s.ev _ (reported_ok (s := s) (run_W ops (init_W o)) ready intr).1).evn]
    have h1 : (reported s ready intr).length ≤ s.queue.length := by
      simp only [reported]; split
      · simp
      · split
        · simp
        · simp [scan]
    have := expand_len (reported s ready intr)
    omega

/-- Case for `c96_bounds_partial`. -/
example : (∀ op ∈ twoOps, SmallOp op) ∧ (run (init fun _ => false) twoOps).queue = [0, 1] := by
  refine ⟨?_, by decide⟩
  intro op h
  simp only [twoOps, List.mem_cons, List.not_mem_nil, or_false] at h
  rcases h with rfl | rfl | rfl | rfl <;> simp [SmallOp, SmallAct]

/-- `n` connections with the descriptors 1 to `n`, each waiting for both directions. -/
def crowd : Nat → List Op
  | 0 => []
  | n + 1 => crowd n ++ [.act (.open n (n + 1)), .act (.opt n ⟨true, true⟩)]

theorem crowd_run (n : Nat) :
    let s := run (init fun _ => false) (crowd n)
    s.stale = false ∧ s.queue = List.range n ∧ (∀ id, s.ev.alive id = true ↔ id < n) ∧ (∀ f, s.opened f = true → f ≤ n) ∧
    (∀ id, id < n → s.fd id = id + 1 ∧ s.opt id = ⟨true, true⟩) ∧ (n ≤ 1023 → s.overrun = false) := by
  induction n with
  | zero => simp [crowd, run, init]
  | succ n ih =>
    obtain ⟨h0, h1, h2, h3, h4, h5⟩ := ih
    have e : run (init fun _ => false) (crowd (n + 1)) =
        act (act (run (init fun _ => false) (crowd n)) (.open n (n + 1))) (.opt n ⟨true, true⟩) := by
      simp [run, crowd, List.foldl_append, step]
    generalize run (init fun _ => false) (crowd n) = t at *
    have ha : t.ev.alive n = false := by
      cases h : t.ev.alive n with
      | false => rfl
      | true => exact absurd ((h2 n).1 h) (by omega)
    have ho : t.opened (n + 1) = false := by
      cases h : t.opened (n + 1) with
      | false => rfl
      | true => exact absurd (h3 _ h) (by omega)
    have e2 : run (init fun _ => false) (crowd (n + 1)) = setOpt (openConn t n (n + 1)) n ⟨true, true⟩ := by
      rw [e]; simp [act, ha, ho, openConn, alloc, upd]
    rw [e2]
    refine ⟨h0, ?_, ?_, ?_, ?_, ?_⟩
    · simp [setOpt, openConn, h1, List.range_succ]
    · intro id; have := h2 id; simp only [setOpt, openConn, alloc, upd]; grind
    · intro f; have := h3 f; simp only [setOpt, openConn, upd]; grind
    · intro id hid
      have := h4 id
      have q := (selectOpt_spec ⟨Mask.none, t.rfds (n + 1), t.wfds (n + 1)⟩ ⟨true, true⟩).1
      simp only [setOpt, openConn, upd, if_true]
      by_cases hi : id = n
      · simp [hi, q]
      · simp only [hi, if_false]; exact this (by omega)
    · intro hn
      simp [setOpt, openConn, upd, h5 (by omega), show ¬ 1024 ≤ n + 1 by omega]

theorem expand_both (q : List Nat) : (expand (q.map fun id => (id, true, true))).length = 2 * q.length := by
  induction q with
  | nil => rfl
  | cons a q ih => simp only [List.map_cons, expand, if_true, List.length_append, List.length_cons, List.length_nil, ih]; omega

/-- C96: with more than 768 connections, all ready in both directions, more than the 1536 entries of `evs` are written; all descriptors fit into the
sets. -/
theorem c96_table_counterexample (n : Nat) (h : 768 < n) (hn : n ≤ 1023) :
    let s := run (init fun _ => false) (crowd n)
    s.overrun = false ∧ s.queue.length = n ∧ 1536 < (collect s.ev (reported s (fun _ => (true, true)) false)).evn := by
  intro s
  obtain ⟨h0, h1, h2, h3, h4, h5⟩ := crowd_run n
  have w : W s := run_W _ (init_W _)
  refine ⟨h5 hn, by rw [h1]; simp, ?_⟩
  rw [(collect_K s.ev _ (reported_ok w _ false).1).evn]
  have hscan : scan s (fun _ => (true, true)) = s.queue.map fun id => (id, true, true) := by
    simp only [scan]
    refine List.map_congr_left ?_
    intro id hid
    have hal := (w.mem id).1 hid
    have ho := (h4 id ((h2 id).1 hal)).2
    rw [w.hr id hal (by rw [ho]), w.hw id hal (by rw [ho])]; rfl
  have hne : found s (fun _ => (true, true)) ≠ 0 := by
    intro hz
    have h00 : 0 ∈ s.queue := by rw [h1]; simp; omega
    have hal := (w.mem 0).1 h00
    have := (found_zero hz (lt_nfds h00)).1
    rw [w.hr 0 hal (by rw [(h4 0 (by omega)).2])] at this
    simp at this
  have : reported s (fun _ => (true, true)) false = scan s (fun _ => (true, true)) := by
    simp [reported, not_badf w h0, hne]
  rw [this, hscan, expand_both, h1]
  simp; omega

/-- Case for `c96_table_counterexample`: 900 connections, as the pool allows. -/
example : 1536 < (collect (run (init fun _ => false) (crowd 900)).ev
    (reported (run (init fun _ => false) (crowd 900)) (fun _ => (true, true)) false)).evn :=
  (c96_table_counterexample 900 (by decide) (by decide)).2.2

end Verif.Select
