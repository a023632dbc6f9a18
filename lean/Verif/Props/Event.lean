import Verif.Proofs.Event
/-
Properties C37 (freed connections are not dispatched), C38 (readiness reaches its handler), C39 (kernel interest).
-/
namespace Verif.Event

/-! ### C37 -/

theorem loop_slotGen (h : Nat → List Act) (g : Nat → Nat) (k i : Nat) (s : St)
    (hs : ∀ j x, s.evs j = some x → i ≤ j → j < i + k → x.gen = g x.id) :
    ∀ c ∈ (loop h k i s).2, c.slotGen = g c.id := by
  have hact : ∀ (as : List Act) (s : St) j x, (as.foldl act s).evs j = some x → s.evs j = some x := by
    intro as
    induction as with
    | nil => intro s j x hx; exact hx
    | cons a as ih =>
      intro s j x hx
      have := ih _ _ _ hx
      cases a with
      | alloc id => simp only [act] at this; split at this <;> exact this
      | free id =>
        simp only [act] at this
        split at this
        · exact (free_evs this).1
        · exact this
  induction k generalizing i s with
  | zero => intro c hc; simp [loop] at hc
  | succ k ih =>
    intro c hc
    have hbe : (body s i).1.evs = s.evs := by
      unfold body
      split
      · rfl
      · simp only; split
        · rfl
        · split <;> rfl
    have hbc : ∀ c, (body s i).2 = some c → ∃ x, s.evs i = some x ∧ c.id = x.id ∧ c.slotGen = x.gen := by
      intro c hc
      unfold body at hc
      split at hc
      · simp at hc
      · rename_i x hx
        simp only at hc
        split at hc
        · simp only [Option.some.injEq] at hc; subst hc; exact ⟨x, hx, rfl, rfl⟩
        · split at hc
          · simp only [Option.some.injEq] at hc; subst hc; exact ⟨x, hx, rfl, rfl⟩
          · simp at hc
    cases hb : body s i with
    | mk s' o =>
      rw [hb] at hbe hbc
      simp only at hbe hbc
      cases o with
      | none =>
        simp only [loop, hb] at hc
        exact ih (i + 1) s' (fun j x hx h1 h2 => hs j x (hbe ▸ hx) (by omega) (by omega)) c hc
      | some d =>
        simp only [loop, hb, List.mem_cons] at hc
        rcases hc with hc | hc
        · subst hc
          obtain ⟨x, hx, h1, h2⟩ := hbc c rfl
          rw [h1, h2]
          exact hs i x hx (Nat.le_refl _) (by omega)
        · refine ih (i + 1) _ (fun j x hx h1 h2 => hs j x ?_ (by omega) (by omega)) c hc
          rw [← hbe]; exact hact _ _ _ _ hx

/-- C37. For every state of the bookkeeping (all histories), every batch reported by the kernel (each event at most once, only live ones) and
all releases and allocations done by the handlers: every handler call is for a live event which was not released since the batch was
reported, even if its memory was allocated again. -/
theorem c37_not_dispatched (h : Nat → List Act) (s : St) (rep : List (Nat × Bool × Bool)) (hn : (rep.map (·.1)).Nodup)
    (ha : ∀ e ∈ rep, s.alive e.1 = true) :
    ∀ c ∈ (batch h s rep).2, c.alive = true ∧ c.gen = s.gen c.id ∧ c.id ∈ rep.map (·.1) := by
  intro c hc
  have h1 := loop_calls h (collect s rep).evn 0 (collect s rep) (by simpa using collect_inv s rep hn ha) c hc
  have k := collect_K s rep hn
  have h2 := loop_slotGen h s.gen (collect s rep).evn 0 (collect s rep) (by
    intro j x hx _ hj
    have hj' : j < (expand rep).length := by rw [← k.evn]; omega
    have := k.slots j _ (List.getElem?_eq_getElem hj')
    rw [hx] at this
    simp only [Option.some.injEq] at this
    subst this; rfl) c hc
  refine ⟨h1.1, by rw [h1.2, h2], ?_⟩
  have hmem : ∀ (k' i : Nat) (t : St), (∀ j x, t.evs j = some x → i ≤ j → j < i + k' → x.id ∈ rep.map (·.1)) →
      ∀ c ∈ (loop h k' i t).2, c.id ∈ rep.map (·.1) := by
    intro k'
    induction k' with
    | zero => intro i t _ c hc; simp [loop] at hc
    | succ k' ih =>
      intro i t ht c hc
      have hbe : (body t i).1.evs = t.evs := by
        unfold body
        split
        · rfl
        · simp only; split
          · rfl
          · split <;> rfl
      have hbc : ∀ c, (body t i).2 = some c → ∃ x, t.evs i = some x ∧ c.id = x.id := by
        intro c hc
        unfold body at hc
        split at hc
        · simp at hc
        · rename_i x hx
          simp only at hc
          split at hc
          · simp only [Option.some.injEq] at hc; subst hc; exact ⟨x, hx, rfl⟩
          · split at hc
            · simp only [Option.some.injEq] at hc; subst hc; exact ⟨x, hx, rfl⟩
            · simp at hc
      have hact : ∀ (as : List Act) (s : St) j x, (as.foldl act s).evs j = some x → s.evs j = some x := by
        intro as
        induction as with
        | nil => intro s j x hx; exact hx
        | cons a as ih =>
          intro s j x hx
          have := ih _ _ _ hx
          cases a with
          | alloc id => simp only [act] at this; split at this <;> exact this
          | free id =>
            simp only [act] at this
            split at this
            · exact (free_evs this).1
            · exact this
      cases hb : body t i with
      | mk s' o =>
        rw [hb] at hbe hbc
        simp only at hbe hbc
        cases o with
        | none =>
          simp only [loop, hb] at hc
          exact ih (i + 1) s' (fun j x hx h1 h2 => ht j x (hbe ▸ hx) (by omega) (by omega)) c hc
        | some d =>
          simp only [loop, hb, List.mem_cons] at hc
          rcases hc with hc | hc
          · subst hc
            obtain ⟨x, hx, h1⟩ := hbc c rfl
            rw [h1]
            exact ht i x hx (Nat.le_refl _) (by omega)
          · exact ih (i + 1) _ (fun j x hx h1 h2 => ht j x (by rw [← hbe]; exact hact _ _ _ _ hx) (by omega) (by omega)) c hc
  refine hmem _ 0 (collect s rep) ?_ c hc
  intro j x hx _ hj
  have hj' : j < (expand rep).length := by rw [← k.evn]; omega
  have hp : (expand rep)[j]? = some (expand rep)[j] := List.getElem?_eq_getElem hj'
  have := k.slots j _ hp
  rw [hx] at this
  simp only [Option.some.injEq] at this
  subst this
  obtain ⟨e, he, h1, -⟩ := mem_expand (List.mem_of_getElem? hp)
  exact List.mem_map.mpr ⟨e, he, h1⟩

/-- C37: the table of 2 · 768 entries is large enough for every report of at most 768 events (the third argument of `epoll_wait`). -/
theorem c37_table_bound (s : St) (rep : List (Nat × Bool × Bool)) (hn : (rep.map (·.1)).Nodup) (hl : rep.length ≤ 768) :
    (collect s rep).evn ≤ 2 * 768 := by
  rw [(collect_K s rep hn).evn]
  have : ∀ rep : List (Nat × Bool × Bool), (expand rep).length ≤ 2 * rep.length := by
    intro rep
    induction rep with
    | nil => simp [expand]
    | cons e t ih =>
      obtain ⟨id, r, w⟩ := e
      simp only [expand, List.length_append, List.length_cons]
      cases r <;> cases w <;> simp <;> omega
  have := this rep
  omega

/-- All events live, nothing recorded. -/
def fresh : St := ⟨fun _ => none, 0, fun _ => {}, fun _ => true, fun _ => 0⟩

/-- Case for `c37_not_dispatched`: the handler of the first entry releases two other reported events, one of them is allocated again; neither is
dispatched. -/
example : (batch (fun i => if i = 0 then [.free 1, .free 2, .alloc 2] else []) fresh
      [(0, true, false), (1, true, true), (2, true, false), (3, false, true)]).2.map (fun c => (c.id, c.dir, c.alive)) =
    [(0, .r, true), (3, .w, true)] := by decide

/-! ### C38 -/

/-- C38 (partial): if the flags of all live events are clear and no live event that is not reported records an index below the number of
entries of this batch, then the handlers are called exactly for the reported pairs in order, except those of events released by an
earlier handler, and afterwards the flags are clear again. Missing: the second hypothesis does not follow from the history
(`c38_lost_counterexample`), and reports without `EV_R` and `EV_W` call no handler (`c38_error_only_counterexample`). -/
theorem c38_delivered_partial (h : Nat → List Act) (s : St) (rep : List (Nat × Bool × Bool)) (hn : (rep.map (·.1)).Nodup)
    (ha : ∀ e ∈ rep, s.alive e.1 = true)
    (hc : ∀ id, s.alive id = true → (s.ev id).fread = false ∧ (s.ev id).fwrite = false)
    (hi : ∀ id, s.alive id = true → id ∉ rep.map (·.1) →
      ((s.ev id).idxr = 0 ∨ (expand rep).length ≤ (s.ev id).idxr) ∧ ((s.ev id).idxw = 0 ∨ (expand rep).length ≤ (s.ev id).idxw)) :
    (called (batch h s rep).2).Sublist (expand rep) ∧
    (∀ e ∈ expand rep, (batch h s rep).1.gen e.1 = s.gen e.1 → e ∈ called (batch h s rep).2) ∧
    (∀ id, (batch h s rep).1.alive id = true →
      ((batch h s rep).1.ev id).fread = false ∧ ((batch h s rep).1.ev id).fwrite = false) := by
  have J0 := collect_J s rep hn ha hc hi
  have k := collect_K s rep hn
  obtain ⟨h1, h2, h3⟩ := loop_J h (collect s rep).evn 0 (collect s rep) (by simpa using J0)
  rw [collect_pend s rep hn] at h1
  refine ⟨h1, ?_, h3⟩
  intro e he hg
  obtain ⟨j, hj, rfl⟩ := List.getElem_of_mem he
  have hs := k.slots j _ (List.getElem?_eq_getElem hj)
  have := h2 j _ (Nat.zero_le _) (by rw [k.evn]; omega) hs (by rw [k.gen]; exact hg)
  exact this

/-- Case for `c38_delivered_partial`: hypotheses met by `fresh`; three events reported, the handler of the first releases the second. -/
example : called (batch (fun i => if i = 0 then [.free 1] else []) fresh [(0, true, true), (1, true, false), (2, false, true)]).2 =
    [(0, .r), (0, .w), (2, .w)] := by decide

/-- C38 is false of the code. First batch: events 0 and 1 readable. Second batch: events 2 and 3 readable, and the handler of 2 releases
event 1, whose recorded index (1) is now the entry of event 3: the readiness of event 3 is dropped. Event 3 is live throughout. -/
theorem c38_lost_counterexample :
    let s1 := (batch (fun _ => []) fresh [(0, true, false), (1, true, false)]).1
    let r2 := batch (fun i => if i = 0 then [.free 1] else []) s1 [(2, true, false), (3, true, false)]
    called r2.2 = [(2, .r)] ∧ r2.1.alive 3 = true ∧ r2.1.gen 3 = 0 ∧ (r2.1.ev 3).fread = true := by decide

/-- C38: the lost event of `c38_lost_counterexample` leaves its flag set; when event 3 is next reported writable, its read handler is called
instead of its write handler (and with edge triggering the writability is not reported again). -/
theorem c38_wrong_handler_counterexample :
    let s1 := (batch (fun _ => []) fresh [(0, true, false), (1, true, false)]).1
    let s2 := (batch (fun i => if i = 0 then [.free 1] else []) s1 [(2, true, false), (3, true, false)]).1
    called (batch (fun _ => []) s2 [(3, false, true)]).2 = [(3, .r)] := by decide

/-- C38: a report of only an error or a hang-up (neither `EV_R` nor `EV_W`) calls no handler, in every state. -/
theorem c38_error_only_counterexample (h : Nat → List Act) (s : St) (ids : List Nat) :
    (batch h s (ids.map fun id => (id, false, false))).2 = [] := by
  have : ∀ (ids : List Nat) (t : St), t.evn = 0 → ((ids.map fun id => (id, false, false)).foldl collect1 t).evn = 0 := by
    intro ids
    induction ids with
    | nil => intro t ht; exact ht
    | cons a ids ih => intro t ht; exact ih _ (by simp [collect1, ht])
  have h0 := this ids { s with evn := 0 } rfl
  unfold batch collect
  rw [h0]
  rfl

/-- Case: two events with errors only; with `EV_R` as well the handler is called. -/
example : (batch (fun _ => []) fresh [(0, false, false), (1, false, false)]).2 = [] ∧
    called (batch (fun _ => []) fresh [(0, false, false), (1, true, false)]).2 = [(1, .r)] := by decide

/-! ### C39 -/

/-- The kernel's registration that corresponds to a requested interest. -/
def registered (m : Mask) : Kern := if m.r = false ∧ m.w = false then none else some (m, true)

/-- C39: one change. If cache and kernel agree, they agree afterwards; on success the kernel has exactly the requested interest, on failure
nothing changed; and the call fails only if the kernel refuses for a reason other than a wrong operation. -/
theorem c39_step (s : Reg) (want : Mask) (ok : Bool) (h : s.kern = registered s.opt) :
    (epollOpt s want ok).1.kern = registered (epollOpt s want ok).1.opt ∧
    ((epollOpt s want ok).2 = true → (epollOpt s want ok).1.kern = registered want ∧ (epollOpt s want ok).1.opt = want) ∧
    ((epollOpt s want ok).2 = false → (epollOpt s want ok).1 = s) ∧ (ok = true → (epollOpt s want ok).2 = true) := by
  obtain ⟨⟨or, ow⟩, k⟩ := s
  obtain ⟨wr, ww⟩ := want
  simp only at h
  subst h
  cases or <;> cases ow <;> cases wr <;> cases ww <;> cases ok <;> decide

/-- Case: from reading to both, accepted and refused. -/
example : (epollOpt ⟨⟨true, false⟩, some (⟨true, false⟩, true)⟩ ⟨true, true⟩ true) = (⟨⟨true, true⟩, some (⟨true, true⟩, true)⟩, true) ∧
    (epollOpt ⟨⟨true, false⟩, some (⟨true, false⟩, true)⟩ ⟨true, true⟩ false) = (⟨⟨true, false⟩, some (⟨true, false⟩, true)⟩, false) := by decide

/-- A sequence of changes; each with the kernel's willingness; collects what was requested and what was returned. -/
def runOpt (s : Reg) : List (Mask × Bool) → Reg × List (Mask × Bool)
  | [] => (s, [])
  | (want, ok) :: t => ((runOpt (epollOpt s want ok).1 t).1, (want, (epollOpt s want ok).2) :: (runOpt (epollOpt s want ok).1 t).2)

/-- The interest of the last change that returned success, `m` if there is none. -/
def lastOk (m : Mask) : List (Mask × Bool) → Mask
  | [] => m
  | (want, true) :: t => lastOk want t
  | (_, false) :: t => lastOk m t

/-- C39. For every sequence of interest changes on a descriptor, each refused by the kernel or not, the kernel watches the descriptor, edge
triggered, for exactly the interest of the last change that returned success (and not at all if that is none, or there is none). -/
theorem c39_interest (ops : List (Mask × Bool)) :
    (runOpt ⟨Mask.none, none⟩ ops).1.kern = registered (lastOk Mask.none (runOpt ⟨Mask.none, none⟩ ops).2) := by
  have key : ∀ (ops : List (Mask × Bool)) (s : Reg), s.kern = registered s.opt →
      (runOpt s ops).1.kern = registered (lastOk s.opt (runOpt s ops).2) := by
    intro ops
    induction ops with
    | nil => intro s h; exact h
    | cons o ops ih =>
      intro s h
      obtain ⟨want, ok⟩ := o
      obtain ⟨h1, h2, h3, -⟩ := c39_step s want ok h
      have := ih _ h1
      simp only [runOpt]
      rw [this]
      cases hr : (epollOpt s want ok).2 with
      | true => simp only [lastOk]; rw [(h2 hr).2]
      | false => simp only [lastOk]; rw [h3 hr]
  exact key ops _ rfl

/-- Case for `c39_interest`: reading, then refused, then both, then removed, then writing. -/
example : (runOpt ⟨Mask.none, none⟩ [(⟨true, false⟩, true), (⟨false, true⟩, false), (⟨true, true⟩, true), (Mask.none, true), (⟨false, true⟩, true)]).2 =
    [(⟨true, false⟩, true), (⟨false, true⟩, false), (⟨true, true⟩, true), (Mask.none, true), (⟨false, true⟩, true)] := by decide

/-- C39 for the `select` build: after every sequence of changes the descriptor sets hold the descriptor exactly as last requested. -/
theorem c39_select (wants : List Mask) :
    (wants.foldl selectOpt ⟨Mask.none, false, false⟩).rfds = (wants.getLastD Mask.none).r ∧
    (wants.foldl selectOpt ⟨Mask.none, false, false⟩).wfds = (wants.getLastD Mask.none).w := by
  have step : ∀ (s : Sel) (m : Mask), s.rfds = s.opt.r → s.wfds = s.opt.w → selectOpt s m = ⟨m, m.r, m.w⟩ := by
    intro s m h1 h2
    obtain ⟨⟨or, ow⟩, r, w⟩ := s
    obtain ⟨mr, mw⟩ := m
    simp only at h1 h2
    subst h1 h2
    cases r <;> cases w <;> cases mr <;> cases mw <;> decide
  have key : ∀ (wants : List Mask) (m : Mask),
      wants.foldl selectOpt ⟨m, m.r, m.w⟩ = ⟨wants.getLastD m, (wants.getLastD m).r, (wants.getLastD m).w⟩ := by
    intro wants
    induction wants with
    | nil => intro m; rfl
    | cons a t ih =>
      intro m
      rw [List.foldl_cons, step _ a rfl rfl, ih a, List.getLastD_cons]
  have := key wants Mask.none
  have e : (⟨Mask.none, Mask.none.r, Mask.none.w⟩ : Sel) = ⟨Mask.none, false, false⟩ := rfl
  rw [e] at this
  rw [this]
  exact ⟨rfl, rfl⟩

/-- Case for `c39_select`. -/
example : ([⟨true, true⟩, ⟨false, true⟩, Mask.none, ⟨true, false⟩].foldl selectOpt ⟨Mask.none, false, false⟩) =
    ⟨⟨true, false⟩, true, false⟩ := by decide

end Verif.Event
