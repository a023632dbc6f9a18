import Verif.Model.Accept
import Mathlib.Data.List.Perm.Basic
/-
Properties C80, C85: new connections.
-/
namespace Verif.Accept

open scoped List

/-- The connections that have arrived, in order. -/
def arrived : List Ev → List Nat
  | [] => []
  | .arrive c :: es => c :: arrived es
  | .turn _ :: es => arrived es

theorem arrived_append (a b : List Ev) : arrived (a ++ b) = arrived a ++ arrived b := by
  induction a with
  | nil => rfl
  | cons e a ih => cases e <;> simp [arrived, ih]

theorem loop_perm (s : St) (calls : List Call) :
    (acceptLoop s calls).served ++ (acceptLoop s calls).dropped ++ (acceptLoop s calls).pending ~ s.served ++ s.dropped ++ s.pending := by
  fun_induction acceptLoop s calls with
  | case1 s calls h => exact List.Perm.refl _
  | case2 s c t h ih =>
    refine ih.trans ?_
    simp only [h, List.append_assoc]
    refine List.Perm.append_left _ ?_
    exact (List.perm_middle (l₁ := s.dropped) (a := c) (l₂ := t)).symm
  | case3 s c t h k ks hk =>
    simp [h]
  | case4 s c t h k ks hk => simp [h]
  | case5 s c t h k ks hk hb ih =>
    refine ih.trans ?_
    simp only [h, List.append_assoc]
    refine List.Perm.append_left _ ?_
    exact (List.perm_middle (l₁ := s.dropped) (a := c) (l₂ := t)).symm
  | case6 s c t h k ks hk hb => simp [h]

theorem loop_all (s : St) (calls : List Call) (h : ∀ k ∈ calls, k = ⟨.taken, true, true⟩) :
    acceptLoop s calls = { s with pending := [], served := s.served ++ s.pending } := by
  fun_induction acceptLoop s calls with
  | case1 s calls hp => cases s; simp_all
  | case2 s c t hp ih => rw [ih h]; simp [hp]
  | case3 s c t hp k ks hk => rw [h k (by simp)] at hk; cases hk
  | case4 s c t hp k ks hk => rw [h k (by simp)] at hk; cases hk
  | case5 s c t hp k ks hk hb ih => rw [ih (fun k hk => h k (by simp [hk]))]; simp [hp]
  | case6 s c t hp k ks hk hb => exact absurd (by rw [h k (by simp)]; rfl) hb

/-- C80. Whatever happens, every connection that has arrived is in exactly one place: with its handler, closed, or still in the queue; none is
taken twice or invented. -/
theorem c80_once (es : List Ev) :
    (run init es).served ++ (run init es).dropped ++ (run init es).pending ~ arrived es := by
  have key : ∀ (es : List Ev) (s : St), (run s es).served ++ (run s es).dropped ++ (run s es).pending ~
      (s.served ++ s.dropped ++ s.pending) ++ arrived es := by
    intro es
    induction es with
    | nil => intro s; simp [run, arrived]
    | cons e es ih =>
      intro s
      refine (ih (step s e)).trans ?_
      cases e with
      | arrive c => simp [step, arrived]
      | turn calls =>
        simp only [step, arrived]
        split
        · exact (loop_perm _ calls).append_right _
        · exact List.Perm.refl _
  simpa [init] using key es init

/-- Case: three connections arrive; the first is handed over, the second is lost because there is no memory, the third waits. -/
example : run init [.arrive 1, .arrive 2, .arrive 3, .turn [⟨.taken, true, true⟩, ⟨.taken, false, true⟩]] = ⟨[3], false, [1], [2]⟩ := by decide +kernel

/-- C80, as long as no call fails: after every turn of the worker each connection that has arrived so far has its handler, in the order of
arrival, and none was closed. Missing: failing calls (counterexamples below). -/
theorem c80_taken_partial (es : List Ev) (h : ∀ calls, .turn calls ∈ es → ∀ k ∈ calls, k = ⟨.taken, true, true⟩) :
    run init (es ++ [.turn []]) = ⟨[], false, arrived es, []⟩ := by
  have key : ∀ (es : List Ev) (s : St), s.dropped = [] → (s.pending ≠ [] → s.edge = true) → (∀ calls, .turn calls ∈ es → ∀ k ∈ calls, k = ⟨.taken, true, true⟩) →
      (run s es).dropped = [] ∧ (run s es).served ++ (run s es).pending = (s.served ++ s.pending) ++ arrived es ∧
      ((run s es).pending ≠ [] → (run s es).edge = true) := by
    intro es
    induction es with
    | nil => intro s h1 h2 _; exact ⟨h1, by simp [run, arrived], h2⟩
    | cons e es ih =>
      intro s h1 h2 h3
      have := ih (step s e) ?_ ?_ (fun calls hc => h3 calls (by simp [hc]))
      · refine ⟨this.1, this.2.1.trans ?_, this.2.2⟩
        cases e with
        | arrive c => simp [step, arrived]
        | turn calls =>
          simp only [step, arrived]
          split
          · rw [loop_all _ _ (h3 calls (by simp))]; simp
          · rfl
      · cases e with
        | arrive c => exact h1
        | turn calls =>
          simp only [step]
          split
          · rw [loop_all _ _ (h3 calls (by simp))]; exact h1
          · exact h1
      · cases e with
        | arrive c => intro _; rfl
        | turn calls =>
          simp only [step]
          split
          · rw [loop_all _ _ (h3 calls (by simp))]; simp
          · exact h2
  obtain ⟨h1, h2, h3⟩ := key es init rfl (by simp [init]) h
  have hr : run init (es ++ [.turn []]) = step (run init es) (.turn []) := by simp [run]
  rw [hr]
  generalize run init es = s at h1 h2 h3
  simp only [step]
  have h4 : s.served ++ s.pending = arrived es := by simpa [init] using h2
  split
  · rw [loop_all _ _ (by simp)]
    simp [h4, h1]
  · next he =>
    have hp : s.pending = [] := by
      by_contra hne
      exact he (h3 hne)
    have hb : s.edge = false := by simpa using he
    have hs : s.served = arrived es := by rw [← h4, hp, List.append_nil]
    rw [← hs]
    cases s
    simp only at hp h1 hb ⊢
    subst hp h1 hb
    rfl

/-- Case: calls that succeed, with arrivals between and during turns. -/
example : run init ([.arrive 1, .arrive 2, .turn [⟨.taken, true, true⟩], .arrive 3] ++ [.turn []]) = ⟨[], false, [1, 2, 3], []⟩ := by
  rw [c80_taken_partial _ (by simp)]; rfl

theorem turns_idle (s : St) (h : s.edge = false) (calls : List (List Call)) : run s (calls.map .turn) = s := by
  induction calls with
  | nil => rfl
  | cons c cs ih =>
    show run (step s (.turn c)) (cs.map .turn) = s
    rw [show step s (.turn c) = s by simp [step, h]]
    exact ih

/-- C80 is false when a signal interrupts `accept`, or the limit of descriptors is reached for a moment: the connections in the queue stay there
however many turns follow; no further report is made until another connection arrives. -/
theorem c80_refused_counterexample (c : Nat) (cs : List Nat) (a o : Bool) (later : List (List Call)) :
    run init ((c :: cs).map .arrive ++ .turn [⟨.refused, a, o⟩] :: later.map .turn) = ⟨c :: cs, false, [], []⟩ := by
  have h1 : ∀ (l p : List Nat) (e : Bool), l ≠ [] → run ⟨p, e, [], []⟩ (l.map .arrive) = ⟨p ++ l, true, [], []⟩ := by
    intro l
    induction l with
    | nil => intro p e h; exact absurd rfl h
    | cons x l ih =>
      intro p e _
      show run ⟨p ++ [x], true, [], []⟩ (l.map .arrive) = _
      by_cases hl : l = []
      · subst hl; rfl
      · rw [ih _ _ hl]; simp
  have h2 : run init ((c :: cs).map .arrive ++ .turn [⟨.refused, a, o⟩] :: later.map .turn) =
      run (step (run init ((c :: cs).map .arrive)) (.turn [⟨.refused, a, o⟩])) (later.map .turn) := by
    simp [run, List.foldl_append]
  rw [h2, show init = ⟨[], false, [], []⟩ from rfl, h1 _ _ _ (by simp)]
  have h3 : step ⟨[] ++ c :: cs, true, [], []⟩ (.turn [⟨.refused, a, o⟩]) = ⟨c :: cs, false, [], []⟩ := by
    simp only [step, List.nil_append, if_true]
    rw [acceptLoop.eq_def]
  rw [h3]
  exact turns_idle _ rfl later

/-- Case: two connections wait, `accept` fails, and two more turns do not help. -/
example : run init ([.arrive 1, .arrive 2] ++ .turn [⟨.refused, true, true⟩] :: [.turn [], .turn []]) = ⟨[1, 2], false, [], []⟩ :=
  c80_refused_counterexample 1 [2] true true [[], []]

/-- C80 is false when a peer aborts its connection, an allocation fails or a socket option cannot be set: this connection is lost, but the ones
behind it stay in the queue as well, however many turns follow. -/
theorem c80_behind_counterexample (c : Nat) (cs : List Nat) (k : Call) (hk : k.acc = .gone ∨ (k.acc = .taken ∧ (k.alloc = false ∨ k.opts = false)))
    (later : List (List Call)) :
    run init ((c :: cs).map .arrive ++ .turn [k] :: later.map .turn) = ⟨cs, false, [], [c]⟩ := by
  have h1 : ∀ (l p : List Nat) (e : Bool), l ≠ [] → run ⟨p, e, [], []⟩ (l.map .arrive) = ⟨p ++ l, true, [], []⟩ := by
    intro l
    induction l with
    | nil => intro p e h; exact absurd rfl h
    | cons x l ih =>
      intro p e _
      show run ⟨p ++ [x], true, [], []⟩ (l.map .arrive) = _
      by_cases hl : l = []
      · subst hl; rfl
      · rw [ih _ _ hl]; simp
  have h2 : run init ((c :: cs).map .arrive ++ .turn [k] :: later.map .turn) =
      run (step (run init ((c :: cs).map .arrive)) (.turn [k])) (later.map .turn) := by
    simp [run, List.foldl_append]
  rw [h2, show init = ⟨[], false, [], []⟩ from rfl, h1 _ _ _ (by simp)]
  have h3 : step ⟨[] ++ c :: cs, true, [], []⟩ (.turn [k]) = ⟨cs, false, [], [c]⟩ := by
    simp only [step, List.nil_append, if_true]
    rw [acceptLoop.eq_def]
    rcases hk with hk | ⟨hk, h | h⟩
    · simp [hk]
    · simp [hk, h]
    · simp [hk, h]
  rw [h3]
  exact turns_idle _ rfl later

/-- Case: the first client has gone; the two behind it wait. -/
example : run init ([.arrive 1, .arrive 2, .arrive 3] ++ .turn [⟨.gone, true, true⟩] :: [.turn []]) = ⟨[2, 3], false, [], [1]⟩ :=
  c80_behind_counterexample 1 [2, 3] ⟨.gone, true, true⟩ (.inl rfl) [[]]

/-- C80, after a failure: the next connection that arrives brings a report, and if nothing fails in that turn, all connections left
behind get their handlers. -/
theorem c80_next_partial (es : List Ev) (c : Nat) :
    (run init (es ++ [.arrive c, .turn []])).pending = [] ∧ (run init (es ++ [.arrive c, .turn []])).dropped = (run init es).dropped ∧
    (run init (es ++ [.arrive c, .turn []])).served = (run init es).served ++ (run init es).pending ++ [c] := by
  have h : run init (es ++ [.arrive c, .turn []]) = step (step (run init es) (.arrive c)) (.turn []) := by simp [run]
  rw [h]
  simp only [step, if_true]
  rw [loop_all _ _ (by simp)]
  simp

/-- Case: a failure leaves connection 2 waiting; the arrival of 3 brings both. -/
example : run init ([.arrive 1, .arrive 2, .turn [⟨.gone, true, true⟩]] ++ [.arrive 3, .turn []]) = ⟨[], false, [2, 3], [1]⟩ := by decide +kernel

/-- A case for `c80_taken_partial`: three connections, two turns. -/
example : run init ([.arrive 1, .arrive 2, .turn [⟨.taken, true, true⟩], .arrive 3] ++ [.turn []]) = ⟨[], false, [1, 2, 3], []⟩ := by
  rw [c80_taken_partial _ (by simp)]; rfl

/-! ### C85: time for the first bytes -/

/-- C85, for clients that are quick: if no expiry pass takes place between five milliseconds after the connection was accepted and its first
data, the connection is handed to its handler and the timer does not close it. Missing: slower clients. -/
theorem c85_quick_partial (t : Nat) (before after : List (Nat × CEv)) (d : Nat) (hb : ∀ e ∈ before, e.1 < t + 5) :
    let c := crun (fresh t) (before ++ (d, .data) :: after)
    c.handled = true ∧ c.closed = false := by
  have h1 : ∀ (es : List (Nat × CEv)), (∀ e ∈ es, e.1 < t + 5) → ∀ c : Conn, c.closed = false →
      (c.deadline = none ∨ c.deadline = some (t + 5)) → (c.handled = true → c.deadline = none) →
      (crun c es).closed = false ∧ ((crun c es).deadline = none ∨ (crun c es).deadline = some (t + 5)) ∧
      ((crun c es).handled = true → (crun c es).deadline = none) := by
    intro es
    induction es with
    | nil => intro _ c h1 h2 h3; exact ⟨h1, h2, h3⟩
    | cons e es ih =>
      intro he c h1 h2 h3
      have hlt := he e (by simp)
      refine ih (fun e' h' => he e' (by simp [h'])) (cstep c e) ?_ ?_ ?_ <;>
        (unfold cstep; simp only [h1, Bool.false_eq_true, if_false]; obtain ⟨n, k⟩ := e; cases k <;> simp only at hlt ⊢)
      · rcases h2 with h2 | h2
        · simp [h2, h1]
        · have : ¬ (t + 5 ≤ n) := by omega
          simp [h2, h1, this]
      · split <;> simp [h1]
      · split
        · simp
        · exact h2
      · split
        · exact h2
        · simp
      · split
        · simp
        · exact h3
      · split
        · exact h3
        · simp
  have h2 : ∀ (es : List (Nat × CEv)) (c : Conn), c.closed = false → c.handled = true → c.deadline = none → crun c es = c := by
    intro es
    induction es with
    | nil => intro c _ _ _; rfl
    | cons e es ih =>
      intro c h1 h2 h3
      show crun (cstep c e) es = c
      have : cstep c e = c := by
        unfold cstep
        simp only [h1, Bool.false_eq_true, if_false]
        cases e.2 <;> simp [h2, h3]
      rw [this]; exact ih c h1 h2 h3
  obtain ⟨k1, k2, k3⟩ := h1 before hb (fresh t) rfl (Or.inr rfl) (by simp [fresh])
  simp only
  have hr : crun (fresh t) (before ++ (d, .data) :: after) = crun (cstep (crun (fresh t) before) (d, .data)) after := by
    simp [crun, List.foldl_append]
  rw [hr]
  generalize crun (fresh t) before = c at k1 k2 k3
  have h3 : cstep c (d, .data) = { c with handled := true, deadline := none } := by
    unfold cstep
    simp only [k1, Bool.false_eq_true, if_false]
    split
    · next hh => rw [← k3 hh]; cases c; simp_all
    · rfl
  rw [h3, h2 after { c with handled := true, deadline := none } k1 rfl rfl]
  exact ⟨rfl, k1⟩

/-- Case: data after two milliseconds. -/
example : (crun (fresh 100) ([(101, .pass)] ++ (102, .data) :: [(105, .pass), (20000, .pass)])).handled = true :=
  (c85_quick_partial 100 [(101, .pass)] [(105, .pass), (20000, .pass)] 102 (by decide)).1

/-- C85 is false for slower clients: with an expiry pass five milliseconds or more after the connection was accepted, and nothing received before,
the connection is closed and its handler never runs, whatever the client sends afterwards. -/
theorem c85_slow_counterexample (t now : Nat) (early : List Nat) (he : ∀ e ∈ early, e < t + 5) (hn : t + 5 ≤ now) (after : List (Nat × CEv)) :
    let c := crun (fresh t) (early.map (·, .pass) ++ (now, .pass) :: after)
    c.closed = true ∧ c.handled = false := by
  have h1 : ∀ (early : List Nat), (∀ e ∈ early, e < t + 5) → crun (fresh t) (early.map (·, .pass)) = fresh t := by
    intro early
    induction early with
    | nil => intro _; rfl
    | cons x l ih =>
      intro h
      show crun (cstep (fresh t) (x, .pass)) (l.map (·, .pass)) = _
      have hx := h x (by simp)
      have : cstep (fresh t) (x, .pass) = fresh t := by
        simp only [cstep, fresh, Option.any_some]
        have : ¬ (t + 5 ≤ x) := by omega
        simp [this]
      rw [this]; exact ih (fun e he => h e (by simp [he]))
  have h2 : ∀ (es : List (Nat × CEv)) (c : Conn), c.closed = true → crun c es = c := by
    intro es
    induction es with
    | nil => intro c _; rfl
    | cons e es ih =>
      intro c h
      show crun (cstep c e) es = c
      have : cstep c e = c := by simp [cstep, h]
      rw [this]; exact ih c h
  simp only
  have hr : crun (fresh t) (early.map (·, .pass) ++ (now, .pass) :: after) = crun (cstep (crun (fresh t) (early.map (·, .pass))) (now, .pass)) after := by
    simp [crun, List.foldl_append]
  rw [hr, h1 early he]
  have h3 : cstep (fresh t) (now, .pass) = ⟨none, false, true⟩ := by
    simp [cstep, fresh, hn]
  rw [h3, h2 after _ rfl]
  exact ⟨rfl, rfl⟩

/-- A case for `c85_quick_partial`: a pass after one millisecond, data after two, later passes. -/
example : crun (fresh 100) ([(101, .pass)] ++ (102, .data) :: [(105, .pass), (20000, .pass)]) = ⟨none, true, false⟩ := by decide

/-- A case for `c85_slow_counterexample`: the data come after six milliseconds. -/
example : crun (fresh 100) ([(104, .pass), (105, .pass), (106, .data)]) = ⟨none, false, true⟩ := by decide

end Verif.Accept
