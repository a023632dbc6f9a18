import Mathlib.Data.List.Induction
import Verif.Model.TlsClose
/-
Property C107: a TLS connection that is given up does nothing but close, tells its peer, and is released soon.
-/
namespace Verif.TlsClose
open Verif.Event (Mask Mask.none)

/-- After it was given up: released once, with nothing registered any more; or waiting for one direction, in which only the shutdown is registered, with a timer that releases it. -/
def Closing (c : C) : Prop :=
  c.calls = 0 ∧
    ((c.freed = 1 ∧ c.rcb = none ∧ c.wcb = none ∧ c.timer = none) ∨
      (c.freed = 0 ∧
        ((c.rcb = some .shut ∧ c.wcb = none ∧ c.opt = ⟨true, false⟩) ∨ (c.rcb = none ∧ c.wcb = some .shut ∧ c.opt = ⟨false, true⟩)) ∧
        ∃ d f, c.timer = some (d, f) ∧ (f = .direct ∨ f = .cexp)))

/-- An event other than an expiry pass. -/
def Ev.io : Ev → Bool
  | .pass => false
  | _ => true

/-! ### The shutdown -/

theorem shutdown_keeps (c : C) (x y : Call) :
    (shutdown c x y).1.calls = c.calls ∧ (shutdown c x y).1.freed = c.freed ∧
      ((shutdown c x y).2 = .again →
        ((shutdown c x y).1.rcb = some .shut ∧ (shutdown c x y).1.wcb = none ∧ (shutdown c x y).1.opt = ⟨true, false⟩) ∨
          ((shutdown c x y).1.rcb = none ∧ (shutdown c x y).1.wcb = some .shut ∧ (shutdown c x y).1.opt = ⟨false, true⟩)) := by
  unfold shutdown
  split
  · exact ⟨rfl, rfl, by simp⟩
  · dsimp only
    split
    · exact ⟨rfl, rfl, by simp⟩
    · exact ⟨rfl, rfl, fun _ => .inl ⟨rfl, rfl, rfl⟩⟩
    · exact ⟨rfl, rfl, fun _ => .inr ⟨rfl, rfl, rfl⟩⟩
    all_goals
      split
      · exact ⟨rfl, rfl, by simp⟩
      · exact ⟨rfl, rfl, fun _ => .inl ⟨rfl, rfl, rfl⟩⟩
      · exact ⟨rfl, rfl, fun _ => .inr ⟨rfl, rfl, rfl⟩⟩
      · exact ⟨rfl, rfl, by simp⟩
      · exact ⟨rfl, rfl, by simp⟩

theorem netFree_cases (c : C) (t : Nat) (x y : Call) :
    (∃ c', netFree c t x y = netFreeDirect c' ∧ c'.freed = c.freed ∧ c'.calls = c.calls) ∨
      (netFree c t x y = { (shutdown c x y).1 with timer := some (t + 5, .direct) } ∧ (shutdown c x y).2 = .again) := by
  unfold netFree
  split
  · exact .inl ⟨c, rfl, rfl, rfl⟩
  · obtain ⟨h1, h2, -⟩ := shutdown_keeps c x y
    generalize hs : shutdown c x y = s at h1 h2 ⊢
    obtain ⟨c', r⟩ := s
    cases r with
    | again => exact .inr ⟨rfl, rfl⟩
    | done => exact .inl ⟨c', rfl, h2, h1⟩
    | fail => exact .inl ⟨c', rfl, h2, h1⟩

theorem shutdownCb_cases (c : C) (t : Nat) (x y : Call) :
    (∃ c', shutdownCb c t x y = netFreeDirect c' ∧ c'.freed = c.freed ∧ c'.calls = c.calls) ∨
      (shutdownCb c t x y = { (shutdown c x y).1 with timer := some (t + 5000, .cexp) } ∧ (shutdown c x y).2 = .again) := by
  unfold shutdownCb
  obtain ⟨h1, h2, -⟩ := shutdown_keeps c x y
  generalize hs : shutdown c x y = s at h1 h2 ⊢
  obtain ⟨c', r⟩ := s
  cases r with
  | again => exact .inr ⟨rfl, rfl⟩
  | done => exact .inl ⟨{ c' with timer := none }, rfl, h2, h1⟩
  | fail => exact .inl ⟨{ c' with timer := none }, rfl, h2, h1⟩

/-- Closing, and if it is still waiting then its timer is due at `D` at the latest. -/
def By (D : Nat) (c : C) : Prop := Closing c ∧ ∀ d f, c.timer = some (d, f) → d ≤ D

theorem By.mono {D D' : Nat} {c : C} (h : By D c) (hD : D ≤ D') : By D' c := ⟨h.1, fun d f e => Nat.le_trans (h.2 d f e) hD⟩

theorem direct_by {c : C} (D : Nat) (h1 : c.freed = 0) (h2 : c.calls = 0) : By D (netFreeDirect c) :=
  ⟨⟨h2, .inl ⟨by simp [netFreeDirect, h1], rfl, rfl, rfl⟩⟩, by simp [netFreeDirect]⟩

theorem wait_by {c : C} (x y : Call) (d : Nat) (f : Tm) (hf : f = .direct ∨ f = .cexp) (h1 : c.freed = 0) (h2 : c.calls = 0)
    (h3 : (shutdown c x y).2 = .again) : By d { (shutdown c x y).1 with timer := some (d, f) } := by
  obtain ⟨k1, k2, k3⟩ := shutdown_keeps c x y
  refine ⟨⟨k1.trans h2, .inr ⟨k2.trans h1, k3 h3, d, f, rfl, hf⟩⟩, ?_⟩
  intro d' f' e
  cases e
  exact Nat.le_refl _

theorem netFree_by (c : C) (t : Nat) (x y : Call) (h1 : c.freed = 0) (h2 : c.calls = 0) : By (t + 5) (netFree c t x y) := by
  rcases netFree_cases c t x y with ⟨c', e, e1, e2⟩ | ⟨e, e1⟩
  · rw [e]; exact direct_by _ (e1.trans h1) (e2.trans h2)
  · rw [e]; exact wait_by x y _ _ (.inl rfl) h1 h2 e1

theorem shutdownCb_by (c : C) (t : Nat) (x y : Call) (h1 : c.freed = 0) (h2 : c.calls = 0) : By (t + 5000) (shutdownCb c t x y) := by
  rcases shutdownCb_cases c t x y with ⟨c', e, e1, e2⟩ | ⟨e, e1⟩
  · rw [e]; exact direct_by _ (e1.trans h1) (e2.trans h2)
  · rw [e]; exact wait_by x y _ _ (.inr rfl) h1 h2 e1

theorem callCb_by {D : Nat} {c : C} (h : By D c) (cb : Option Cb) (hcb : cb = c.rcb ∨ cb = c.wcb) (hf : c.freed = 0) (t : Nat) (ht : t + 5000 ≤ D) (x y : Call) :
    By D (callCb c cb t x y) := by
  obtain ⟨⟨h0, h1⟩, h2⟩ := h
  have hs : cb = none ∨ cb = some .shut := by
    rcases h1 with ⟨a, b, d, -⟩ | ⟨-, (⟨a, b, -⟩ | ⟨a, b, -⟩), -⟩ <;> rcases hcb with rfl | rfl <;> simp_all
  rcases hs with rfl | rfl
  · exact ⟨⟨h0, h1⟩, h2⟩
  · exact (shutdownCb_by c t x y hf h0).mono ht

theorem pass_by {D : Nat} {c : C} (h : By D c) (t : Nat) : By D (step c (t, .pass)) ∧ (D ≤ t → (step c (t, .pass)).freed = 1) := by
  have hh := h
  obtain ⟨⟨h0, h1⟩, h2⟩ := h
  rcases h1 with ⟨a, b, d, e⟩ | ⟨a, b, d, f, e, hf⟩
  · have : step c (t, .pass) = c := by simp only [step, e]
    rw [this]
    exact ⟨hh, fun _ => a⟩
  · simp only [step, e]
    split
    · rcases hf with rfl | rfl
      · exact ⟨direct_by D a h0, fun _ => by simp [netFreeDirect, a]⟩
      · simp only [cexp, netFree, Bool.true_or, if_true]
        exact ⟨direct_by D a h0, fun _ => by simp [netFreeDirect, a]⟩
    · next hd => exact ⟨hh, fun hD => absurd (Nat.le_trans (h2 d f e) hD) hd⟩

theorem step_by {D : Nat} {c : C} (h : By D c) (e : Nat × Ev) (he : e.2.io = true → e.1 + 5000 ≤ D) : By D (step c e) := by
  obtain ⟨t, e⟩ := e
  cases e with
  | pass => exact (pass_by h t).1
  | r x y =>
    simp only [step]
    split
    · next hf => exact callCb_by h _ (.inl rfl) hf t (he rfl) x y
    · exact h
  | w x y =>
    simp only [step]
    split
    · next hf => exact callCb_by h _ (.inr rfl) hf t (he rfl) x y
    · exact h
  | again x y =>
    simp only [step]
    split
    · next hf => exact (netFree_by c t x y hf h.1.1).mono (by have := he rfl; simp only at this; omega)
    · exact h

theorem run_by {D : Nat} (es : List (Nat × Ev)) {c : C} (h : By D c) (he : ∀ e ∈ es, e.2.io = true → e.1 + 5000 ≤ D) : By D (run c es) := by
  induction es generalizing c with
  | nil => exact h
  | cons e es ih => exact ih (step_by h e (he e (by simp))) (fun e' h' => he e' (by simp [h']))

/-- C107, its first and its last part: whatever the connection was doing when it was given up, none of the application's callbacks and timers is called afterwards,
only the shutdown is registered, and only in the direction it waits for, and the connection is released at most once. -/
theorem c107_only_closing (c : C) (t0 : Nat) (x y : Call) (es : List (Nat × Ev)) (hf : c.freed = 0) (hc : c.calls = 0) :
    Closing (run (netFree c t0 x y) es) := by
  have hb : ∃ D, t0 + 5 ≤ D ∧ ∀ e ∈ es, e.1 + 5000 ≤ D := by
    induction es with
    | nil => exact ⟨t0 + 5, Nat.le_refl _, by simp⟩
    | cons e es ih =>
      obtain ⟨D, h1, h2⟩ := ih
      refine ⟨D + e.1 + 5000, by omega, fun e' h' => ?_⟩
      rcases List.mem_cons.mp h' with rfl | h'
      · omega
      · exact Nat.le_trans (h2 e' h') (by omega)
  obtain ⟨D, h1, h2⟩ := hb
  exact (run_by es ((netFree_by c t0 x y hf hc).mono h1) (fun e h _ => h2 e h)).1

/-- A connection of the web server at work: its handler for reading is installed, its timer runs. -/
def exC : C := ⟨false, false, false, ⟨false, false⟩, some (.app 1), none, ⟨true, false⟩, some (9000, .app 2), 0, 0⟩

/-- Case: its closing message is sent and it waits for the one of the peer, which comes in two parts; then it is released. The old timer and handler are gone. -/
example : netFree exC 100 ⟨.ok, .none⟩ ⟨.ok, .none⟩ =
      { exC with obj := ⟨true, false⟩, rcb := some .shut, timer := some (105, .direct) } ∧
    run (netFree exC 100 ⟨.ok, .none⟩ ⟨.ok, .none⟩) [(102, .r ⟨.ok, .none⟩ ⟨.ok, .none⟩), (106, .pass)] =
      { exC with obj := ⟨true, false⟩, rcb := some .shut, timer := some (5102, .cexp) } ∧
    run (netFree exC 100 ⟨.ok, .none⟩ ⟨.ok, .none⟩) [(102, .r ⟨.ok, .none⟩ ⟨.ok, .none⟩), (106, .pass), (120, .r ⟨.ok, .bye⟩ ⟨.ok, .none⟩), (9000, .pass)] =
      { exC with fclosed := true, obj := ⟨true, true⟩, rcb := none, opt := ⟨false, false⟩, timer := none, freed := 1 } := by
  decide

/-- C107, the time until it is released, for peers that fall silent: five milliseconds after it was given up if nothing happens, and five seconds after the last event
in any case. `T`: any look at the timers from then on. -/
theorem c107_released_partial (c : C) (t0 T : Nat) (x y : Call) (es : List (Nat × Ev)) (hf : c.freed = 0) (hc : c.calls = 0) :
    ((∀ e ∈ es, e.2 = .pass) → t0 + 5 ≤ T → (run (netFree c t0 x y) (es ++ [(T, .pass)])).freed = 1) ∧
    (t0 ≤ T → (∀ e ∈ es, e.2 ≠ .pass → e.1 + 5000 ≤ T) → t0 + 5000 ≤ T → (run (netFree c t0 x y) (es ++ [(T, .pass)])).freed = 1) := by
  have h0 := netFree_by c t0 x y hf hc
  have happ : ∀ s, run s (es ++ [(T, Ev.pass)]) = step (run s es) (T, .pass) := fun s => by simp [run]
  constructor
  · intro he hT
    rw [happ]
    exact (pass_by (run_by es (h0.mono hT) (fun e h hio => by rw [he e h] at hio; simp [Ev.io] at hio)) T).2 (Nat.le_refl _)
  · intro _ he hT
    rw [happ]
    exact (pass_by (run_by es (h0.mono (by omega)) (fun e h hio => he e h (by intro e'; rw [e'] at hio; simp [Ev.io] at hio))) T).2 (Nat.le_refl _)

/-- Case: nothing happens; and the peer sends something after two milliseconds and then nothing more. -/
example : (run (netFree exC 100 ⟨.ok, .none⟩ ⟨.ok, .none⟩) ([(103, .pass)] ++ [(105, .pass)])).freed = 1 ∧
    (run (netFree exC 100 ⟨.ok, .none⟩ ⟨.ok, .none⟩) [(102, .r ⟨.ok, .none⟩ ⟨.ok, .none⟩), (3000, .pass)]).freed = 0 ∧
    (run (netFree exC 100 ⟨.ok, .none⟩ ⟨.ok, .none⟩) ([(102, .r ⟨.ok, .none⟩ ⟨.ok, .none⟩), (3000, .pass)] ++ [(5102, .pass)])).freed = 1 :=
  ⟨(c107_released_partial exC 100 105 _ _ [(103, .pass)] rfl rfl).1 (by simp) (by decide), by decide,
    (c107_released_partial exC 100 5102 _ _ [(102, .r ⟨.ok, .none⟩ ⟨.ok, .none⟩), (3000, .pass)] rfl rfl).2 (by decide) (by simp) (by decide)⟩

/-- Calls in which the peer has sent something, but not its closing message. -/
def Ev.trickle : Ev → Bool
  | .pass => true
  | .r x y => x.rd == .none && y.rd == .none
  | _ => false

theorem trickle_wait {c : C} (x y : Call) (h1 : c.init = false) (h2 : c.obj = ⟨true, false⟩) (hx : x.rd = .none) :
    shutdown c x y = (waitFor c false, .again) := by
  obtain ⟨i, e, f, o, r, w, p, t, n, k⟩ := c
  simp only at h1 h2
  subst h1 h2
  simp [shutdown, sslShutdown, hx, waitFor]

/-- C107 is false for a peer that does not stop: a connection whose closing message was sent is never released if the peer sends some bytes within five milliseconds and then
at least every five seconds, for as long as it likes. -/
theorem c107_held_counterexample (c : C) (t0 : Nat) (x y : Call) (es : List (Nat × Ev)) (hf : c.freed = 0) (hi : c.init = false) (he : c.ferr = false)
    (hcl : c.fclosed = false) (ho : c.obj = ⟨false, false⟩) (hx : x.tx = .ok) (hy : y.rd = .none) (hq : ∀ e ∈ es, e.2.trickle = true)
    (ht : es.Pairwise (fun e e' => e.1 ≤ e'.1)) (h0 : ∀ e ∈ es, t0 ≤ e.1)
    (hk : ∀ a b T, es = a ++ (T, .pass) :: b → T < t0 + 5 ∨ ∃ e ∈ a, e.2 ≠ .pass ∧ T < e.1 + 5000) :
    (run (netFree c t0 x y) es).freed = 0 := by
  have hs : netFree c t0 x y = { waitFor { c with obj := ⟨true, false⟩ } false with timer := some (t0 + 5, .direct) } := by
    obtain ⟨i, e, f, o, r, w, p, t, n, k⟩ := c
    simp only at hi he hcl ho
    subst hi he hcl ho
    simp [netFree, shutdown, sslShutdown, hx, hy, waitFor, netTmout]
  rw [hs]
  have key : ∃ tm, run { waitFor { c with obj := ⟨true, false⟩ } false with timer := some (t0 + 5, .direct) } es =
      { waitFor { c with obj := ⟨true, false⟩ } false with timer := some tm } ∧ t0 + 5 ≤ tm.1 ∧ ∀ e ∈ es, e.2 ≠ .pass → e.1 + 5000 ≤ tm.1 := by
    induction es using List.reverseRecOn with
    | nil => exact ⟨_, rfl, Nat.le_refl _, by simp⟩
    | append_singleton es e ih =>
      obtain ⟨tm, r1, r2, r3⟩ := ih (fun e' h' => hq e' (by simp [h'])) (List.pairwise_append.mp ht).1 (fun e' h' => h0 e' (by simp [h']))
        (fun a b T hab => hk a (b ++ [e]) T (by rw [hab]; simp))
      obtain ⟨t, e⟩ := e
      have hq' := hq (t, e) (by simp)
      have happ : ∀ s, run s (es ++ [(t, e)]) = step (run s es) (t, e) := fun s => by simp [run]
      rw [happ, r1]
      cases e with
      | pass =>
        have hlt : t < tm.1 := by
          rcases hk es [] t rfl with h | ⟨e', h1, h2, h3⟩
          · omega
          · have := r3 e' h1 h2; omega
        refine ⟨tm, ?_, r2, fun e' h' hne => ?_⟩
        · simp only [step]
          rw [if_neg (by omega)]
        · rcases List.mem_append.mp h' with h' | h'
          · exact r3 e' h' hne
          · simp only [List.mem_singleton] at h'; rw [h'] at hne; exact absurd rfl hne
      | r x' y' =>
        simp only [Ev.trickle, Bool.and_eq_true, beq_iff_eq] at hq'
        refine ⟨(t + 5000, .cexp), ?_, ?_, fun e' h' hne => ?_⟩
        · simp only [step, waitFor, Bool.false_eq_true, if_false, hf, if_true, callCb, shutdownCb]
          rw [trickle_wait (c := { c with obj := ⟨true, false⟩, rcb := some .shut, wcb := none, opt := ⟨true, false⟩, timer := some tm, freed := 0 }) x' y' hi rfl hq'.1]
          rfl
        · have := h0 (t, .r x' y') (by simp)
          simp only at this ⊢
          omega
        · rcases List.mem_append.mp h' with h' | h'
          · have := (List.pairwise_append.mp ht).2.2 e' h' (t, .r x' y') (by simp)
            simp only at this ⊢
            omega
          · simp only [List.mem_singleton] at h'; rw [h']; exact Nat.le_refl _
      | w x' y' => simp [Ev.trickle] at hq'
      | again x' y' => simp [Ev.trickle] at hq'
  obtain ⟨tm, r1, -⟩ := key
  rw [r1]
  exact hf

/-- Case: three bytes in a quarter of a minute. -/
example : (run (netFree exC 100 ⟨.ok, .none⟩ ⟨.ok, .none⟩)
    [(102, .r ⟨.ok, .none⟩ ⟨.ok, .none⟩), (5000, .pass), (5001, .r ⟨.ok, .none⟩ ⟨.ok, .none⟩), (9999, .pass), (10000, .r ⟨.ok, .none⟩ ⟨.ok, .none⟩), (14999, .pass)]).freed = 0 := by
  refine c107_held_counterexample exC 100 _ _ _ rfl rfl rfl rfl rfl rfl rfl (by decide) (by decide) (by decide) ?_
  intro a b T h
  match a, h with
  | [], h => simp at h
  | [_], h => simp at h; obtain ⟨rfl, ⟨rfl, -⟩, -⟩ := h; exact .inr ⟨(102, .r ⟨.ok, .none⟩ ⟨.ok, .none⟩), by simp⟩
  | [_, _], h => simp at h
  | [_, _, _], h => simp at h; obtain ⟨rfl, rfl, rfl, ⟨rfl, -⟩, -⟩ := h; exact .inr ⟨(5001, .r ⟨.ok, .none⟩ ⟨.ok, .none⟩), by simp⟩
  | [_, _, _, _], h => simp at h
  | [_, _, _, _, _], h => simp at h; obtain ⟨rfl, rfl, rfl, rfl, rfl, rfl, -⟩ := h; exact .inr ⟨(10000, .r ⟨.ok, .none⟩ ⟨.ok, .none⟩), by simp⟩
  | _ :: _ :: _ :: _ :: _ :: _ :: _, h => simp at h

/-! ### The closing message -/

theorem sslShutdown_sent (o : Obj) (x : Call) : (o.sent = true → (sslShutdown o x).1.sent = true) ∧
    ((sslShutdown o x).1.sent = false → o.sent = false ∧ ((sslShutdown o x).2 = .wantW ∨ (sslShutdown o x).2 = .fail)) ∧
    ((sslShutdown o x).1.sent = false → x.tx ≠ .ok) := by
  obtain ⟨s, g⟩ := o
  obtain ⟨a, b⟩ := x
  cases s <;> cases g <;> cases a <;> cases b <;> simp [sslShutdown]

theorem shutdown_sent (c : C) (x y : Call) : (c.obj.sent = true → (shutdown c x y).1.obj.sent = true) ∧
    ((shutdown c x y).2 = .again → (shutdown c x y).1.obj.sent = false → (shutdown c x y).1.wcb = some .shut ∧ (shutdown c x y).1.opt = ⟨false, true⟩) ∧
    (c.init = false → (shutdown c x y).1.obj.sent = false → x.tx ≠ .ok) := by
  obtain ⟨a1, a2, a3⟩ := sslShutdown_sent c.obj x
  obtain ⟨b1, b2, b3⟩ := sslShutdown_sent (sslShutdown c.obj x).1 y
  unfold shutdown
  split
  · next hi => exact ⟨id, by simp, fun h => by simp [hi] at h⟩
  · dsimp only
    cases h1 : (sslShutdown c.obj x).2 <;> simp only [h1] at a2 <;> simp only
    · exact ⟨a1, by simp, fun _ => a3⟩
    · cases h2 : (sslShutdown (sslShutdown c.obj x).1 y).2 <;> simp only [h2] at b2 <;> simp only
      · exact ⟨fun h => b1 (a1 h), by simp, fun _ h => a3 (b2 h).1⟩
      · exact ⟨fun h => b1 (a1 h), by simp, fun _ h => a3 (b2 h).1⟩
      · exact ⟨fun h => b1 (a1 h), fun _ h => absurd (b2 h).2 (by simp), fun _ h => a3 (b2 h).1⟩
      · exact ⟨fun h => b1 (a1 h), fun _ _ => ⟨rfl, rfl⟩, fun _ h => a3 (b2 h).1⟩
      · exact ⟨fun h => b1 (a1 h), by simp, fun _ h => a3 (b2 h).1⟩
    · exact ⟨a1, fun _ h => absurd (a2 h).2 (by simp), fun _ => a3⟩
    · exact ⟨a1, fun _ _ => ⟨rfl, rfl⟩, fun _ => a3⟩
    · cases h2 : (sslShutdown (sslShutdown c.obj x).1 y).2 <;> simp only [h2] at b2 <;> simp only
      · exact ⟨fun h => b1 (a1 h), by simp, fun _ h => a3 (b2 h).1⟩
      · exact ⟨fun h => b1 (a1 h), by simp, fun _ h => a3 (b2 h).1⟩
      · exact ⟨fun h => b1 (a1 h), fun _ h => absurd (b2 h).2 (by simp), fun _ h => a3 (b2 h).1⟩
      · exact ⟨fun h => b1 (a1 h), fun _ _ => ⟨rfl, rfl⟩, fun _ h => a3 (b2 h).1⟩
      · exact ⟨fun h => b1 (a1 h), by simp, fun _ h => a3 (b2 h).1⟩

theorem shutdown_init (c : C) (x y : Call) : (shutdown c x y).1.init = c.init := by
  unfold shutdown
  split
  · rfl
  · dsimp only
    split
    · rfl
    · rfl
    · rfl
    all_goals split <;> rfl

theorem netFree_init (c : C) (t : Nat) (x y : Call) : (netFree c t x y).init = c.init := by
  have h := shutdown_init c x y
  unfold netFree
  split
  · rfl
  · generalize hs : shutdown c x y = s at h ⊢
    obtain ⟨c', r⟩ := s
    cases r <;> exact h

theorem callCb_init (c : C) (cb : Option Cb) (t : Nat) (x y : Call) : (callCb c cb t x y).init = c.init := by
  match cb with
  | none => rfl
  | some (.app _) => rfl
  | some .shut =>
    have h := shutdown_init c x y
    simp only [callCb, shutdownCb]
    generalize hs : shutdown c x y = s at h ⊢
    obtain ⟨c', r⟩ := s
    cases r <;> exact h

theorem step_init (c : C) (e : Nat × Ev) : (step c e).init = c.init := by
  obtain ⟨t, e⟩ := e
  cases e with
  | r x y => simp only [step]; split; exacts [callCb_init .., rfl]
  | w x y => simp only [step]; split; exacts [callCb_init .., rfl]
  | again x y => simp only [step]; split; exacts [netFree_init .., rfl]
  | pass =>
    simp only [step]
    split
    · split
      · split
        · rfl
        · exact netFree_init ..
        · rfl
      · rfl
    · rfl

theorem run_init (es : List (Nat × Ev)) (c : C) : (run c es).init = c.init := by
  induction es generalizing c with
  | nil => rfl
  | cons e es ih => exact (ih (step c e)).trans (step_init c e)

/-- The closing message is sent, or waited for, or the connection is released. -/
def Telling (c : C) : Prop := c.freed = 0 → c.obj.sent = false → c.wcb = some .shut ∧ c.opt = ⟨false, true⟩

theorem netFree_tells (c : C) (t : Nat) (x y : Call) : (c.obj.sent = true → (netFree c t x y).obj.sent = true) ∧ Telling (netFree c t x y) ∧
    (c.init = false → c.ferr = false → c.fclosed = false → (netFree c t x y).obj.sent = false → x.tx ≠ .ok) := by
  obtain ⟨a1, a2, a3⟩ := shutdown_sent c x y
  unfold netFree
  split
  · next h => exact ⟨id, fun h => by simp [netFreeDirect] at h, fun _ h1 h2 => by simp [h1, h2] at h⟩
  · generalize hs : shutdown c x y = s at a1 a2 a3 ⊢
    obtain ⟨c', r⟩ := s
    cases r with
    | again => exact ⟨a1, fun _ h => a2 rfl h, fun h _ _ => a3 h⟩
    | done => exact ⟨a1, fun h => by simp [netFreeDirect] at h, fun h _ _ => a3 h⟩
    | fail => exact ⟨a1, fun h => by simp [netFreeDirect] at h, fun h _ _ => a3 h⟩

theorem shutdownCb_tells (c : C) (t : Nat) (x y : Call) : (c.obj.sent = true → (shutdownCb c t x y).obj.sent = true) ∧ Telling (shutdownCb c t x y) ∧
    (c.init = false → (shutdownCb c t x y).obj.sent = false → x.tx ≠ .ok) := by
  obtain ⟨a1, a2, a3⟩ := shutdown_sent c x y
  unfold shutdownCb
  generalize hs : shutdown c x y = s at a1 a2 a3 ⊢
  obtain ⟨c', r⟩ := s
  cases r with
  | again => exact ⟨a1, fun _ h => a2 rfl h, a3⟩
  | done => exact ⟨a1, fun h => by simp [netFreeDirect] at h, a3⟩
  | fail => exact ⟨a1, fun h => by simp [netFreeDirect] at h, a3⟩

theorem callCb_tells {c : C} (h : Telling c) (cb : Option Cb) (t : Nat) (x y : Call) : (c.obj.sent = true → (callCb c cb t x y).obj.sent = true) ∧ Telling (callCb c cb t x y) := by
  match cb with
  | none => exact ⟨id, h⟩
  | some (.app _) => exact ⟨id, h⟩
  | some .shut => exact ⟨(shutdownCb_tells c t x y).1, (shutdownCb_tells c t x y).2.1⟩

theorem step_tells {c : C} (h : Telling c) (e : Nat × Ev) : (c.obj.sent = true → (step c e).obj.sent = true) ∧ Telling (step c e) := by
  obtain ⟨t, e⟩ := e
  cases e with
  | r x y =>
    simp only [step]
    split
    · exact callCb_tells h _ t x y
    · exact ⟨id, h⟩
  | w x y =>
    simp only [step]
    split
    · exact callCb_tells h _ t x y
    · exact ⟨id, h⟩
  | again x y =>
    simp only [step]
    split
    · exact ⟨(netFree_tells c t x y).1, (netFree_tells c t x y).2.1⟩
    · exact ⟨id, h⟩
  | pass =>
    simp only [step]
    split
    · split
      · split
        · exact ⟨id, fun h => by simp [netFreeDirect] at h⟩
        · simp only [cexp, netFree, Bool.true_or, if_true]
          exact ⟨id, fun h => by simp [netFreeDirect] at h⟩
        · exact ⟨id, h⟩
      · exact ⟨id, h⟩
    · exact ⟨id, h⟩

theorem run_tells (es : List (Nat × Ev)) {c : C} (h : Telling c) : (c.obj.sent = true → (run c es).obj.sent = true) ∧ Telling (run c es) := by
  induction es generalizing c with
  | nil => exact ⟨id, h⟩
  | cons e es ih =>
    obtain ⟨a, b⟩ := step_tells h e
    obtain ⟨a', b'⟩ := ih b
    exact ⟨fun h => a' (a h), b'⟩

/-- C107, the closing message, for a connection whose handshake is done and which has no error: it is sent before the connection is released if the socket takes it when the connection
is given up. While it is not sent the connection waits to be able to write, and sends it when that is reported and the socket takes it; so it is left out only if the socket
stays full until the timer. -/
theorem c107_bye_partial (c : C) (t0 : Nat) (x y : Call) (es : List (Nat × Ev)) (hi : c.init = false) (he : c.ferr = false) (hcl : c.fclosed = false) :
    (x.tx = .ok → (run (netFree c t0 x y) es).obj.sent = true) ∧
    ((run (netFree c t0 x y) es).freed = 0 → (run (netFree c t0 x y) es).obj.sent = false →
      (run (netFree c t0 x y) es).opt = ⟨false, true⟩ ∧
      ∀ t x' y' fut, x'.tx = .ok → (run (netFree c t0 x y) (es ++ (t, .w x' y') :: fut)).obj.sent = true) := by
  obtain ⟨a1, a2, a3⟩ := netFree_tells c t0 x y
  obtain ⟨b1, b2⟩ := run_tells es a2
  refine ⟨fun hx => b1 ?_, fun h1 h2 => ⟨(b2 h1 h2).2, fun t x' y' fut hx => ?_⟩⟩
  · by_contra hs
    exact a3 hi he hcl (by simpa using hs) hx
  · have happ : run (netFree c t0 x y) (es ++ (t, .w x' y') :: fut) = run (step (run (netFree c t0 x y) es) (t, .w x' y')) fut := by
      simp [run]
    rw [happ]
    have hstep := step_tells b2 (t, .w x' y')
    refine (run_tells fut hstep.2).1 ?_
    simp only [step, h1, if_true, (b2 h1 h2).1, callCb]
    by_contra hs
    refine (shutdownCb_tells _ t x' y').2.2 ?_ (by simpa using hs) hx
    rw [run_init, netFree_init, hi]

/-- Case: the socket is full at first and takes the closing message three milliseconds later. -/
example : (run (netFree exC 100 ⟨.full, .none⟩ ⟨.ok, .none⟩) []).opt = ⟨false, true⟩ ∧ (run (netFree exC 100 ⟨.full, .none⟩ ⟨.ok, .none⟩) []).obj.sent = false ∧
    (run (netFree exC 100 ⟨.full, .none⟩ ⟨.ok, .none⟩) ([] ++ [(103, .w ⟨.ok, .none⟩ ⟨.ok, .none⟩)])).obj.sent = true :=
  ⟨by decide, by decide, ((c107_bye_partial exC 100 ⟨.full, .none⟩ ⟨.ok, .none⟩ [] rfl rfl rfl).2 (by decide) (by decide)).2 103 _ _ [] rfl⟩

/-- C107 is false for a peer that reads slowly: if the socket is full when the connection is given up and for the next five milliseconds, it is closed without the closing message, so that the peer
cannot tell the end of what was sent from a connection that was cut. -/
theorem c107_bye_counterexample (c : C) (t0 T : Nat) (x y : Call) (hf : c.freed = 0) (hi : c.init = false) (he : c.ferr = false) (hcl : c.fclosed = false)
    (ho : c.obj.sent = false) (hx : x.tx = .full) (hT : t0 + 5 ≤ T) (es : List (Nat × Ev)) :
    (run (netFree c t0 x y) ((T, .pass) :: es)).freed = 1 ∧ (run (netFree c t0 x y) ((T, .pass) :: es)).obj.sent = false := by
  have h1 : netFree c t0 x y = { waitFor c true with timer := some (t0 + 5, .direct) } := by
    obtain ⟨i, e, f, ⟨os, og⟩, r, w, p, t, n, k⟩ := c
    simp only at hi he hcl ho
    subst hi he hcl ho
    simp [netFree, shutdown, sslShutdown, hx, waitFor, netTmout]
  have h2 : step (netFree c t0 x y) (T, .pass) = netFreeDirect { waitFor c true with timer := none } := by
    rw [h1]
    simp only [step]
    rw [if_pos hT]
  have h3 : ∀ (es : List (Nat × Ev)) (c : C), c.freed = 1 → c.timer = none → run c es = c := by
    intro es
    induction es with
    | nil => intro c _ _; rfl
    | cons e es ih =>
      intro c hc ht
      have : step c e = c := by
        obtain ⟨t, e⟩ := e
        cases e <;> simp [step, hc, ht]
      show run (step c e) es = c
      rw [this]
      exact ih c hc ht
  have h4 : run (netFree c t0 x y) ((T, .pass) :: es) = netFreeDirect { waitFor c true with timer := none } := by
    show run (step (netFree c t0 x y) (T, .pass)) es = _
    rw [h2]
    exact h3 es _ (by simp [netFreeDirect, waitFor, hf]) rfl
  rw [h4]
  exact ⟨by simp [netFreeDirect, waitFor, hf], ho⟩

/-- Case: the last part of a response fills the socket. -/
example : (run (netFree exC 100 ⟨.full, .none⟩ ⟨.full, .none⟩) [(105, .pass)]).freed = 1 ∧ (run (netFree exC 100 ⟨.full, .none⟩ ⟨.full, .none⟩) [(105, .pass)]).obj.sent = false :=
  c107_bye_counterexample exC 100 105 _ _ rfl rfl rfl rfl rfl rfl (Nat.le_refl _) []

/-- C107, a peer that closes as well: a connection that is waiting is released as soon as what it waits for is reported and the closing message of the peer is there, and
a peer that has closed first is not waited for at all. -/
theorem c107_answered_partial (c : C) (t0 : Nat) (x y : Call) (es : List (Nat × Ev)) (hf : c.freed = 0) (hc : c.calls = 0) :
    ((run (netFree c t0 x y) es).freed = 0 → (run (netFree c t0 x y) es).obj.sent = true →
      ∀ t x' y' e, x'.rd = .bye →
        (e = .r x' y' ∧ (run (netFree c t0 x y) es).opt = ⟨true, false⟩ ∨ e = .w x' y' ∧ (run (netFree c t0 x y) es).opt = ⟨false, true⟩) →
        (run (netFree c t0 x y) (es ++ [(t, e)])).freed = 1) ∧
    (c.obj.got = true → x.tx = .ok → (netFree c t0 x y).freed = 1) := by
  constructor
  · intro h0 hs t x' y' e hb he
    have happ : run (netFree c t0 x y) (es ++ [(t, e)]) = step (run (netFree c t0 x y) es) (t, e) := by simp [run]
    rw [happ]
    have hcl := c107_only_closing c t0 x y es hf hc
    generalize run (netFree c t0 x y) es = s at *
    obtain ⟨-, ⟨h1, -⟩ | ⟨-, hw, -⟩⟩ := hcl
    · omega
    have key : (shutdownCb s t x' y').freed = 1 := by
      have : ∃ s', shutdown s x' y' = (s', .done) ∧ s'.freed = 0 := by
        obtain ⟨i, e, f, ⟨os, og⟩, r, w, p, tm, n, k⟩ := s
        simp only at hs h0
        subst hs h0
        cases i <;> cases og <;> simp [shutdown, sslShutdown, hb]
      obtain ⟨s', e1, e2⟩ := this
      simp [shutdownCb, e1, netFreeDirect, e2]
    rcases he with ⟨rfl, ho⟩ | ⟨rfl, ho⟩
    · rcases hw with ⟨a, -, -⟩ | ⟨-, -, a⟩
      · simp only [step, h0, if_true, a, callCb]; exact key
      · rw [ho] at a; simp at a
    · rcases hw with ⟨-, -, a⟩ | ⟨-, a, -⟩
      · rw [ho] at a; simp at a
      · simp only [step, h0, if_true, a, callCb]; exact key
  · intro hg hx
    obtain ⟨i, e, f, ⟨os, og⟩, r, w, p, tm, n, k⟩ := c
    simp only at hg hf
    subst hg hf
    unfold netFree
    split
    · rfl
    · cases i <;> cases os <;> simp [shutdown, sslShutdown, hx, netFreeDirect]

/-- Case: given up at 100, the peer's closing message arrives at 103. -/
example : (run (netFree exC 100 ⟨.ok, .none⟩ ⟨.ok, .none⟩) ([] ++ [(103, .r ⟨.ok, .bye⟩ ⟨.ok, .none⟩)])).freed = 1 ∧
    (netFree { exC with obj := ⟨false, true⟩ } 100 ⟨.ok, .none⟩ ⟨.ok, .none⟩).freed = 1 :=
  ⟨(c107_answered_partial exC 100 _ _ [] rfl rfl).1 (by decide) (by decide) 103 _ _ _ rfl (.inl ⟨rfl, by decide⟩),
    (c107_answered_partial { exC with obj := ⟨false, true⟩ } 100 _ _ [] rfl rfl).2 rfl rfl⟩

end Verif.TlsClose
