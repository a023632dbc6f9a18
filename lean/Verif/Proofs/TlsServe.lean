import Verif.Spec.TlsServe
import Verif.Props.Serve
import Verif.Model.TlsRelay
/-
Lemmas about sessions of the server on top of TLS: what happens to the bytes is what `Model/Serve` says, and the callbacks fit the phase.
-/
namespace Verif.TlsServe
open Verif Verif.Serve Verif.Spec.TlsServe

variable {admit : List UInt8 → Bool}

/-! ### The bytes -/

/-- Which event of `Model/Serve` an event amounts to, if any. -/
def Amounts : Ev → Serve.Ev → Prop
  | .arrive r, e => e = .arrive r
  | .call x, e => (x = .go ∧ (e = .read ∨ ∃ n, e = .write n)) ∨ (x = .fail ∧ e = .fail)
  | .connected ip, e => e = .connected ip
  | .refused, e => e = .refused
  | .expire, e => e = .fail
  | _, _ => False

@[simp] theorem ses_mod (c : C) (s : Ssl.S) : (mod c s).ses = c.ses := by unfold mod; split <;> rfl
@[simp] theorem ses_block (c : C) (s : Ssl.S) (w : Bool) : (block c s w).ses = c.ses := by unfold block; exact ses_mod c s
@[simp] theorem ses_begin (c : C) (s : Ssl.S) : (begin c s).ses = c.ses := by unfold begin; exact ses_mod c _
@[simp] theorem ses_advance (c : C) (s : Ssl.S) (x : St) : (advance c s x).ses = x := rfl
@[simp] theorem ses_close (c : C) : (close c).ses = { c.ses with phase := .closed } := rfl
@[simp] theorem ses_callCb (c : C) (cb : Option Ssl.Cb) : (callCb c cb).ses = c.ses := by unfold callCb; repeat' split <;> try rfl

theorem close_fail {c : C} (h : c.ses.phase ≠ .crash) : (close c).ses = Serve.step admit c.ses .fail := by
  simp only [ses_close, Serve.step, if_neg h]

theorem over_crash {c : C} (h : ¬ over c = true) : c.ses.phase ≠ .crash := by
  intro e; apply h; simp [over, e, handler]

theorem shake_ses (c : C) (x : Io) (h : c.ses.phase ≠ .crash) :
    (shake c x).ses = c.ses ∨ (x = .fail ∧ (shake c x).ses = Serve.step admit c.ses .fail) := by
  cases x with
  | go =>
    left
    simp only [shake]
    repeat' split
    all_goals first | rfl | exact ses_begin _ _
  | waitR => left; exact ses_block _ _ _
  | waitW => left; exact ses_block _ _ _
  | fail => exact .inr ⟨rfl, close_fail h⟩

theorem recv_ses (c : C) (x : Io) (h : c.ses.phase ≠ .crash) :
    (recv admit c x).ses = c.ses ∨ (x = .go ∧ (recv admit c x).ses = Serve.step admit c.ses .read) ∨
    (x = .fail ∧ (recv admit c x).ses = Serve.step admit c.ses .fail) := by
  cases x with
  | go =>
    simp only [recv]
    split
    · left; exact ses_block _ _ _
    · exact .inr (.inl ⟨trivial, rfl⟩)
  | waitR => left; exact ses_block _ _ _
  | waitW => left; exact ses_block _ _ _
  | fail => exact .inr (.inr ⟨rfl, close_fail h⟩)

theorem send_ses (c : C) (u : List UInt8) (x : Io) (h : c.ses.phase ≠ .crash) :
    (send admit c u x).ses = c.ses ∨ (x = .go ∧ (send admit c u x).ses = Serve.step admit c.ses (.write u.length)) ∨
    (x = .fail ∧ (send admit c u x).ses = Serve.step admit c.ses .fail) := by
  cases x with
  | go => exact .inr (.inl ⟨rfl, rfl⟩)
  | waitR => left; exact ses_block _ _ _
  | waitW => left; exact ses_block _ _ _
  | fail => exact .inr (.inr ⟨rfl, close_fail h⟩)

theorem call_ses (c : C) (x : Io) (h : c.ses.phase ≠ .crash) :
    (call admit c x).ses = c.ses ∨ ∃ e', Amounts (.call x) e' ∧ (call admit c x).ses = Serve.step admit c.ses e' := by
  unfold call
  split
  · rcases shake_ses (admit := admit) c x h with h | ⟨h, h'⟩
    · exact .inl h
    · exact .inr ⟨.fail, .inr ⟨h, rfl⟩, h'⟩
  · split
    · next u _ =>
      rcases send_ses (admit := admit) c u x h with h | ⟨h, h'⟩ | ⟨h, h'⟩
      · exact .inl h
      · exact .inr ⟨_, .inl ⟨h, .inr ⟨_, rfl⟩⟩, h'⟩
      · exact .inr ⟨.fail, .inr ⟨h, rfl⟩, h'⟩
    · next u _ =>
      rcases send_ses (admit := admit) c u x h with h | ⟨h, h'⟩ | ⟨h, h'⟩
      · exact .inl h
      · exact .inr ⟨_, .inl ⟨h, .inr ⟨_, rfl⟩⟩, h'⟩
      · exact .inr ⟨.fail, .inr ⟨h, rfl⟩, h'⟩
    · rcases recv_ses (admit := admit) c x h with h | ⟨h, h'⟩ | ⟨h, h'⟩
      · exact .inl h
      · exact .inr ⟨_, .inl ⟨h, .inl rfl⟩, h'⟩
      · exact .inr ⟨.fail, .inr ⟨h, rfl⟩, h'⟩

/-- An event leaves the session as it is or amounts to an event of `Model/Serve`. -/
theorem step_ses (c : C) (e : Ev) :
    ((step admit c e).ses = c.ses ∧ ∀ r, e ≠ .arrive r) ∨ ∃ e', Amounts e e' ∧ (step admit c e).ses = Serve.step admit c.ses e' := by
  cases e with
  | arrive r => exact .inr ⟨_, rfl, rfl⟩
  | edge r w => exact .inl ⟨rfl, by simp⟩
  | report r w => left; simp only [step]; split <;> simp
  | dispatch =>
    left
    simp only [step]
    repeat' split
    all_goals simp
  | call x =>
    simp only [step]
    split
    · left; simp
    · next h =>
      simp only [Bool.or_eq_true, not_or] at h
      rcases call_ses (admit := admit) c x (over_crash h.1) with h | h
      · left; exact ⟨h, by simp⟩
      · exact .inr h
  | connected ip =>
    simp only [step]
    repeat' split
    · left; simp
    · exact .inr ⟨_, rfl, rfl⟩
    · left; simp
  | refused =>
    simp only [step]
    repeat' split
    · left; simp
    · next h _ => exact .inr ⟨_, rfl, by simp only [ses_close, Serve.step, h]⟩
    · left; simp
  | expire =>
    simp only [step]
    repeat' split
    · left; simp
    · next h =>
      simp only [Bool.or_eq_true, not_or] at h
      exact .inr ⟨_, rfl, close_fail (over_crash h.1)⟩

/-- A history as a history of `Model/Serve`. -/
theorem run_ses (es : List Ev) (c : C) : ∃ es', Serve.run admit c.ses es' = (run admit c es).ses ∧ arrived es' = records es ∧
    (∀ ip, .connected ip ∈ es' → .connected ip ∈ es) := by
  induction es generalizing c with
  | nil => exact ⟨[], rfl, rfl, by simp⟩
  | cons e es ih =>
    obtain ⟨es', h1, h2, h3⟩ := ih (step admit c e)
    rcases step_ses (admit := admit) c e with ⟨h, hn⟩ | ⟨e', ha, h⟩
    · refine ⟨es', ?_, ?_, fun ip hi => List.mem_cons_of_mem _ (h3 ip hi)⟩
      · rw [← h]; exact h1
      · rw [h2]; cases e <;> first | rfl | exact absurd rfl (hn _)
    · refine ⟨e' :: es', ?_, ?_, ?_⟩
      · change Serve.run admit (Serve.step admit c.ses e') es' = _
        rw [← h]; exact h1
      · cases e <;> simp only [Amounts] at ha
        all_goals first
          | (subst ha; simp only [arrived, records, h2])
          | exact absurd ha id
          | (rcases ha with ⟨-, rfl | ⟨n, rfl⟩⟩ | ⟨-, rfl⟩ <;> simp only [arrived, records, h2])
      · intro ip hi
        rcases List.mem_cons.1 hi with hi | hi
        · subst hi
          cases e <;> simp [Amounts] at ha
          subst ha; exact List.mem_cons_self
        · exact List.mem_cons_of_mem _ (h3 ip hi)

/-- The same for a client that keeps to a script. -/
theorem play_ses (es : List Ev) (l l' : List (List UInt8 × Nat)) (c c' : C) (h : playT admit l c es = some (l', c')) :
    c' = run admit c es ∧ ∃ es', Serve.play admit l c.ses es' = some (l', c'.ses) := by
  induction es generalizing c l with
  | nil => simp only [playT, Option.some.injEq, Prod.mk.injEq] at h; obtain ⟨rfl, rfl⟩ := h; exact ⟨rfl, [], rfl⟩
  | cons e es ih =>
    have gen : ∀ l0, playT admit l0 (step admit c e) es = some (l', c') → (∀ r, e ≠ .arrive r) → e ≠ .refused → e ≠ .expire → e ≠ .call .fail →
        c' = run admit c (e :: es) ∧ ∃ es', Serve.play admit l0 c.ses es' = some (l', c'.ses) := by
      intro l0 h0 h1 h2 h3 h4
      obtain ⟨a, es', b⟩ := ih _ _ h0
      refine ⟨a, ?_⟩
      rcases step_ses (admit := admit) c e with ⟨h, hn⟩ | ⟨e', ha, h⟩
      · rw [h] at b; exact ⟨es', b⟩
      · rw [h] at b
        refine ⟨e' :: es', ?_⟩
        cases e <;> simp only [Amounts] at ha
        all_goals first
          | exact absurd ha id
          | exact absurd rfl (h1 _)
          | exact absurd rfl h2
          | exact absurd rfl h3
          | skip
        · rcases ha with ⟨-, rfl | ⟨n, rfl⟩⟩ | ⟨rfl, -⟩
          · exact b
          · exact b
          · exact absurd rfl h4
        · subst ha; exact b
    cases e with
    | arrive r =>
      cases l with
      | nil => simp [playT] at h
      | cons x l =>
        obtain ⟨r', k⟩ := x
        simp only [playT] at h
        split at h
        · next hk =>
          obtain ⟨a, es', b⟩ := ih _ _ h
          exact ⟨a, .arrive r :: es', by simp only [Serve.play, if_pos hk]; exact b⟩
        · cases h
    | refused => simp [playT] at h
    | expire => simp [playT] at h
    | call x =>
      cases x with
      | fail => simp [playT] at h
      | go => exact gen _ h (by simp) (by simp) (by simp) (by simp)
      | waitR => exact gen _ h (by simp) (by simp) (by simp) (by simp)
      | waitW => exact gen _ h (by simp) (by simp) (by simp) (by simp)
    | edge r w => exact gen _ h (by simp) (by simp) (by simp) (by simp)
    | report r w => exact gen _ h (by simp) (by simp) (by simp) (by simp)
    | dispatch => exact gen _ h (by simp) (by simp) (by simp) (by simp)
    | connected ip => exact gen _ h (by simp) (by simp) (by simp) (by simp)

/-! ### The callbacks -/

/-- Interest and saved interest: reading is registered, or saved to be registered again. -/
def Typ (s : Ssl.S) : Prop := (s.typ = Event.Mask.none ∧ s.opt = ⟨true, false⟩) ∨ s.typ = ⟨true, false⟩

/-- What the last call waits for is registered and going to be reported, or reported already. -/
def Due (c : C) : Prop :=
  (c.wait = false ∧ c.t.opt = ⟨true, false⟩ ∧ (c.aR = true ∨ c.qR = true)) ∨
  (c.wait = true ∧ c.t.opt = ⟨false, true⟩ ∧ (c.aW = true ∨ c.qW = true))

/-- During the handshake. -/
def HInv (c : C) : Prop :=
  c.ses.phase = .auth [] ∧ c.t.wcb = none ∧ c.t.ccw = none ∧ c.t.opt = ⟨true, false⟩ ∧
  ((c.t.rcb = some (.app 10) ∧ c.t.ccr = none ∧ c.t.typ = Event.Mask.none) ∨
    (c.t.rcb = some .hs ∧ c.t.ccr = some (.app 10) ∧ c.t.typ = ⟨true, false⟩)) ∧
  c.qW = false ∧ (c.active = true → c.qR = false) ∧ c.wait = false ∧ (c.active = false → c.aR = true ∨ c.qR = true)

/-- In a phase whose handler `n` reads. -/
def RInv (n : Nat) (c : C) : Prop :=
  c.t.rcb = some (.app n) ∧ Typ c.t ∧
  (c.active = true → c.qR = false ∧ c.qW = false) ∧
  (c.active = false → Due c ∧ (c.wait = true → c.t.wcb = some .rd ∧ c.qR = false) ∧ (c.wait = false → c.qW = false))

/-- In a phase whose handler `n` writes. -/
def WInv (n : Nat) (c : C) : Prop :=
  c.t.wcb = some (.app n) ∧ Typ c.t ∧ (c.t.rcb = none ∨ c.t.rcb = some .wr) ∧
  (c.active = true → c.qW = false ∧ (c.qR = true → c.t.rcb = none)) ∧
  (c.active = false → Due c ∧ (c.wait = true → c.qR = true → c.t.rcb = none) ∧ (c.wait = false → c.t.rcb = some .wr ∧ c.qW = false)) ∧
  ∃ (t0 : Ssl.S) (ws : List Ssl.Res), t0.ccw = none ∧ t0.wcb = some (.app n) ∧ (∀ x ∈ ws, x = .wantR ∨ x = .wantW) ∧ c.t = ws.foldl Ssl.write t0 ∧
    (c.active = false → ws ≠ [])

/-- While the upstream connection is established. -/
def KInv (c : C) : Prop :=
  c.t.rcb = some (.app 15) ∧ c.t.wcb = none ∧ c.t.ccw = none ∧ c.t.typ = Event.Mask.none ∧ c.t.opt = ⟨true, false⟩ ∧ c.qW = false ∧ c.active = false

/-- When the relay begins. -/
def LInv (c : C) : Prop :=
  ∃ (t0 : Ssl.S) (ws : List Ssl.Res), t0.ccw = none ∧ t0.wcb = some (.app 2) ∧ (∀ x ∈ ws, x = .wantR ∨ x = .wantW) ∧
    c.t = { (ws ++ [Ssl.Res.ok]).foldl Ssl.write t0 with rcb := some (.app 16), wcb := none } ∧ c.active = false

/-- In phase `p`. -/
def Fits (c : C) : Phase → Prop
  | .auth _ => RInv 11 c
  | .greet _ _ => RInv 12 c
  | .greetRsp _ => WInv 13 c ∧ (c.active = true ∨ c.wait = true → c.qR = false)
  | .request _ _ => RInv 14 c
  | .connect _ => KInv c
  | .reply _ => WInv 2 c
  | .relay => LInv c
  | _ => True

/-- All of it. -/
def Inv (c : C) : Prop :=
  c.bad = none ∧ (c.hs = true → HInv c ∨ c.ses.phase = .closed) ∧ (c.hs = false → Fits c c.ses.phase)

theorem mod_eq (c : C) (s : Ssl.S) : ∃ a b, mod c s = { c with t := s, aR := a, aW := b } := by
  unfold mod
  split
  · exact ⟨c.aR, c.aW, rfl⟩
  · exact ⟨_, _, rfl⟩

theorem block_eq (c : C) (s : Ssl.S) (w : Bool) : ∃ a b, block c s w = { c with t := s, active := false, wait := w, aR := a || !w, aW := b || w } := by
  obtain ⟨a, b, h⟩ := mod_eq c s
  exact ⟨a, b, by simp only [block, h]⟩

theorem advance_eq (c : C) (s : Ssl.S) (x : St) :
    ∃ a b, advance c s x = { c with t := enter c.ses.phase x.phase s, aR := a, aW := b, ses := x, active := calls x.phase } := by
  obtain ⟨a, b, h⟩ := mod_eq c (enter c.ses.phase x.phase s)
  exact ⟨a, b, by simp only [advance, h]⟩

theorem typ_cache {s : Ssl.S} (h : Typ s) : (Ssl.cache s).typ = ⟨true, false⟩ := by
  rcases h with ⟨e1, e2⟩ | e1 <;> simp [Ssl.cache, Event.Mask.none, *]

theorem RInv.blockR {n : Nat} {c : C} (h : RInv n c) (ha : c.active = true) : RInv n (block c (Ssl.read c.t .wantR) false) := by
  obtain ⟨a, b, e⟩ := block_eq c (Ssl.read c.t .wantR) false
  rw [e]
  obtain ⟨ses, ⟨opt, rcb, wcb, typ, ccr, ccw⟩, hs, active, aR, aW, qR, qW, wait, bad⟩ := c
  simp only [RInv, Typ, Due] at h ha ⊢
  obtain ⟨h1, h2, h3, h4⟩ := h
  obtain ⟨rfl, rfl⟩ := h3 ha
  rcases h2 with ⟨rfl, rfl⟩ | rfl <;> simp [h1, Ssl.read, Ssl.cache, Ssl.maskR, Event.Mask.none]

theorem RInv.blockW {n : Nat} {c : C} (h : RInv n c) (ha : c.active = true) : RInv n (block c (Ssl.read c.t .wantW) true) := by
  obtain ⟨a, b, e⟩ := block_eq c (Ssl.read c.t .wantW) true
  rw [e]
  obtain ⟨ses, ⟨opt, rcb, wcb, typ, ccr, ccw⟩, hs, active, aR, aW, qR, qW, wait, bad⟩ := c
  simp only [RInv, Typ, Due] at h ha ⊢
  obtain ⟨h1, h2, h3, h4⟩ := h
  obtain ⟨rfl, rfl⟩ := h3 ha
  rcases h2 with ⟨rfl, rfl⟩ | rfl <;> simp [h1, Ssl.read, Ssl.cache, Ssl.maskW, Event.Mask.none]

theorem WInv.blockR {n : Nat} {c : C} (h : WInv n c) (ha : c.active = true) : WInv n (block c (Ssl.write c.t .wantR) false) := by
  obtain ⟨a, b, e⟩ := block_eq c (Ssl.write c.t .wantR) false
  rw [e]
  obtain ⟨h1, h2, h3, h4, h5, t0, ws, k1, k2, k3, k4, k5⟩ := h
  refine ⟨?_, ?_, ?_, ?_, ?_, t0, ws ++ [.wantR], k1, k2, ?_, ?_, by simp⟩
  · simpa [Ssl.write, Ssl.cache] using h1
  · exact .inr (typ_cache h2)
  · simp [Ssl.write]
  · simp
  · simp [Due, Ssl.write, Ssl.maskR, (h4 ha).1]
  · intro x hx; rcases List.mem_append.1 hx with hx | hx
    · exact k3 x hx
    · simp at hx; exact .inl hx
  · simp [List.foldl_append, k4]

theorem WInv.blockW {n : Nat} {c : C} (h : WInv n c) (ha : c.active = true) : WInv n (block c (Ssl.write c.t .wantW) true) := by
  obtain ⟨a, b, e⟩ := block_eq c (Ssl.write c.t .wantW) true
  rw [e]
  obtain ⟨h1, h2, h3, h4, h5, t0, ws, k1, k2, k3, k4, k5⟩ := h
  refine ⟨?_, ?_, ?_, ?_, ?_, t0, ws ++ [.wantW], k1, k2, ?_, ?_, by simp⟩
  · simpa [Ssl.write, Ssl.cache] using h1
  · exact .inr (typ_cache h2)
  · simpa [Ssl.write, Ssl.cache] using h3
  · simp
  · simpa [Due, Ssl.write, Ssl.maskW, Ssl.cache] using (h4 ha).2
  · intro x hx; rcases List.mem_append.1 hx with hx | hx
    · exact k3 x hx
    · simp at hx; exact .inr hx
  · simp [List.foldl_append, k4]

/-- After a successful read nothing is saved for writing, and reading is registered. -/
theorem read_ok {n : Nat} {c : C} (h : RInv n c) : (Ssl.read c.t .ok).rcb = some (.app n) ∧ (Ssl.read c.t .ok).typ = Event.Mask.none ∧
    (Ssl.read c.t .ok).opt = ⟨true, false⟩ ∧ (Ssl.read c.t .ok).ccw = none := by
  obtain ⟨ses, ⟨opt, rcb, wcb, typ, ccr, ccw⟩, hs, active, aR, aW, qR, qW, wait, bad⟩ := c
  obtain ⟨h1, h2, -⟩ := h
  simp only at h1
  subst h1
  rcases h2 with ⟨e1, e2⟩ | e1 <;> simp only at e1 <;> subst e1
  · simp only at e2; subst e2
    cases ccw <;> simp [Ssl.read, Ssl.restoreTyp, Ssl.restoreW, Event.Mask.none]
  · cases ccw <;> simp [Ssl.read, Ssl.restoreTyp, Ssl.restoreW, Event.Mask.none]

/-- After a successful write reading is registered. -/
theorem write_ok {n : Nat} {c : C} (h : WInv n c) : (Ssl.write c.t .ok).typ = Event.Mask.none ∧ (Ssl.write c.t .ok).opt = ⟨true, false⟩ := by
  obtain ⟨ses, ⟨opt, rcb, wcb, typ, ccr, ccw⟩, hs, active, aR, aW, qR, qW, wait, bad⟩ := c
  obtain ⟨h1, h2, -⟩ := h
  rcases h2 with ⟨e1, e2⟩ | e1 <;> simp only at e1 <;> subst e1
  · simp only at e2; subst e2
    cases ccr <;> simp [Ssl.write, Ssl.restoreTyp, Ssl.restoreR, Event.Mask.none]
  · cases ccr <;> simp [Ssl.write, Ssl.restoreTyp, Ssl.restoreR, Event.Mask.none]

theorem read_auth (s : St) (b : List UInt8) (hp : s.phase = .auth b) (hs : s.sock ≠ []) :
    (∃ b', (Serve.step admit s .read).phase = .auth b') ∨ (∃ p f, (Serve.step admit s .read).phase = .greet p f) ∨
    (Serve.step admit s .read).phase = .closed := by
  obtain ⟨ph, sk, wi, up, lo⟩ := s
  simp only at hp; subst hp
  cases sk with
  | nil => exact absurd rfl hs
  | cons r t =>
    simp only [Serve.step, readAuth]
    (repeat' split) <;> simp

theorem read_greet (s : St) (p : S5.P1) (f : Nat) (hp : s.phase = .greet p f) (hs : s.sock ≠ []) :
    (∃ p f, (Serve.step admit s .read).phase = .greet p f) ∨ (∃ u, (Serve.step admit s .read).phase = .greetRsp u) ∨
    (Serve.step admit s .read).phase = .crash := by
  obtain ⟨ph, sk, wi, up, lo⟩ := s
  simp only at hp; subst hp
  cases sk with
  | nil => exact absurd rfl hs
  | cons r t =>
    simp only [Serve.step, readGreet]
    (repeat' split) <;> simp

theorem read_request (s : St) (p : S5.P2) (f : Nat) (hp : s.phase = .request p f) (hs : s.sock ≠ []) :
    (∃ p f, (Serve.step admit s .read).phase = .request p f) ∨ (∃ a, (Serve.step admit s .read).phase = .connect a) ∨
    (Serve.step admit s .read).phase = .closed ∨ (Serve.step admit s .read).phase = .crash := by
  obtain ⟨ph, sk, wi, up, lo⟩ := s
  simp only at hp; subst hp
  cases sk with
  | nil => exact absurd rfl hs
  | cons r t =>
    simp only [Serve.step, readRequest]
    (repeat' split) <;> simp

theorem write_greet (s : St) (u : List UInt8) (hp : s.phase = .greetRsp u) :
    (Serve.step admit s (.write u.length)).phase = .request S5.P2.init 12288 := by
  simp [Serve.step, hp, S5.metaN]

theorem write_reply (s : St) (u : List UInt8) (hp : s.phase = .reply u) : (Serve.step admit s (.write u.length)).phase = .relay := by
  simp [Serve.step, hp]

theorem bad_block (c : C) (s : Ssl.S) (w : Bool) : (block c s w).bad = c.bad := by
  obtain ⟨a, b, e⟩ := block_eq c s w; rw [e]
theorem hs_block (c : C) (s : Ssl.S) (w : Bool) : (block c s w).hs = c.hs := by
  obtain ⟨a, b, e⟩ := block_eq c s w; rw [e]
theorem qR_block (c : C) (s : Ssl.S) (w : Bool) : (block c s w).qR = c.qR := by
  obtain ⟨a, b, e⟩ := block_eq c s w; rw [e]

theorem Inv.of {c : C} (hb : c.bad = none) (hh : c.hs = false) (h : Fits c c.ses.phase) : Inv c :=
  ⟨hb, fun e => absurd (hh.symm.trans e) (by decide), fun _ => h⟩

theorem Inv.block {c : C} (hi : Inv c) (hh : c.hs = false) (s : Ssl.S) (w : Bool) (h : Fits (block c s w) c.ses.phase) : Inv (block c s w) :=
  .of (by rw [bad_block]; exact hi.1) (by rw [hs_block]; exact hh) (by rw [ses_block]; exact h)

theorem Inv.close {c : C} (hi : Inv c) : Inv (close c) := ⟨hi.1, fun _ => .inr rfl, fun _ => trivial⟩

theorem Inv.recv {n : Nat} {c : C} (hi : Inv c) (hh : c.hs = false) (ha : c.active = true) (h : RInv n c)
    (hp : (∃ b, c.ses.phase = .auth b ∧ n = 11) ∨ (∃ p f, c.ses.phase = .greet p f ∧ n = 12) ∨ (∃ p f, c.ses.phase = .request p f ∧ n = 14)) (x : Io) :
    Inv (recv admit c x) := by
  have wR : Inv (TlsServe.block c (Ssl.read c.t .wantR) false) := by
    have := h.blockR ha
    refine hi.block hh _ _ ?_
    rcases hp with ⟨b, e, rfl⟩ | ⟨p, f, e, rfl⟩ | ⟨p, f, e, rfl⟩ <;> rw [e] <;> exact this
  cases x with
  | go =>
    simp only [TlsServe.recv]
    split
    · exact wR
    · next hs =>
      obtain ⟨r1, r2, r3, r4⟩ := read_ok h
      obtain ⟨a, b, e⟩ := advance_eq c (Ssl.read c.t .ok) (Serve.step admit c.ses .read)
      rw [e]
      obtain ⟨q1, q2⟩ := h.2.2.1 ha
      refine .of hi.1 hh ?_
      rcases hp with ⟨b, e, rfl⟩ | ⟨p, f, e, rfl⟩ | ⟨p, f, e, rfl⟩
      · rcases read_auth (admit := admit) c.ses b e hs with ⟨b', k⟩ | ⟨p, f, k⟩ | k
        · simp [Fits, k, e, enter, handler, calls, RInv, Typ, r1, r2, r3, q1, q2]
        · simp [Fits, k, e, enter, handler, calls, RInv, Typ, r2, r3, q1, q2]
        · simp [Fits, k]
      · rcases read_greet (admit := admit) c.ses p f e hs with ⟨p, f, k⟩ | ⟨u, k⟩ | k
        · simp [Fits, k, e, enter, handler, calls, RInv, Typ, r1, r2, r3, q1, q2]
        · simp only [Fits, k, e, enter, handler, calls, WInv, Typ, r2, r3, q1, q2]
          simp
          exact ⟨{ Ssl.read c.t .ok with rcb := none, wcb := some (.app 13) }, r4, rfl, [], by simp, by simp [r2, r3]⟩
        · simp [Fits, k]
      · rcases read_request (admit := admit) c.ses p f e hs with ⟨p, f, k⟩ | ⟨u, k⟩ | k | k
        · simp [Fits, k, e, enter, handler, calls, RInv, Typ, r1, r2, r3, q1, q2]
        · simp [Fits, k, e, enter, handler, calls, KInv, r2, r3, r4, q2]
        · simp [Fits, k]
        · simp [Fits, k]
  | waitR => exact wR
  | waitW =>
    have := h.blockW ha
    refine hi.block hh _ _ ?_
    rcases hp with ⟨b, e, rfl⟩ | ⟨p, f, e, rfl⟩ | ⟨p, f, e, rfl⟩ <;> rw [e] <;> exact this
  | fail => exact hi.close

theorem Inv.send {n : Nat} {c : C} (hi : Inv c) (hh : c.hs = false) (ha : c.active = true) (h : WInv n c) (u : List UInt8)
    (hp : (c.ses.phase = .greetRsp u ∧ n = 13) ∨ (c.ses.phase = .reply u ∧ n = 2)) (x : Io) (hq : n = 13 → c.qR = false) :
    Inv (send admit c u x) := by
  cases x with
  | go =>
    obtain ⟨r1, r2⟩ := write_ok h
    obtain ⟨a, b, e⟩ := advance_eq c (Ssl.write c.t .ok) (Serve.step admit c.ses (.write u.length))
    simp only [TlsServe.send]
    rw [e]
    obtain ⟨q1, q2⟩ := h.2.2.2.1 ha
    refine .of hi.1 hh ?_
    rcases hp with ⟨e, rfl⟩ | ⟨e, rfl⟩
    · simp [Fits, write_greet (admit := admit) c.ses u e, e, enter, handler, calls, RInv, Typ, r1, r2, q1, hq rfl]
    · obtain ⟨t0, ws, k1, k2, k3, k4, k5⟩ := h.2.2.2.2.2
      simp only [Fits, write_reply (admit := admit) c.ses u e, e, enter, handler, calls, LInv]
      exact ⟨t0, ws, k1, k2, k3, by simp [k4], rfl⟩
  | waitR =>
    have := h.blockR ha
    refine hi.block hh _ _ ?_
    rcases hp with ⟨e, rfl⟩ | ⟨e, rfl⟩ <;> rw [e]
    · exact ⟨this, fun _ => by rw [qR_block]; exact hq rfl⟩
    · exact this
  | waitW =>
    have := h.blockW ha
    refine hi.block hh _ _ ?_
    rcases hp with ⟨e, rfl⟩ | ⟨e, rfl⟩ <;> rw [e]
    · exact ⟨this, fun _ => by rw [qR_block]; exact hq rfl⟩
    · exact this
  | fail => exact hi.close

theorem Inv.shake {c : C} (hi : Inv c) (hh : c.hs = true) (ha : c.active = true) (h : HInv c) (x : Io) (hx : x ≠ .waitW) : Inv (shake c x) := by
  obtain ⟨h1, h2, h3, h4, h5, h6, h7, h8, h9⟩ := h
  cases x with
  | go =>
    have beg : ∀ s : Ssl.S, s.opt = ⟨true, false⟩ → (s.typ = Event.Mask.none ∨ s.typ = ⟨true, false⟩) → Inv (begin c s) := by
      intro s k1 k2
      obtain ⟨a, b, e⟩ := mod_eq c { s with rcb := some (.app 11), wcb := none }
      refine .of ?_ ?_ ?_
      · simp only [begin, e]; exact hi.1
      · simp only [begin]
      · rw [ses_begin, h1]
        simp only [begin, e, Fits, RInv, Typ]
        refine ⟨trivial, ?_, fun _ => ⟨h7 ha, h6⟩, fun e => absurd (ha.symm.trans e) (by decide)⟩
        rcases k2 with k2 | k2
        · exact .inl ⟨k2, k1⟩
        · exact .inr k2
    obtain ⟨ses, ⟨opt, rcb, wcb, typ, ccr, ccw⟩, hs, active, aR, aW, qR, qW, wait, bad⟩ := c
    simp only at h2 h3 h4 h5
    subst h2; subst h3; subst h4
    rcases h5 with ⟨rfl, rfl, rfl⟩ | ⟨rfl, rfl, rfl⟩
    · simp only [TlsServe.shake]
      rw [if_pos (by simp)]
      exact beg _ rfl (.inl rfl)
    · exact beg ⟨⟨true, false⟩, some (.app 10), none, ⟨true, false⟩, none, none⟩ rfl (.inr rfl)
  | waitR =>
    obtain ⟨a, b, e⟩ := block_eq c (Ssl.handshake c.t .wantR) false
    refine ⟨by simp only [TlsServe.shake]; rw [bad_block]; exact hi.1, fun _ => .inl ?_, fun k => ?_⟩
    · simp only [TlsServe.shake, e]
      obtain ⟨ses, ⟨opt, rcb, wcb, typ, ccr, ccw⟩, hs, active, aR, aW, qR, qW, wait, bad⟩ := c
      simp only at h2 h3 h4 h5
      subst h2; subst h3; subst h4
      rcases h5 with ⟨rfl, rfl, rfl⟩ | ⟨rfl, rfl, rfl⟩ <;>
        simp_all [HInv, Ssl.handshake, Ssl.cache, Ssl.maskR, Event.Mask.none]
    · simp only [TlsServe.shake] at k; rw [hs_block, hh] at k; cases k
  | waitW => exact absurd rfl hx
  | fail => exact hi.close

theorem Inv.call {c : C} (hi : Inv c) (ho : ¬ over c = true) (ha : c.active = true) (x : Io) (hx : c.hs = true → x ≠ .waitW) : Inv (call admit c x) := by
  unfold TlsServe.call
  split
  · next hh =>
    rcases hi.2.1 hh with h | h
    · exact hi.shake hh ha h x (hx hh)
    · exact absurd (by simp [over, h, handler]) ho
  · next hh =>
    have hh : c.hs = false := by simpa using hh
    have hf := hi.2.2 hh
    split
    · next u e => rw [e] at hf; exact hi.send hh ha hf.1 u (.inl ⟨e, rfl⟩) x (fun _ => hf.2 (.inl ha))
    · next u e => rw [e] at hf; exact hi.send hh ha hf u (.inr ⟨e, rfl⟩) x (by simp)
    · next n1 n2 =>
      cases e : c.ses.phase with
      | auth b => rw [e] at hf; exact hi.recv hh ha hf (.inl ⟨b, e, rfl⟩) x
      | greet p f => rw [e] at hf; exact hi.recv hh ha hf (.inr (.inl ⟨p, f, e, rfl⟩)) x
      | greetRsp u => exact absurd e (n1 u)
      | request p f => rw [e] at hf; exact hi.recv hh ha hf (.inr (.inr ⟨p, f, e, rfl⟩)) x
      | connect a => rw [e] at hf; exact absurd (ha.symm.trans hf.2.2.2.2.2.2) (by decide)
      | reply u => exact absurd e (n2 u)
      | relay => exact absurd (by simp [over, e, handler]) ho
      | closed => exact absurd (by simp [over, e, handler]) ho
      | crash => exact absurd (by simp [over, e, handler]) ho

/-- What the event loop's next event of the connection does: the handler of the phase goes on, or it was an event for nobody. -/
theorem Inv.dispatch {c : C} (hi : Inv c) (ho : ¬ over c = true) (ha : c.active = false) :
    Inv (if c.qR then callCb { c with qR := false } c.t.rcb else if c.qW then callCb { c with qW := false } c.t.wcb else c) := by
  cases Bool.eq_false_or_eq_true c.hs with
  | inl hh =>
    rcases hi.2.1 hh with h | h
    · have h0 := h
      obtain ⟨h1, h2, h3, h4, h5, h6, h7, h8, h9⟩ := h
      cases Bool.eq_false_or_eq_true c.qR with
      | inr hq => simp only [hq, h6]; exact hi
      | inl hq =>
        have ht : callCb { c with qR := false } c.t.rcb = { c with qR := false, active := true } := by
          rcases h5 with ⟨e, -⟩ | ⟨e, -⟩ <;> simp [callCb, e, resolve, hh]
        rw [if_pos hq, ht]
        exact ⟨hi.1, fun _ => .inl ⟨h1, h2, h3, h4, h5, h6, fun _ => rfl, h8, by simp⟩, fun k => absurd (hh.symm.trans k) (by simp)⟩
    · exact absurd (by simp [over, h, handler]) ho
  | inr hh =>
    have hf := hi.2.2 hh
    have rd : ∀ n, handler c.ses.phase = some n → calls c.ses.phase = true → RInv n c → (∀ c', c'.ses.phase = c.ses.phase → RInv n c' → Fits c' c'.ses.phase) →
        Inv (if c.qR then callCb { c with qR := false } c.t.rcb else if c.qW then callCb { c with qW := false } c.t.wcb else c) := by
      intro n hn hc h hF
      have h0 := h
      obtain ⟨k1, k2, k3, k4⟩ := h
      obtain ⟨k4, k5, k6⟩ := k4 ha
      cases Bool.eq_false_or_eq_true c.qR with
      | inl hq =>
        have ht : callCb { c with qR := false } c.t.rcb = { c with qR := false, active := true } := by
          simp [callCb, k1, resolve, hh, hn, hc]
        rw [if_pos hq, ht]
        refine .of hi.1 hh (hF _ rfl ⟨k1, k2, fun _ => ⟨rfl, ?_⟩, by simp⟩)
        rcases k4 with k4 | k4
        · exact k6 k4.1
        · have := (k5 k4.1).2; rw [hq] at this; cases this
      | inr hq =>
        cases Bool.eq_false_or_eq_true c.qW with
        | inr hw => simp only [hq, hw]; exact hi
        | inl hw =>
          have hwt : c.wait = true := by
            cases e : c.wait with
            | true => rfl
            | false => have := k6 e; rw [hw] at this; cases this
          have ht : callCb { c with qW := false } c.t.wcb = { c with qW := false, active := true } := by
            simp [callCb, (k5 hwt).1, resolve, k1, hh, hn, hc]
          rw [if_neg (by simp [hq]), if_pos hw, ht]
          exact .of hi.1 hh (hF _ rfl ⟨k1, k2, fun _ => ⟨hq, rfl⟩, by simp⟩)
    have wr : ∀ n, handler c.ses.phase = some n → calls c.ses.phase = true → WInv n c →
        (∀ c', c'.ses.phase = c.ses.phase → WInv n c' → c'.qR = false → Fits c' c'.ses.phase) →
        Inv (if c.qR then callCb { c with qR := false } c.t.rcb else if c.qW then callCb { c with qW := false } c.t.wcb else c) := by
      intro n hn hc h hF
      have h0 := h
      obtain ⟨k1, k2, k3, k4, k5, t0, ws, j1, j2, j3, j4, j5⟩ := h
      obtain ⟨k5, k6, k7⟩ := k5 ha
      cases Bool.eq_false_or_eq_true c.qR with
      | inl hq =>
        rcases k3 with e | e
        · have ht : callCb { c with qR := false } c.t.rcb = { c with qR := false } := by simp [callCb, e]
          rw [if_pos hq, ht]
          refine .of hi.1 hh (hF _ rfl ⟨k1, k2, .inl e, ?_, ?_, t0, ws, j1, j2, j3, j4, j5⟩ rfl)
          · intro k; exact absurd (ha.symm.trans k) (by simp)
          · intro _
            refine ⟨?_, by simp, fun k => absurd ((k7 k).1.symm.trans e) (by simp)⟩
            rcases k5 with k | k
            · exact absurd ((k7 k.1).1.symm.trans e) (by simp)
            · exact .inr k
        · have ht : callCb { c with qR := false } c.t.rcb = { c with qR := false, active := true } := by
            simp [callCb, e, resolve, k1, hh, hn, hc]
          rw [if_pos hq, ht]
          refine .of hi.1 hh (hF _ rfl ⟨k1, k2, .inr e, ?_, by simp, t0, ws, j1, j2, j3, j4, by simp⟩ rfl)
          intro _
          refine ⟨?_, by simp⟩
          cases Bool.eq_false_or_eq_true c.wait with
          | inr hw => exact (k7 hw).2
          | inl hw => exact absurd ((k6 hw hq).symm.trans e) (by simp)
      | inr hq =>
        cases Bool.eq_false_or_eq_true c.qW with
        | inr hw => simp only [hq, hw]; exact hi
        | inl hw =>
          have ht : callCb { c with qW := false } c.t.wcb = { c with qW := false, active := true } := by
            simp [callCb, k1, resolve, hh, hn, hc]
          rw [if_neg (by simp [hq]), if_pos hw, ht]
          exact .of hi.1 hh (hF _ rfl ⟨k1, k2, k3, fun _ => ⟨rfl, by simp [hq]⟩, by simp, t0, ws, j1, j2, j3, j4, by simp⟩ hq)
    cases e : c.ses.phase with
    | auth b => rw [e] at hf; exact rd 11 (by rw [e]; rfl) (by rw [e]; rfl) hf (fun c' k h => by rw [k, e]; exact h)
    | greet p f => rw [e] at hf; exact rd 12 (by rw [e]; rfl) (by rw [e]; rfl) hf (fun c' k h => by rw [k, e]; exact h)
    | greetRsp u => rw [e] at hf; exact wr 13 (by rw [e]; rfl) (by rw [e]; rfl) hf.1 (fun c' k h q => by rw [k, e]; exact ⟨h, fun _ => q⟩)
    | request p f => rw [e] at hf; exact rd 14 (by rw [e]; rfl) (by rw [e]; rfl) hf (fun c' k h => by rw [k, e]; exact h)
    | connect a =>
      rw [e] at hf
      obtain ⟨k1, k2, k3, k4, k5, k6, k7⟩ := hf
      cases Bool.eq_false_or_eq_true c.qR with
      | inr hq => simp only [hq, k6]; exact hi
      | inl hq =>
        have ht : callCb { c with qR := false } c.t.rcb = { c with qR := false, active := false } := by
          simp [callCb, k1, resolve, hh, handler, calls, e]
        rw [if_pos hq, ht]
        exact .of hi.1 hh (by simp only [e]; exact ⟨k1, k2, k3, k4, k5, k6, rfl⟩)
    | reply u => rw [e] at hf; exact wr 2 (by rw [e]; rfl) (by rw [e]; rfl) hf (fun c' k h q => by rw [k, e]; exact h)
    | relay => exact absurd (by simp [over, e, handler]) ho
    | closed => exact absurd (by simp [over, e, handler]) ho
    | crash => exact absurd (by simp [over, e, handler]) ho

theorem Due.mono {c : C} (h : Due c) (x y : Bool) : Due { c with aR := c.aR || x, aW := c.aW || y } := by
  rcases h with ⟨h1, h2, h3 | h3⟩ | ⟨h1, h2, h3 | h3⟩ <;> simp [Due, h1, h2, h3]

theorem HInv.aR {c : C} (h : HInv c) (x y : Bool) : HInv { c with aR := c.aR || x, aW := c.aW || y } := by
  obtain ⟨h1, h2, h3, h4, h5, h6, h7, h8, h9⟩ := h
  exact ⟨h1, h2, h3, h4, h5, h6, h7, h8, fun k => by rcases h9 k with h | h <;> simp [h]⟩

theorem Fits.aR {c : C} {p : Phase} (h : Fits c p) (x y : Bool) : Fits { c with aR := c.aR || x, aW := c.aW || y } p := by
  cases p <;> simp only [Fits] at h ⊢
  · exact ⟨h.1, h.2.1, h.2.2.1, fun k => ⟨(h.2.2.2 k).1.mono x y, (h.2.2.2 k).2⟩⟩
  · exact ⟨h.1, h.2.1, h.2.2.1, fun k => ⟨(h.2.2.2 k).1.mono x y, (h.2.2.2 k).2⟩⟩
  · obtain ⟨⟨k1, k2, k3, k4, k5, k6⟩, h⟩ := h
    exact ⟨⟨k1, k2, k3, k4, fun k => ⟨(k5 k).1.mono x y, (k5 k).2⟩, k6⟩, h⟩
  · exact ⟨h.1, h.2.1, h.2.2.1, fun k => ⟨(h.2.2.2 k).1.mono x y, (h.2.2.2 k).2⟩⟩
  · exact h
  · obtain ⟨k1, k2, k3, k4, k5, k6⟩ := h
    exact ⟨k1, k2, k3, k4, fun k => ⟨(k5 k).1.mono x y, (k5 k).2⟩, k6⟩
  · exact h

/-- New readiness. -/
theorem Inv.ready {c : C} (hi : Inv c) (x y : Bool) : Inv { c with aR := c.aR || x, aW := c.aW || y } :=
  ⟨hi.1, fun k => (hi.2.1 k).imp (fun h => h.aR x y) id, fun k => (hi.2.2 k).aR x y⟩

/-- What `epoll` reports. -/
def told (c : C) (r w : Bool) : C :=
  { c with qR := c.qR || (r && c.aR && c.t.opt.r), aR := c.aR && !(r && c.t.opt.r),
           qW := c.qW || (w && c.aW && c.t.opt.w), aW := c.aW && !(w && c.t.opt.w) }

theorem Due.told {c : C} (h : Due c) (r w : Bool) : Due (told c r w) := by
  rcases h with ⟨h1, h2, h3 | h3⟩ | ⟨h1, h2, h3 | h3⟩ <;> cases r <;> cases w <;> simp [Due, TlsServe.told, h1, h2, h3]

theorem RInv.told {n : Nat} {c : C} (h : RInv n c) (ha : c.active = false) (r w : Bool) : RInv n (told c r w) := by
  obtain ⟨h1, h2, h3, h4⟩ := h
  obtain ⟨h4, h5, h6⟩ := h4 ha
  refine ⟨h1, h2, fun k => absurd (ha.symm.trans k) (by simp), fun _ => ⟨h4.told r w, ?_, ?_⟩⟩
  · intro k
    refine ⟨(h5 k).1, ?_⟩
    rcases h4 with h4 | h4
    · exact absurd (h4.1.symm.trans k) (by simp)
    · simp [TlsServe.told, h4.2.1, (h5 k).2]
  · intro k
    rcases h4 with h4 | h4
    · simp [TlsServe.told, h4.2.1, h6 k]
    · exact absurd (h4.1.symm.trans k) (by simp)

theorem WInv.told {n : Nat} {c : C} (h : WInv n c) (ha : c.active = false) (r w : Bool) : WInv n (told c r w) := by
  obtain ⟨h1, h2, h3, h4, h5, h6⟩ := h
  obtain ⟨h5, h7, h8⟩ := h5 ha
  refine ⟨h1, h2, h3, fun k => absurd (ha.symm.trans k) (by simp), fun _ => ⟨h5.told r w, ?_, ?_⟩, h6⟩
  · intro k q
    rcases h5 with h5 | h5
    · exact absurd (h5.1.symm.trans k) (by simp)
    · simp only [TlsServe.told, h5.2.1, Bool.and_false, Bool.or_false] at q
      exact h7 k q
  · intro k
    refine ⟨(h8 k).1, ?_⟩
    rcases h5 with h5 | h5
    · simp [TlsServe.told, h5.2.1, (h8 k).2]
    · exact absurd (h5.1.symm.trans k) (by simp)

theorem Inv.told {c : C} (hi : Inv c) (ho : ¬ over c = true) (ha : c.active = false) (r w : Bool) : Inv (told c r w) := by
  refine ⟨hi.1, fun k => (hi.2.1 k).imp (fun h => ?_) id, fun k => ?_⟩
  · obtain ⟨h1, h2, h3, h4, h5, h6, h7, h8, h9⟩ := h
    refine ⟨h1, h2, h3, h4, h5, by simp [TlsServe.told, h4, h6], fun k => absurd (ha.symm.trans k) (by simp), h8, fun k => ?_⟩
    rcases h9 k with h | h <;> cases r <;> simp [TlsServe.told, h, h4]
  · have hf := hi.2.2 k
    change Fits (TlsServe.told c r w) c.ses.phase
    cases e : c.ses.phase <;> rw [e] at hf
    · exact RInv.told hf ha r w
    · exact RInv.told hf ha r w
    · refine ⟨hf.1.told ha r w, fun k => ?_⟩
      have k : c.wait = true := by
        rcases k with k | k
        · exact absurd (ha.symm.trans k) (by simp)
        · exact k
      have hd := (hf.1.2.2.2.2.1 ha).1
      rcases hd with hd | hd
      · exact absurd (hd.1.symm.trans k) (by simp)
      · simp [TlsServe.told, hd.2.1, hf.2 (.inr k)]
    · exact RInv.told hf ha r w
    · obtain ⟨h1, h2, h3, h4, h5, h6, h7⟩ := hf
      exact ⟨h1, h2, h3, h4, h5, by simp [TlsServe.told, h5, h6], h7⟩
    · exact WInv.told hf ha r w
    · exact absurd (by simp [over, e, handler]) ho
    · trivial
    · trivial

theorem Inv.connected {c : C} (hi : Inv c) (a : S5.Action) (hp : c.ses.phase = .connect a) (ip : List UInt8) :
    Inv (advance c c.t (Serve.step admit c.ses (.connected ip))) := by
  cases Bool.eq_false_or_eq_true c.hs with
  | inl hh =>
    rcases hi.2.1 hh with h | h
    · have := h.1; rw [hp] at this; cases this
    · rw [hp] at h; cases h
  | inr hh =>
    have hf := hi.2.2 hh
    rw [hp] at hf
    obtain ⟨k1, k2, k3, k4, k5, k6, k7⟩ := hf
    obtain ⟨x, y, e⟩ := advance_eq c c.t (Serve.step admit c.ses (.connected ip))
    rw [e]
    have hn : (Serve.step admit c.ses (.connected ip)).phase = .reply (established a ip) := by simp only [Serve.step, hp]
    refine .of hi.1 hh ?_
    simp only [hn, hp, Fits, enter, handler, calls, WInv, Typ, k4, k5, k6]
    simp
    exact ⟨{ c.t with rcb := none, wcb := some (.app 2) }, k3, rfl, [], by simp, by simp [k4, k5]⟩

theorem Inv.step {c : C} (hi : Inv c) (e : Ev) (hx : c.hs = true → e ≠ .call .waitW) : Inv (step admit c e) := by
  cases e with
  | arrive r =>
    have := hi.ready true false
    simp only [Bool.or_true, Bool.or_false] at this
    refine ⟨this.1, fun k => (this.2.1 k).imp (fun h => ?_) id, fun k => ?_⟩
    · exact h
    · have hf := this.2.2 k
      simp only [TlsServe.step, Serve.step] at hf ⊢
      generalize c.ses.phase = p at hf ⊢
      cases p <;> exact hf
  | edge r w => exact hi.ready r w
  | report r w =>
    simp only [TlsServe.step]
    split
    · exact hi
    · next h =>
      simp only [Bool.or_eq_true, not_or, Bool.not_eq_true] at h
      exact hi.told (by simp [h.1]) h.2 r w
  | dispatch =>
    simp only [TlsServe.step]
    split
    · exact hi
    · next h =>
      simp only [Bool.or_eq_true, not_or, Bool.not_eq_true] at h
      exact hi.dispatch (by simp [h.1]) h.2
  | call x =>
    simp only [TlsServe.step]
    split
    · exact hi
    · next h =>
      simp only [Bool.or_eq_true, not_or, Bool.not_eq_true, Bool.not_eq_true'] at h
      exact hi.call (by simp [h.1]) (by simpa using h.2) x (fun k e => hx k (by rw [e]))
  | connected ip =>
    simp only [TlsServe.step]
    split
    · next a hp =>
      split
      · exact hi
      · exact hi.connected a hp ip
    · exact hi
  | refused =>
    simp only [TlsServe.step]
    split
    · split
      · exact hi
      · exact hi.close
    · exact hi
  | expire =>
    simp only [TlsServe.step]
    split
    · exact hi
    · exact hi.close

theorem Inv.run {c : C} (hi : Inv c) (es : List Ev) (hx : HandshakeReads admit c es) : Inv (run admit c es) := by
  induction es generalizing c with
  | nil => exact hi
  | cons e es ih => exact ih (hi.step e hx.1) hx.2

theorem inv_init : Inv init := by
  refine ⟨rfl, fun _ => .inl ?_, fun k => by cases k⟩
  simp [HInv, init, Serve.init, Ssl.maskR]

/-- Before and after a reply that is written at once. -/
def Next (c : C) : Prop :=
  (∀ u, c.ses.phase = .reply u → c.t.ccw = none) ∧
  (c.ses.phase = .relay → ∃ t0 : Ssl.S, t0.ccw = none ∧ c.t = { Ssl.write t0 .ok with rcb := some (.app 16), wcb := none })

theorem t_callCb (c : C) (cb : Option Ssl.Cb) : (callCb c cb).t = c.t := by unfold callCb; (repeat' split) <;> rfl

theorem Next.other {c : C} (h1 : ∀ u, c.ses.phase ≠ .reply u) (h2 : c.ses.phase ≠ .relay) : Next c := ⟨fun u k => absurd k (h1 u), fun k => absurd k h2⟩

theorem next_recv {c : C} (x : Io) (hp : (∃ b, c.ses.phase = .auth b) ∨ (∃ p f, c.ses.phase = .greet p f) ∨ (∃ p f, c.ses.phase = .request p f)) :
    Next (recv admit c x) := by
  have blk : ∀ s w, Next (block c s w) := by
    intro s w
    apply Next.other <;> rw [ses_block] <;> rcases hp with ⟨b, e⟩ | ⟨p, f, e⟩ | ⟨p, f, e⟩ <;> simp [e]
  cases x with
  | go =>
    simp only [recv]
    split
    · exact blk _ _
    · next hs =>
      rcases hp with ⟨b, e⟩ | ⟨p, f, e⟩ | ⟨p, f, e⟩
      · rcases read_auth (admit := admit) c.ses b e hs with ⟨b', k⟩ | ⟨p, f, k⟩ | k <;> apply Next.other <;> rw [ses_advance, k] <;> simp
      · rcases read_greet (admit := admit) c.ses p f e hs with ⟨p, f, k⟩ | ⟨u, k⟩ | k <;> apply Next.other <;> rw [ses_advance, k] <;> simp
      · rcases read_request (admit := admit) c.ses p f e hs with ⟨p, f, k⟩ | ⟨u, k⟩ | k | k <;> apply Next.other <;> rw [ses_advance, k] <;> simp
  | waitR => exact blk _ _
  | waitW => exact blk _ _
  | fail => exact Next.other (by simp [recv, close]) (by simp [recv, close])

theorem next_shake {c : C} (x : Io) (hp : c.ses.phase = .auth []) : Next (shake c x) := by
  cases x with
  | go =>
    have := shake_ses (admit := fun _ => true) c .go (by simp [hp])
    simp at this
    exact Next.other (by simp [this, hp]) (by simp [this, hp])
  | waitR => exact Next.other (by simp [shake, hp]) (by simp [shake, hp])
  | waitW => exact Next.other (by simp [shake, hp]) (by simp [shake, hp])
  | fail => exact Next.other (by simp [shake, close]) (by simp [shake, close])

theorem next_call {c : C} (hi : Inv c) (ho : over c = false) (ha : c.active = true) (k1 : ∀ u, c.ses.phase = .reply u → c.t.ccw = none)
    (x : Io) (hx : ∀ u, c.ses.phase = .reply u → x ≠ .waitR ∧ x ≠ .waitW) : Next (call admit c x) := by
  unfold call
  split
  · next hh =>
    rcases hi.2.1 hh with k | k
    · exact next_shake x k.1
    · rw [over, k] at ho; simp [handler] at ho
  · next hh =>
    have hh : c.hs = false := by simpa using hh
    split
    · next u e =>
      cases x with
      | go => exact Next.other (by simp [send, write_greet (admit := admit) c.ses u e]) (by simp [send, write_greet (admit := admit) c.ses u e])
      | waitR => exact Next.other (by simp [send, e]) (by simp [send, e])
      | waitW => exact Next.other (by simp [send, e]) (by simp [send, e])
      | fail => exact Next.other (by simp [send]) (by simp [send])
    · next u e =>
      cases x with
      | go =>
        have hw := write_reply (admit := admit) c.ses u e
        obtain ⟨a, b, k⟩ := advance_eq c (Ssl.write c.t .ok) (Serve.step admit c.ses (.write u.length))
        simp only [send]
        rw [k]
        refine ⟨fun u' k => absurd k (by simp [hw]), fun _ => ⟨c.t, k1 u e, ?_⟩⟩
        simp only [hw, e, enter, handler]; rfl
      | waitR => exact absurd rfl (hx u e).1
      | waitW => exact absurd rfl (hx u e).2
      | fail => exact Next.other (by simp [send]) (by simp [send])
    · next n1 n2 =>
      cases e : c.ses.phase with
      | auth b => exact next_recv x (.inl ⟨b, e⟩)
      | greet p f => exact next_recv x (.inr (.inl ⟨p, f, e⟩))
      | greetRsp u => exact absurd e (n1 u)
      | request p f => exact next_recv x (.inr (.inr ⟨p, f, e⟩))
      | connect a => have hf := hi.2.2 hh; rw [e] at hf; exact absurd (ha.symm.trans hf.2.2.2.2.2.2) (by decide)
      | reply u => exact absurd e (n2 u)
      | relay => rw [over, e] at ho; simp [handler] at ho
      | closed => rw [over, e] at ho; simp [handler] at ho
      | crash => rw [over, e] at ho; simp [handler] at ho

/-- The same when the reply was written without a wait. -/
theorem relay_at_once (es : List Ev) (h : HandshakeReads admit init es) (hr : ReplyAtOnce admit init es) (hp : (run admit init es).ses.phase = .relay) :
    ∃ t0 : Ssl.S, t0.ccw = none ∧
      ∀ srcA dstA srcB dstB, TlsRelay.start false (run admit init es).t [] [] srcA dstA srcB dstB = TlsRelay.start false t0 [.ok] [] srcA dstA srcB dstB := by
  have key : ∀ (es : List Ev) (c : C), Inv c → HandshakeReads admit c es → ReplyAtOnce admit c es →
      (∀ u, c.ses.phase = .reply u → c.t.ccw = none) →
      (c.ses.phase = .relay → ∃ t0 : Ssl.S, t0.ccw = none ∧ c.t = { Ssl.write t0 .ok with rcb := some (.app 16), wcb := none }) →
      (run admit c es).ses.phase = .relay →
      ∃ t0 : Ssl.S, t0.ccw = none ∧ (run admit c es).t = { Ssl.write t0 .ok with rcb := some (.app 16), wcb := none } := by
    intro es
    induction es with
    | nil => intro c _ _ _ _ k2 k3; exact k2 k3
    | cons e es ih =>
      intro c hi h hr k1 k2
      have old : (step admit c e).ses.phase = c.ses.phase → (step admit c e).t = c.t → Next (step admit c e) := by
        intro a b; simp only [Next]; rw [a, b]; exact ⟨k1, k2⟩
      have : Next (step admit c e) := by
        cases e with
        | arrive r => exact old rfl rfl
        | edge r w => exact old rfl rfl
        | report r w => apply old <;> simp only [step] <;> split <;> rfl
        | dispatch => apply old <;> simp only [step] <;> (repeat' split) <;> first | rfl | simp | simp only [t_callCb]
        | refused =>
          simp only [step]
          split
          · split
            · exact ⟨k1, k2⟩
            · exact Next.other (by simp) (by simp)
          · exact ⟨k1, k2⟩
        | expire =>
          simp only [step]
          split
          · exact ⟨k1, k2⟩
          · exact Next.other (by simp) (by simp)
        | connected ip =>
          simp only [step]
          split
          · next a ha =>
            split
            · exact ⟨k1, k2⟩
            · have hn : (Serve.step admit c.ses (.connected ip)).phase = .reply (established a ip) := by simp only [Serve.step, ha]
              have hh : c.hs = false := by
                cases Bool.eq_false_or_eq_true c.hs with
                | inl hh =>
                  rcases hi.2.1 hh with k | k
                  · have := k.1; rw [ha] at this; cases this
                  · rw [ha] at k; cases k
                | inr hh => exact hh
              have hf := hi.2.2 hh
              rw [ha] at hf
              obtain ⟨x, y, e⟩ := advance_eq c c.t (Serve.step admit c.ses (.connected ip))
              rw [e]
              refine ⟨fun u _ => ?_, fun k => ?_⟩
              · simp only [hn, ha, enter, handler]; exact hf.2.2.1
              · simp only [hn] at k; cases k
          · exact ⟨k1, k2⟩
        | call x =>
          simp only [step]
          split
          · exact ⟨k1, k2⟩
          · next ho =>
            simp only [Bool.or_eq_true, not_or, Bool.not_eq_true, Bool.not_eq_true'] at ho
            exact next_call hi ho.1 (by simpa using ho.2) k1 x (fun u k => by simpa using hr.1 ⟨u, k⟩)
      exact ih _ (hi.step e h.1) h.2 hr.2 this.1 this.2
  obtain ⟨t0, k1, k2⟩ := key es init inv_init h hr (fun u k => by cases k) (fun k => by cases k) hp
  exact ⟨t0, k1, fun _ _ _ _ => by rw [k2]; rfl⟩

/-! ### A handshake that waits for writability -/

/-- `k` waits of the handshake for readability, each followed by the next call. -/
def waits (k : Nat) : List Ev := (List.replicate k [Ev.call .waitR, .edge true true, .report true true, .dispatch]).flatten

/-- The connection while the handshake goes on, `w`: after a wait. -/
def shaking (w : Bool) : C :=
  { init with
    t := if w then ⟨Ssl.maskR, some .hs, none, Ssl.maskR, some (.app 10), none⟩ else init.t
    active := true, aR := false, aW := w }

theorem run_waits (k : Nat) (w : Bool) : run admit (shaking w) (waits k) = shaking (w || decide (0 < k)) := by
  induction k generalizing w with
  | zero => simp [waits, run]
  | succ k ih =>
    have h1 : run admit (shaking w) [.call .waitR, .edge true true, .report true true, .dispatch] = shaking true := by cases w <;> rfl
    have h2 : waits (k + 1) = [Ev.call .waitR, .edge true true, .report true true, .dispatch] ++ waits k := by simp [waits, List.replicate_succ]
    rw [h2]
    simp only [run, List.foldl_append] at h1 ih ⊢
    rw [h1, ih true]
    simp

end Verif.TlsServe
