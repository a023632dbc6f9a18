import Verif.Spec.TlsClient
import Verif.Proofs.TlsRelay
/-
Lemmas about sessions of the tunnel client on top of TLS: the callbacks fit the phase; the local program's bytes are kept.
-/
namespace Verif.TlsClient
open Verif Verif.Spec.TlsClient
open Verif.TlsRelay (Rd pushBack)
open Verif.Spec.TlsRelay (streamOf)

variable {key : List UInt8}

/-! ### The callbacks -/

/-- What the last call waits for is registered and going to be reported, or reported already. -/
def Due (c : C) : Prop :=
  (c.wait = false ∧ c.t.opt = ⟨true, false⟩ ∧ (c.aR = true ∨ c.qR = true) ∧ c.qW = false) ∨
  (c.wait = true ∧ c.t.opt = ⟨false, true⟩ ∧ (c.aW = true ∨ c.qW = true) ∧ c.qR = false)

/-- While the connection is established. -/
def KInv (c : C) : Prop := c.t = ⟨⟨false, true⟩, none, some (.app 20), ⟨false, false⟩, none, none⟩ ∧ c.qR = false ∧ (c.active = true → c.qW = false) ∧ (c.active = false → Due c)

/-- During the handshake. -/
def HInv (c : C) : Prop :=
  (c.active = true ∧ c.via = false ∧ c.t = ⟨⟨false, true⟩, none, some (.app 21), ⟨false, false⟩, none, none⟩ ∧ c.qR = false ∧ c.qW = false) ∨
  (c.t.typ = ⟨false, true⟩ ∧ c.t.ccw = some (.app 21) ∧ (c.t.ccr = none ∨ c.t.ccr = some .hs) ∧ (c.t.rcb = none ∨ c.t.rcb = some .hs) ∧
    (c.t.wcb = some (.app 21) ∨ c.t.wcb = some .hs) ∧ (c.active = true → c.via = true ∧ c.qR = false ∧ c.qW = false) ∧
    (c.active = false → Due c ∧ (c.wait = true → c.t.wcb = some .hs) ∧ (c.wait = false → c.t.rcb = some .hs)))

/-- While the header is written. -/
def AInv (c : C) : Prop :=
  c.t.wcb = some (.app 2) ∧ (c.t.rcb = none ∨ c.t.rcb = some .wr) ∧ (c.t.typ = ⟨false, false⟩ ∧ c.t.opt = ⟨false, true⟩ ∨ c.t.typ = ⟨false, true⟩) ∧
  (c.active = true → c.qR = false ∧ c.qW = false) ∧
  (c.active = false → Due c ∧ (c.wait = false → c.t.rcb = some .wr)) ∧
  ∃ (t0 : Ssl.S) (ws : List Ssl.Res), t0.ccw = none ∧ t0.wcb = some (.app 2) ∧ (∀ x ∈ ws, x = .wantR ∨ x = .wantW) ∧ c.t = ws.foldl Ssl.write t0

/-- When the relay begins. -/
def LInv (c : C) : Prop :=
  ∃ (t0 : Ssl.S) (ws : List Ssl.Res), t0.ccw = none ∧ t0.wcb = some (.app 2) ∧ (∀ x ∈ ws, x = .wantR ∨ x = .wantW) ∧ c.t = (ws ++ [Ssl.Res.ok]).foldl Ssl.write t0

/-- In phase `p`. -/
def Fits (c : C) : Phase → Prop
  | .conn => KInv c
  | .shake => HInv c
  | .auth => AInv c
  | .relay => LInv c
  | .closed _ => True

/-- The invariant. -/
def Inv (c : C) : Prop := c.bad = none ∧ Fits c c.phase

theorem inv_init (now : Bool) (src : List Rd) : Inv (init now src) := by
  cases now <;> simp [Inv, Fits, init, KInv, Due, Ssl.maskW, Event.Mask.none]

@[simp] theorem phase_mod (c : C) (s : Ssl.S) : (mod c s).phase = c.phase := by unfold mod; split <;> rfl
@[simp] theorem bad_mod (c : C) (s : Ssl.S) : (mod c s).bad = c.bad := by unfold mod; split <;> rfl
@[simp] theorem t_mod (c : C) (s : Ssl.S) : (mod c s).t = s := by unfold mod; split <;> rfl
@[simp] theorem qR_mod (c : C) (s : Ssl.S) : (mod c s).qR = c.qR := by unfold mod; split <;> rfl
@[simp] theorem qW_mod (c : C) (s : Ssl.S) : (mod c s).qW = c.qW := by unfold mod; split <;> rfl
@[simp] theorem active_mod (c : C) (s : Ssl.S) : (mod c s).active = c.active := by unfold mod; split <;> rfl
@[simp] theorem via_mod (c : C) (s : Ssl.S) : (mod c s).via = c.via := by unfold mod; split <;> rfl

theorem due_block {c : C} {s : Ssl.S} {w : Bool} (h : s.opt = if w then ⟨false, true⟩ else ⟨true, false⟩) (hr : c.qR = false) (hw : c.qW = false) :
    Due (block c s w) := by
  cases w <;> simp_all [Due, block]

theorem inv_begin {c : C} {s : Ssl.S} (hb : c.bad = none) (ha : c.active = true) (hr : c.qR = false) (hw : c.qW = false) (hc : s.ccw = none)
    (ht : s.typ = ⟨false, false⟩ ∧ s.opt = ⟨false, true⟩ ∨ s.typ = ⟨false, true⟩) : Inv (begin c s) := by
  refine ⟨by simp [begin, hb], ?_⟩
  simp only [begin, Fits, AInv]
  refine ⟨by simp, by simp, by simpa using ht, by simp [hr, hw], by simp [ha], _, [], ?_, ?_, by simp, rfl⟩ <;> simp [hc]

theorem inv_shake {c : C} (hb : c.bad = none) (hp : c.phase = .shake) (ha : c.active = true) (h : HInv c) (x : Io) : Inv (shake c x) := by
  cases x with
  | go =>
    simp only [shake]
    rcases h with ⟨-, hv, ht, hr, hw⟩ | ⟨h1, h2, h3, h4, h5, h6, -⟩
    · rw [if_neg (by simp [hv])]
      exact inv_begin hb ha hr hw (by simp [ht]) (by simp [ht])
    · obtain ⟨hv, hr, hw⟩ := h6 ha
      rw [if_pos hv]
      have e1 : (Ssl.handshakeDone c.t).wcb = some (.app 21) ∧ (Ssl.handshakeDone c.t).ccw = none ∧ (Ssl.handshakeDone c.t).typ = ⟨false, true⟩ := by
        simp only [Ssl.handshakeDone, Ssl.restoreR, Ssl.restoreW, h1]
        simp only [Event.Mask.none]
        rcases h3 with h3 | h3 <;> simp [h2, h3]
      have e2 : Ssl.handshakeNext (Ssl.handshakeDone c.t) = some (.app 21) := by simp [Ssl.handshakeNext, e1]
      simp only [e2]
      exact inv_begin hb ha hr hw e1.2.1 (.inr e1.2.2)
  | waitR =>
    have q : c.qR = false ∧ c.qW = false := by
      rcases h with ⟨-, -, -, hr, hw⟩ | ⟨-, -, -, -, -, h6, -⟩
      · exact ⟨hr, hw⟩
      · exact (h6 ha).2
    refine ⟨by simp [shake, block, hb], ?_⟩
    have hd := due_block (c := c) (s := Ssl.handshake c.t .wantR) (w := false) rfl q.1 q.2
    simp only [shake, block, phase_mod, hp, Fits, HInv] at hd ⊢
    right
    rcases h with ⟨-, hv, ht, hr, hw⟩ | ⟨h1, h2, h3, h4, h5, h6, -⟩
    · simp [Ssl.handshake, Ssl.cache, ht, Event.Mask.none] at hd ⊢
      exact hd
    · refine ⟨?_, ?_, ?_, ?_, ?_, by simp, fun _ => ⟨hd, by simp, by simp [Ssl.handshake]⟩⟩
      · simp [Ssl.handshake, Ssl.cache, h1, Event.Mask.none]
      · simp [Ssl.handshake, Ssl.cache, h2]
      · rcases h3 with h3 | h3 <;> rcases h4 with h4 | h4 <;> simp [Ssl.handshake, Ssl.cache, h3, h4]
      · simp [Ssl.handshake]
      · simpa [Ssl.handshake, Ssl.cache] using h5
  | waitW =>
    have q : c.qR = false ∧ c.qW = false := by
      rcases h with ⟨-, -, -, hr, hw⟩ | ⟨-, -, -, -, -, h6, -⟩
      · exact ⟨hr, hw⟩
      · exact (h6 ha).2
    refine ⟨by simp [shake, block, hb], ?_⟩
    have hd := due_block (c := c) (s := Ssl.handshake c.t .wantW) (w := true) rfl q.1 q.2
    simp only [shake, block, phase_mod, hp, Fits, HInv] at hd ⊢
    right
    rcases h with ⟨-, hv, ht, hr, hw⟩ | ⟨h1, h2, h3, h4, h5, h6, -⟩
    · simp [Ssl.handshake, Ssl.cache, ht, Event.Mask.none] at hd ⊢
      exact hd
    · refine ⟨?_, ?_, ?_, ?_, ?_, by simp, fun _ => ⟨hd, by simp [Ssl.handshake], by simp⟩⟩
      · simp [Ssl.handshake, Ssl.cache, h1, Event.Mask.none]
      · simp [Ssl.handshake, Ssl.cache, h2]
      · rcases h3 with h3 | h3 <;> rcases h4 with h4 | h4 <;> simp [Ssl.handshake, Ssl.cache, h3, h4]
      · simpa [Ssl.handshake, Ssl.cache] using h4
      · simp [Ssl.handshake]
  | fail => exact ⟨hb, trivial⟩

theorem inv_auth {c : C} (hb : c.bad = none) (hp : c.phase = .auth) (ha : c.active = true) (h : AInv c) (x : Io) : Inv (auth key c x) := by
  obtain ⟨h1, h2, h3, h4, -, t0, ws, k1, k2, k3, k4⟩ := h
  obtain ⟨hr, hw⟩ := h4 ha
  have typ : (Ssl.cache c.t).typ = ⟨false, true⟩ := by
    rcases h3 with ⟨h3, h5⟩ | h3 <;> simp [Ssl.cache, h3, Event.Mask.none]
    exact h5
  have wait : ∀ x, x = Ssl.Res.wantR ∨ x = Ssl.Res.wantW →
      ∃ (t0 : Ssl.S) (ws : List Ssl.Res), t0.ccw = none ∧ t0.wcb = some (.app 2) ∧ (∀ x ∈ ws, x = .wantR ∨ x = .wantW) ∧ Ssl.write c.t x = ws.foldl Ssl.write t0 := by
    intro x hx
    refine ⟨t0, ws ++ [x], k1, k2, ?_, by rw [List.foldl_append, ← k4]; rfl⟩
    intro y hy
    rcases List.mem_append.1 hy with hy | hy
    · exact k3 y hy
    · rw [List.mem_singleton.1 hy]; exact hx
  cases x with
  | go =>
    refine ⟨by simp [auth, hb], ?_⟩
    simp only [auth, Fits, LInv]
    exact ⟨t0, ws, k1, k2, k3, by rw [List.foldl_append, ← k4, t_mod]; rfl⟩
  | waitR =>
    refine ⟨by simp [auth, block, hb], ?_⟩
    have hd := due_block (c := c) (s := Ssl.write c.t .wantR) (w := false) rfl hr hw
    simp only [auth, block, phase_mod, hp, Fits, AInv] at hd ⊢
    refine ⟨?_, ?_, ?_, by simp, fun _ => ⟨hd, by simp [Ssl.write]⟩, by simpa using wait _ (.inl rfl)⟩
    · simpa [Ssl.write, Ssl.cache] using h1
    · simp [Ssl.write]
    · right; simpa [Ssl.write] using typ
  | waitW =>
    refine ⟨by simp [auth, block, hb], ?_⟩
    have hd := due_block (c := c) (s := Ssl.write c.t .wantW) (w := true) rfl hr hw
    simp only [auth, block, phase_mod, hp, Fits, AInv] at hd ⊢
    refine ⟨?_, ?_, ?_, by simp, fun _ => ⟨hd, by simp⟩, by simpa using wait _ (.inr rfl)⟩
    · simpa [Ssl.write, Ssl.cache] using h1
    · simpa [Ssl.write, Ssl.cache] using h2
    · right; simpa [Ssl.write] using typ
  | fail => exact ⟨hb, trivial⟩

/-- A change that leaves alone what the invariant is about. -/
theorem Inv.same {c d : C} (h : Inv c) (h1 : d.bad = c.bad) (h2 : d.phase = c.phase) (h3 : d.t = c.t) (h4 : d.active = c.active) (h5 : d.via = c.via)
    (h6 : c.active = true → d.qR = c.qR ∧ d.qW = c.qW) (h7 : c.active = false → Due c → Due d) (h8 : d.wait = c.wait) : Inv d := by
  obtain ⟨hb, hf⟩ := h
  refine ⟨by rw [h1, hb], ?_⟩
  rw [h2]
  cases hp : c.phase with
  | conn =>
    rw [hp] at hf
    obtain ⟨k1, k2, k3, k4⟩ := hf
    cases Bool.eq_false_or_eq_true c.active with
    | inl ha =>
      obtain ⟨q1, q2⟩ := h6 ha
      exact ⟨by rw [h3, k1], by rw [q1, k2], fun _ => by rw [q2, k3 ha], fun e => absurd e (by rw [h4, ha]; simp)⟩
    | inr ha =>
      have hd := h7 ha (k4 ha)
      refine ⟨by rw [h3, k1], ?_, fun e => absurd e (by rw [h4, ha]; simp), fun _ => hd⟩
      rcases hd with ⟨-, e, -⟩ | ⟨-, -, -, e⟩
      · rw [h3, k1] at e; simp at e
      · exact e
  | shake =>
    rw [hp] at hf
    rcases hf with ⟨k1, k2, k3, k4, k5⟩ | ⟨k1, k2, k3, k4, k5, k6, k7⟩
    · obtain ⟨q1, q2⟩ := h6 k1
      exact .inl ⟨by rw [h4, k1], by rw [h5, k2], by rw [h3, k3], by rw [q1, k4], by rw [q2, k5]⟩
    · refine .inr ⟨by rw [h3, k1], by rw [h3, k2], by rw [h3]; exact k3, by rw [h3]; exact k4, by rw [h3]; exact k5, ?_, ?_⟩
      · intro e; rw [h4] at e
        obtain ⟨q1, q2⟩ := h6 e
        rw [h5, q1, q2]; exact k6 e
      · intro e; rw [h4] at e
        rw [h8, h3]
        exact ⟨h7 e (k7 e).1, (k7 e).2⟩
  | auth =>
    rw [hp] at hf
    obtain ⟨k1, k2, k3, k4, k5, k6⟩ := hf
    refine ⟨by rw [h3, k1], by rw [h3]; exact k2, by rw [h3]; exact k3, ?_, ?_, by rw [h3]; exact k6⟩
    · intro e; rw [h4] at e
      obtain ⟨q1, q2⟩ := h6 e
      rw [q1, q2]; exact k4 e
    · intro e; rw [h4] at e
      rw [h8, h3]
      exact ⟨h7 e (k5 e).1, (k5 e).2⟩
  | relay =>
    rw [hp] at hf
    simp only [Fits, LInv] at hf ⊢
    rw [h3]; exact hf
  | closed w => trivial

/-- What a dispatched event leads to when control is with the event loop: the handler of the phase runs, if the event is what is waited for. -/
theorem inv_dispatch {c : C} (h : Inv c) (ho : ¬ over c = true) (ha : c.active = false) :
    Inv (step key c .dispatch) ∧ (c.qR = true ∨ c.qW = true → (step key c .dispatch).active = true) ∧ (step key c .dispatch).phase = c.phase := by
  obtain ⟨hb, hf⟩ := h
  have hs : step key c .dispatch = (if c.qR = true then callCb { c with qR := false } c.t.rcb
      else if c.qW = true then callCb { c with qW := false } c.t.wcb else c) := by
    unfold step; rw [if_neg ho]; exact if_neg (by simp [ha])
  cases hp : c.phase with
  | conn =>
    rw [hp] at hf
    obtain ⟨k1, k2, k3, k4⟩ := hf
    have hd := k4 ha
    rw [if_neg (by simp [k2])] at hs
    cases Bool.eq_false_or_eq_true c.qW with
    | inl hw =>
      rw [if_pos hw] at hs
      have e : callCb { c with qW := false } c.t.wcb = { c with qW := false, active := true, via := false } := by
        simp [callCb, k1, resolve, handler, hp]
      rw [hs, e]
      exact ⟨⟨hb, by show Fits _ c.phase; rw [hp]; exact ⟨k1, k2, fun _ => rfl, fun e => absurd e (by simp)⟩⟩, fun _ => rfl, hp⟩
    | inr hw =>
      rw [if_neg (by simp [hw])] at hs; rw [hs]
      exact ⟨⟨hb, by rw [hp]; exact ⟨k1, k2, k3, k4⟩⟩, by simp [k2, hw], hp⟩
  | shake =>
    rw [hp] at hf
    rcases hf with ⟨k1, -⟩ | ⟨k1, k2, k3, k4, k5, k6, k7⟩
    · rw [ha] at k1; cases k1
    · obtain ⟨hd, m1, m2⟩ := k7 ha
      rcases hd with ⟨d1, d2, d3, d4⟩ | ⟨d1, d2, d3, d4⟩
      · cases Bool.eq_false_or_eq_true c.qR with
        | inl hq =>
          rw [if_pos hq] at hs
          have e : callCb { c with qR := false } c.t.rcb = { c with qR := false, active := true, via := true } := by
            simp [callCb, m2 d1, resolve, hp]
          rw [hs, e]
          exact ⟨⟨hb, by show Fits _ c.phase; rw [hp]; exact .inr ⟨k1, k2, k3, k4, k5, fun _ => ⟨rfl, rfl, d4⟩, fun e => absurd e (by simp)⟩⟩, fun _ => rfl, hp⟩
        | inr hq =>
          rw [if_neg (by simp [hq]), if_neg (by simp [d4])] at hs; rw [hs]
          exact ⟨⟨hb, by rw [hp]; exact .inr ⟨k1, k2, k3, k4, k5, k6, k7⟩⟩, by simp [hq, d4], hp⟩
      · rw [if_neg (by simp [d4])] at hs
        cases Bool.eq_false_or_eq_true c.qW with
        | inl hq =>
          rw [if_pos hq] at hs
          have e : callCb { c with qW := false } c.t.wcb = { c with qW := false, active := true, via := true } := by
            simp [callCb, m1 d1, resolve, hp]
          rw [hs, e]
          exact ⟨⟨hb, by show Fits _ c.phase; rw [hp]; exact .inr ⟨k1, k2, k3, k4, k5, fun _ => ⟨rfl, d4, rfl⟩, fun e => absurd e (by simp)⟩⟩, fun _ => rfl, hp⟩
        | inr hq =>
          rw [if_neg (by simp [hq])] at hs; rw [hs]
          exact ⟨⟨hb, by rw [hp]; exact .inr ⟨k1, k2, k3, k4, k5, k6, k7⟩⟩, by simp [hq, d4], hp⟩
  | auth =>
    rw [hp] at hf
    obtain ⟨k1, k2, k3, k4, k5, k6⟩ := hf
    obtain ⟨hd, m⟩ := k5 ha
    rcases hd with ⟨d1, d2, d3, d4⟩ | ⟨d1, d2, d3, d4⟩
    · cases Bool.eq_false_or_eq_true c.qR with
      | inl hq =>
        rw [if_pos hq] at hs
        have e : callCb { c with qR := false } c.t.rcb = { c with qR := false, active := true, via := false } := by
          simp [callCb, m d1, resolve, handler, hp, k1]
        rw [hs, e]
        exact ⟨⟨hb, by show Fits _ c.phase; rw [hp]; exact ⟨k1, k2, k3, fun _ => ⟨rfl, d4⟩, fun e => absurd e (by simp), k6⟩⟩, fun _ => rfl, hp⟩
      | inr hq =>
        rw [if_neg (by simp [hq]), if_neg (by simp [d4])] at hs; rw [hs]
        exact ⟨⟨hb, by rw [hp]; exact ⟨k1, k2, k3, k4, k5, k6⟩⟩, by simp [hq, d4], hp⟩
    · rw [if_neg (by simp [d4])] at hs
      cases Bool.eq_false_or_eq_true c.qW with
      | inl hq =>
        rw [if_pos hq] at hs
        have e : callCb { c with qW := false } c.t.wcb = { c with qW := false, active := true, via := false } := by
          simp [callCb, k1, resolve, handler, hp]
        rw [hs, e]
        exact ⟨⟨hb, by show Fits _ c.phase; rw [hp]; exact ⟨k1, k2, k3, fun _ => ⟨d4, rfl⟩, fun e => absurd e (by simp), k6⟩⟩, fun _ => rfl, hp⟩
      | inr hq =>
        rw [if_neg (by simp [hq])] at hs; rw [hs]
        exact ⟨⟨hb, by rw [hp]; exact ⟨k1, k2, k3, k4, k5, k6⟩⟩, by simp [hq, d4], hp⟩
  | relay => exact absurd (by simp [over, handler, hp]) ho
  | closed w => exact absurd (by simp [over, handler, hp]) ho

theorem Inv.step {c : C} (h : Inv c) (e : Ev) : Inv (step key c e) := by
  by_cases ho : over c = true
  · simp only [TlsClient.step, if_pos ho]; exact h
  cases e with
  | edge r w =>
    simp only [TlsClient.step, if_neg ho]
    refine h.same rfl rfl rfl rfl rfl (fun _ => ⟨rfl, rfl⟩) ?_ rfl
    rintro - (⟨h1, h2, h3, h4⟩ | ⟨h1, h2, h3, h4⟩)
    · exact .inl ⟨h1, h2, by rcases h3 with h3 | h3 <;> simp [h3], h4⟩
    · exact .inr ⟨h1, h2, by rcases h3 with h3 | h3 <;> simp [h3], h4⟩
  | report r w =>
    simp only [TlsClient.step, if_neg ho]
    split
    · exact h
    · next ha =>
      refine h.same rfl rfl rfl rfl rfl (fun e => absurd e ha) ?_ rfl
      rintro - (⟨h1, h2, h3, h4⟩ | ⟨h1, h2, h3, h4⟩)
      · exact .inl ⟨h1, h2, by simp only [h2]; rcases h3 with h3 | h3 <;> cases r <;> simp [h3], by simp [h2, h4]⟩
      · exact .inr ⟨h1, h2, by simp only [h2]; rcases h3 with h3 | h3 <;> cases w <;> simp [h3], by simp [h2, h4]⟩
  | dispatch =>
    cases Bool.eq_false_or_eq_true c.active with
    | inl ha => simp only [TlsClient.step, if_neg ho, ha, if_true]; exact h
    | inr ha => exact (inv_dispatch h ho ha).1
  | call x =>
    simp only [TlsClient.step, if_neg ho]
    split
    · next ha =>
      obtain ⟨hb, hf⟩ := h
      unfold call
      split
      · next hp =>
        split
        · exact ⟨hb, trivial⟩
        · rw [hp] at hf
          obtain ⟨k1, k2, k3, -⟩ := hf
          exact ⟨hb, .inl ⟨ha, rfl, by simp [k1], k2, k3 ha⟩⟩
      · next hp => rw [hp] at hf; exact inv_shake hb hp ha hf x
      · next hp => rw [hp] at hf; exact inv_auth hb hp ha hf x
      · exact ⟨hb, hf⟩
    · exact h
  | readable =>
    simp only [TlsClient.step, if_neg ho]
    split
    · exact h
    · split
      · exact h.same rfl rfl rfl rfl rfl (fun _ => ⟨rfl, rfl⟩) (fun _ hd => hd) rfl
      · exact ⟨h.1, trivial⟩
  | expire =>
    simp only [TlsClient.step, if_neg ho]
    split
    · exact h
    · exact ⟨h.1, trivial⟩

theorem Inv.run {c : C} (h : Inv c) (es : List Ev) : Inv (run key c es) := by
  induction es generalizing c with
  | nil => exact h
  | cons e es ih => exact ih (h.step e)

/-! ### The header written at once -/

/-- The header is written without a wait. -/
def Once (c : C) : Prop :=
  Inv c ∧ (c.phase = .auth → c.t.ccw = none ∧ c.active = true) ∧ (c.phase = .relay → ∃ t0 : Ssl.S, t0.ccw = none ∧ c.t = Ssl.write t0 .ok)

theorem shake_once {c : C} (hp : c.phase = .shake) (ha : c.active = true) (h : HInv c) (x : Io) :
    ((shake c x).phase = .auth → (shake c x).t.ccw = none ∧ (shake c x).active = true) ∧ (shake c x).phase ≠ .relay := by
  cases x with
  | go =>
    simp only [shake]
    rcases h with ⟨-, hv, ht, hr, hw⟩ | ⟨h1, h2, h3, h4, h5, h6, -⟩
    · rw [if_neg (by simp [hv])]
      simp [begin, ht, ha]
    · rw [if_pos (h6 ha).1]
      have e1 : (Ssl.handshakeDone c.t).wcb = some (.app 21) ∧ (Ssl.handshakeDone c.t).ccw = none := by
        simp only [Ssl.handshakeDone, Ssl.restoreR, Ssl.restoreW, h1]
        simp only [Event.Mask.none]
        rcases h3 with h3 | h3 <;> simp [h2, h3]
      have e2 : Ssl.handshakeNext (Ssl.handshakeDone c.t) = some (.app 21) := by simp [Ssl.handshakeNext, e1]
      simp only [e2]
      simp [begin, e1, ha]
  | waitR => simp [shake, block, hp]
  | waitW => simp [shake, block, hp]
  | fail => simp [shake, close]

theorem once_step {c : C} (h : Once c) (e : Ev) (he : c.phase = .auth → e ≠ .call .waitR ∧ e ≠ .call .waitW) : Once (step key c e) := by
  obtain ⟨hi, h1, h2⟩ := h
  refine ⟨hi.step e, ?_⟩
  by_cases ho : over c = true
  · simp only [TlsClient.step, if_pos ho]; exact ⟨h1, h2⟩
  cases e with
  | edge r w => simp only [TlsClient.step, if_neg ho]; exact ⟨h1, h2⟩
  | report r w =>
    simp only [TlsClient.step, if_neg ho]
    split <;> exact ⟨h1, h2⟩
  | dispatch =>
    cases Bool.eq_false_or_eq_true c.active with
    | inl ha => simp only [TlsClient.step, if_neg ho, ha, if_true]; exact ⟨fun e => ⟨(h1 e).1, trivial⟩, h2⟩
    | inr ha =>
      rw [(inv_dispatch (key := key) hi ho ha).2.2]
      refine ⟨fun e => ?_, fun e => absurd (by simp [over, handler, e]) ho⟩
      have := (h1 e).2
      rw [ha] at this; cases this
  | call x =>
    simp only [TlsClient.step, if_neg ho]
    split
    · next ha =>
      obtain ⟨hb, hf⟩ := hi
      unfold call
      split
      · split
        · simp [close]
        · simp
      · next hp =>
        rw [hp] at hf
        have := shake_once hp ha hf x
        exact ⟨this.1, fun e => absurd e this.2⟩
      · next hp =>
        obtain ⟨he1, he2⟩ := he hp
        cases x with
        | go =>
          simp only [auth, t_mod]
          exact ⟨by simp, fun _ => ⟨c.t, (h1 hp).1, rfl⟩⟩
        | waitR => exact absurd rfl he1
        | waitW => exact absurd rfl he2
        | fail => simp [auth, close]
      · exact ⟨h1, h2⟩
    · exact ⟨h1, h2⟩
  | readable =>
    simp only [TlsClient.step, if_neg ho]
    split
    · exact ⟨h1, h2⟩
    · split
      · exact ⟨h1, h2⟩
      · simp [close]
  | expire =>
    simp only [TlsClient.step, if_neg ho]
    split
    · exact ⟨h1, h2⟩
    · simp [close]

theorem once_run {c : C} (h : Once c) (es : List Ev) (he : HeaderAtOnce key c es) : Once (run key c es) := by
  induction es generalizing c with
  | nil => exact h
  | cons e es ih => exact ih (once_step h e he.1) he.2

/-! ### The bytes -/

theorem keep_spec (cache : List UInt8) (src : List Rd) (hc : cache.length ≤ 12288) :
    (keep cache src).2.1 ++ streamOf (keep cache src).2.2 = cache ++ streamOf src ∧ (keep cache src).2.1.length ≤ 12288 ∧
    ((keep cache src).1 = some .full → (keep cache src).2.1.length = 12288) ∧
    ((keep cache src).1 = some .ended → ∃ q, (keep cache src).2.2 = .fail :: q) ∧ (keep cache src).1 ≠ some .upstream := by
  fun_induction keep cache src with
  | case1 cache h => simp; omega
  | case2 cache h w q => simp [streamOf]; omega
  | case3 cache h q => simp [streamOf]; omega
  | case4 cache h b bs q ih =>
    have hcap : cap = 12288 := rfl
    obtain ⟨h1, h2, h3, h4, h5⟩ := ih (by simp only [List.length_append, List.length_take]; omega)
    refine ⟨?_, h2, h3, h4, h5⟩
    rw [h1, List.append_assoc, TlsRelay.streamOf_pushBack]
    rfl
  | case5 cache src h => simp [cap] at h ⊢; omega

/-- Header and kept bytes in each phase. -/
def Kept (key : List UInt8) (all : List UInt8) (c : C) : Prop :=
  c.cache ++ streamOf c.src = all ∧ c.cache.length ≤ 12288 ∧ (c.phase ≠ .relay → c.wire = []) ∧ (c.phase = .relay → c.wire = Auth.clientHeader key) ∧
  (c.phase = .closed .full → c.cache.length = 12288) ∧ (c.phase = .closed .ended → ∃ q, c.src = .fail :: q)

theorem kept_same {all : List UInt8} {c d : C} (h : Kept key all c) (h1 : d.cache = c.cache) (h2 : d.src = c.src) (h3 : d.wire = c.wire)
    (h4 : d.phase = c.phase ∨ (c.phase ≠ .relay ∧ d.phase ≠ .relay ∧ d.phase ≠ .closed .full ∧ d.phase ≠ .closed .ended)) : Kept key all d := by
  unfold Kept
  rw [h1, h2, h3]
  obtain ⟨a1, a2, a3, a4, a5, a6⟩ := h
  rcases h4 with h4 | ⟨b1, b2, b3, b4⟩
  · rw [h4]; exact ⟨a1, a2, a3, a4, a5, a6⟩
  · exact ⟨a1, a2, fun _ => a3 b1, fun e => absurd e b2, fun e => absurd e b3, fun e => absurd e b4⟩

@[simp] theorem data_mod (c : C) (s : Ssl.S) : (mod c s).cache = c.cache ∧ (mod c s).src = c.src ∧ (mod c s).wire = c.wire := by
  unfold mod; split <;> exact ⟨rfl, rfl, rfl⟩

theorem data_shake (c : C) (x : Io) : (shake c x).cache = c.cache ∧ (shake c x).src = c.src ∧ (shake c x).wire = c.wire ∧
    ((shake c x).phase = c.phase ∨ (shake c x).phase = .auth ∨ (shake c x).phase = .closed .upstream) := by
  cases x with
  | go =>
    simp only [shake]
    split
    · split <;> simp [begin]
    · simp [begin]
  | waitR => simp [shake, block]
  | waitW => simp [shake, block]
  | fail => simp [shake, close]

theorem kept_step {all : List UInt8} {c : C} (h : Kept key all c) (e : Ev) : Kept key all (step key c e) := by
  by_cases ho : over c = true
  · simp only [TlsClient.step, if_pos ho]; exact h
  have hr : c.phase ≠ .relay := fun e => ho (by simp [over, handler, e])
  cases e with
  | edge r w => simp only [TlsClient.step, if_neg ho]; exact kept_same h rfl rfl rfl (.inl rfl)
  | report r w =>
    simp only [TlsClient.step, if_neg ho]
    split
    · exact h
    · exact kept_same h rfl rfl rfl (.inl rfl)
  | dispatch =>
    simp only [TlsClient.step, if_neg ho]
    have cb : ∀ (d : C) (x : Option Ssl.Cb), Kept key all d → Kept key all (callCb d x) := by
      intro d x hd
      unfold callCb
      (repeat' split) <;> first | exact hd | exact kept_same hd rfl rfl rfl (.inl rfl)
    (repeat' split)
    · exact h
    · exact cb _ _ (kept_same h rfl rfl rfl (.inl rfl))
    · exact cb _ _ (kept_same h rfl rfl rfl (.inl rfl))
    · exact h
  | call x =>
    simp only [TlsClient.step, if_neg ho]
    split
    · unfold call
      split
      · split
        · exact kept_same h rfl rfl rfl (.inr ⟨hr, by simp [close], by simp [close], by simp [close]⟩)
        · exact kept_same h rfl rfl rfl (.inr ⟨hr, by simp, by simp, by simp⟩)
      · next hp =>
        obtain ⟨k1, k2, k3, k4⟩ := data_shake c x
        refine kept_same h k1 k2 k3 ?_
        rcases k4 with k4 | k4 | k4
        · exact .inl k4
        · exact .inr ⟨hr, by simp [k4], by simp [k4], by simp [k4]⟩
        · exact .inr ⟨hr, by simp [k4], by simp [k4], by simp [k4]⟩
      · next hp =>
        cases x with
        | go =>
          obtain ⟨a1, a2, a3, -⟩ := h
          simp only [auth]
          exact ⟨by simpa using a1, by simpa using a2, by simp, fun _ => by simp [a3 hr], by simp, by simp⟩
        | waitR => exact kept_same h (by simp [auth, block]) (by simp [auth, block]) (by simp [auth, block]) (.inl (by simp [auth, block]))
        | waitW => exact kept_same h (by simp [auth, block]) (by simp [auth, block]) (by simp [auth, block]) (.inl (by simp [auth, block]))
        | fail => exact kept_same h rfl rfl rfl (.inr ⟨hr, by simp [auth, close], by simp [auth, close], by simp [auth, close]⟩)
      · exact h
    · exact h
  | readable =>
    simp only [TlsClient.step, if_neg ho]
    split
    · exact h
    · obtain ⟨a1, a2, a3, a4, a5, a6⟩ := h
      obtain ⟨k1, k2, k3, k4, k5⟩ := keep_spec c.cache c.src a2
      split
      · refine ⟨by rw [← a1]; exact k1, k2, a3, a4, fun e => ?_, fun e => ?_⟩
        · exact absurd (by simp [over, handler, show c.phase = _ from e]) ho
        · exact absurd (by simp [over, handler, show c.phase = _ from e]) ho
      · next w hw =>
        refine ⟨by rw [← a1]; exact k1, k2, fun _ => a3 hr, by simp [close], fun e => ?_, fun e => ?_⟩
        · simp only [close, Phase.closed.injEq] at e; exact k3 (by rw [hw, e])
        · simp only [close, Phase.closed.injEq] at e; exact k4 (by rw [hw, e])
  | expire =>
    simp only [TlsClient.step, if_neg ho]
    split
    · exact h
    · exact kept_same h rfl rfl rfl (.inr ⟨hr, by simp [close], by simp [close], by simp [close]⟩)

theorem kept_run {all : List UInt8} {c : C} (h : Kept key all c) (es : List Ev) : Kept key all (run key c es) := by
  induction es generalizing c with
  | nil => exact h
  | cons e es ih => exact ih (kept_step h e)

theorem kept_init (now : Bool) (src : List Rd) : Kept key (streamOf src) (init now src) := by
  simp [Kept, init]

end Verif.TlsClient
