import Verif.Proofs.Tunnel
import Verif.Spec.Tunnel
/-
Delivery: while the destination accepts, the relay hands over everything the source delivers.
-/
namespace Verif.Tunnel
open Verif Verif.Net

/-- Bytes a direction still has to hand over. -/
def remaining (d : Dir) : Nat := d.buf.length + (streamOf d.src).length

/-- The destination can take all remaining bytes. -/
def Live (d : Dir) : Prop := canTake (remaining d) d.dst

theorem sendLoop_live (d : Dir) (h : Live d) :
    Live (sendLoop d).1 ∧ (sendLoop d).2 ≠ .fail ∧ blocks (sendLoop d).1 ≤ blocks d ∧
    ((sendLoop d).2 = .again → blocks (sendLoop d).1 < blocks d) := by
  fun_induction sendLoop d with
  | case1 d hb => simp [h]
  | case2 d b bs hb hd =>
    obtain ⟨_, h2⟩ := h
    rw [hd] at h2; simp [remaining, hb] at h2
  | case3 d b bs hb t hd =>
    obtain ⟨h1, h2⟩ := h
    rw [hd] at h1 h2
    refine ⟨⟨fun x hx => h1 x (by simp at hx ⊢; exact Or.inr hx), ?_⟩, by simp, ?_, ?_⟩
    · simpa [remaining] using h2
    · simp [blocks, hd]
    · simp [blocks, hd]
  | case4 d b bs hb t hd =>
    obtain ⟨h1, _⟩ := h
    have := h1 .fail (by rw [hd]; simp)
    simp at this
  | case5 d b bs hb n t hd ih =>
    obtain ⟨h1, h2⟩ := h
    rw [hd] at h1 h2
    have hn : 0 < n := by
      have := h1 (.sent n) (by simp)
      simpa using this
    have hl : Live { d with buf := (b :: bs).drop n, out := d.out ++ (b :: bs).take n, dst := t, dstWait := false } := by
      refine ⟨fun x hx => h1 x (by simp at hx ⊢; exact Or.inr hx), ?_⟩
      simp [remaining, hb] at h2 ⊢
      omega
    obtain ⟨a, b', c, e⟩ := ih hl
    have hbk : blocks { d with buf := (b :: bs).drop n, out := d.out ++ (b :: bs).take n, dst := t, dstWait := false } = blocks d := by
      simp [blocks, hd]
    rw [hbk] at c e
    exact ⟨a, b', c, e⟩

theorem recvLoop_blocks (d : Dir) :
    blocks (recvLoop d) ≤ blocks d ∧
    ((recvLoop d).used < cap → (recvLoop d).eof = false → (recvLoop d).src = [] ∨ blocks (recvLoop d) < blocks d) := by
  fun_induction recvLoop d with
  | case1 d h hs => simp [blocks, hs]
  | case2 d h t hs => simp [blocks, hs]
  | case3 d h t hs => simp [blocks]
  | case4 d h b bs t hs n ih =>
    have : blocks { d with
        buf := d.buf ++ (b :: bs).take n, used := d.used + min n (bs.length + 1), src := pushBack n b bs t,
        srcWait := false } = blocks d := by
      simp only [blocks, hs, pushBack]
      split <;> simp
    rw [this] at ih; exact ih
  | case5 d h => simp; omega

theorem recvLoop_live (d : Dir) (h : Live d) : Live (recvLoop d) := by
  have g := recvLoop_facts d
  have hr : remaining (recvLoop d) = remaining d := by
    have h1 := congrArg List.length g.total
    simp only [total, List.length_append, g.out] at h1
    simp only [remaining]; omega
  unfold Live at *
  rw [hr, g.dst]; exact h

/-- Handing-over guarantee of one handler invocation. -/
def LiveRes (d : Dir) : Res → Prop
  | .wait d' => Live d' ∧ (blocks d' < blocks d ∨ (d'.src = [] ∧ d'.buf = [])) ∧ blocks d' ≤ blocks d
  | .eofClose _ => True
  | .sendFail _ => False

theorem trafficSend_live (d : Dir) (h : Live d) : LiveRes d (trafficSend d) := by
  fun_induction trafficSend d with
  | case1 d d1 hs =>
    have := sendLoop_live d h; rw [hs] at this
    exact ⟨this.1, Or.inl (this.2.2.2 rfl), this.2.2.1⟩
  | case2 d d1 hs =>
    have := sendLoop_live d h; rw [hs] at this
    exact this.2.1 rfl
  | case3 d d1 hs h1 => trivial
  | case4 d d1 hs h1 d2 hb h2 => trivial
  | case5 d d1 hs h1 d2 hb h2 =>
    have hl := sendLoop_live d h; rw [hs] at hl
    have hf := sendLoop_facts d; rw [hs] at hf; dsimp only at hf hl
    have hr : Live (rearm d1) := by
      have := hl.1
      simpa [Live, remaining, rearm, hf.drained rfl] using this
    have hb2 := recvLoop_blocks (rearm d1)
    have g := recvLoop_facts (rearm d1)
    have e : blocks (rearm d1) = blocks d1 := rfl
    have hu : d2.used < cap := by
      obtain ⟨x, hx, hux⟩ := g.buf
      have : (recvLoop (rearm d1)).buf.length = 0 := by rw [show (recvLoop (rearm d1)).buf = [] from hb]; rfl
      rw [hx] at this
      have h3 : d2.used = 0 := by
        rw [show d2 = recvLoop (rearm d1) from rfl, hux]; simp [rearm] at this ⊢; exact this
      rw [h3]; decide
    refine ⟨recvLoop_live _ hr, ?_, ?_⟩
    · rcases hb2.2 hu (by simpa using h2) with h3 | h3
      · exact Or.inr ⟨h3, hb⟩
      · left; have : blocks d2 < blocks (rearm d1) := h3
        omega
    · have : blocks d2 ≤ blocks (rearm d1) := hb2.1
      omega
  | case6 d d1 hs h1 d2 hb ih =>
    have hl := sendLoop_live d h; rw [hs] at hl
    have hf := sendLoop_facts d; rw [hs] at hf; dsimp only at hf hl
    have hr : Live (rearm d1) := by
      have := hl.1
      simpa [Live, remaining, rearm, hf.drained rfl] using this
    have hb2 : blocks d2 ≤ blocks (rearm d1) := (recvLoop_blocks (rearm d1)).1
    have e : blocks (rearm d1) = blocks d1 := rfl
    have hi := ih (recvLoop_live _ hr)
    have e2 : blocks { d2 with readCb := false, writeCb := true } = blocks d2 := rfl
    revert hi
    cases trafficSend { d2 with readCb := false, writeCb := true } with
    | wait d' =>
      rintro ⟨a, b, c⟩
      refine ⟨a, ?_, by omega⟩
      rcases b with b | b
      · left; omega
      · exact Or.inr b
    | eofClose d' => exact id
    | sendFail d' => exact id

theorem trafficRecv_live (d : Dir) (h : Live d) (hu : d.used = d.buf.length) : LiveRes d (trafficRecv d) := by
  have hl := recvLoop_live d h
  have hb2 := recvLoop_blocks d
  have g := recvLoop_facts d
  unfold trafficRecv
  simp only
  split
  · next hb =>
    split
    · trivial
    · next h2 =>
      have hu2 : (recvLoop d).used < cap := by
        obtain ⟨x, hx, hux⟩ := g.buf
        have h0 : (recvLoop d).buf.length = 0 := by rw [hb]; rfl
        rw [hx, List.length_append] at h0
        have : (recvLoop d).used = 0 := by omega
        rw [this]; decide
      refine ⟨hl, ?_, hb2.1⟩
      rcases hb2.2 hu2 (by simpa using h2) with h3 | h3
      · exact Or.inr ⟨h3, hb⟩
      · exact Or.inl h3
  · have hi := trafficSend_live { recvLoop d with readCb := false, writeCb := true } hl
    have e2 : blocks { recvLoop d with readCb := false, writeCb := true } = blocks (recvLoop d) := rfl
    revert hi
    cases trafficSend { recvLoop d with readCb := false, writeCb := true } with
    | wait d' =>
      rintro ⟨a, b, c⟩
      refine ⟨a, ?_, by omega⟩
      rcases b with b | b
      · left; omega
      · exact Or.inr b
    | eofClose d' => exact id
    | sendFail d' => exact id

/-- Nothing is left to do on a side. -/
def Idle (s : Sess) (side : Side) : Prop :=
  s.closed = some (.eof side) ∨
  (s.closed = none ∧ (s.dir side).src = [] ∧ (s.dir side).buf = [])

/-- Progress measure of a side: finished, or at most `n` would-block answers away from it. -/
def Within (side : Side) (n : Nat) (s : Sess) : Prop :=
  Idle s side ∨ (s.closed = none ∧ Live (s.dir side) ∧ blocks (s.dir side) ≤ n)

theorem put_within {s : Sess} {side : Side} {r : Res} {d0 : Dir} {n : Nat} (hc : s.closed = none)
    (h : LiveRes d0 r) (hn : blocks d0 ≤ n + 1) : Within side n (s.put side r) := by
  cases r with
  | wait d' =>
    obtain ⟨a, b, c⟩ := h
    rcases b with b | b
    · right; exact ⟨by simp [Sess.put, hc], by simpa [Sess.put] using a, by simp [Sess.put]; omega⟩
    · left; right; exact ⟨by simp [Sess.put, hc], by simp [Sess.put, b.1], by simp [Sess.put, b.2]⟩
  | eofClose d' => left; left; simp [Sess.put]
  | sendFail d' => exact h.elim

theorem put_within0 {s : Sess} {side : Side} {r : Res} {d0 : Dir} {n : Nat} (hc : s.closed = none)
    (h : LiveRes d0 r) (hn : blocks d0 ≤ n) : Within side n (s.put side r) := by
  cases r with
  | wait d' =>
    obtain ⟨a, b, c⟩ := h
    right; exact ⟨by simp [Sess.put, hc], by simpa [Sess.put] using a, by simp [Sess.put]; omega⟩
  | eofClose d' => left; left; simp [Sess.put]
  | sendFail d' => exact h.elim

/-- An idle side stays idle under its own events. -/
theorem idle_step {stream : Side → List UInt8} {s : Sess} {side : Side} (hi : Inv stream s) (h : Idle s side) :
    Idle (step s (.writable side)) side ∧ Idle (step s (.readable side)) side := by
  rcases h with h | ⟨hc, hs, hb⟩
  · simp only [step, h]
    exact ⟨Or.inl h, Or.inl h⟩
  · rcases hi.wait hc side with ⟨a1, a2, a3, a4, a5, a6⟩ | ⟨_, _, a3, _⟩
    · constructor
      · right
        simp [step, hc, a2, hs, hb]
      · right
        have hu : (s.dir side).used < cap := by rw [a4]; decide
        have hrl : recvLoop { s.dir side with srcWait := false } = { s.dir side with srcWait := true } := by
          rw [recvLoop.eq_def]
          simp only [hu, dite_true]
          split <;> simp_all
        have : trafficRecv { s.dir side with srcWait := false } = .wait { s.dir side with srcWait := true } := by
          unfold trafficRecv
          rw [hrl]
          simp [hb, a5]
        have e : step s (.readable side) = s.setDir side { s.dir side with srcWait := true } := by
          unfold step; rw [hc]
          exact (if_pos a1).trans (congrArg (s.put side) this)
        rw [e]
        simp [hc, hs, hb]
    · exact absurd hb a3

/-- One round brings a side strictly closer. -/
theorem round_within {stream : Side → List UInt8} {s : Sess} {side : Side} {n : Nat} (hi : Inv stream s)
    (h : Within side (n + 1) s) :
    Within side n (step (step s (.writable side)) (.readable side)) := by
  rcases h with h | ⟨hc, hl, hn⟩
  · left
    exact (idle_step (step_inv hi _) (idle_step hi h).1).2
  · rcases hi.wait hc side with ⟨a1, a2, a3, a4, a5, a6⟩ | ⟨a1, a2, a3, a4, a5, a6, a7⟩
    · -- waiting for input: the writable report is ignored
      have e : step s (.writable side) = s.setDir side { s.dir side with dstWait := false } := by
        simp [step, hc, a2]
      rw [e]
      have hlr := trafficRecv_live { s.dir side with dstWait := false, srcWait := false } hl (by simp [a3, a4])
      have e2 : step (s.setDir side { s.dir side with dstWait := false }) (.readable side) =
          (s.setDir side { s.dir side with dstWait := false }).put side
            (trafficRecv { s.dir side with dstWait := false, srcWait := false }) := by
        simp [step, hc, a1]
      rw [e2]
      exact put_within (by simp [hc]) hlr hn
    · -- waiting for room
      have hls := trafficSend_live { s.dir side with dstWait := false } hl
      have e : step s (.writable side) = s.put side (trafficSend { s.dir side with dstWait := false }) := by
        simp [step, hc, a2]
      have hw : Within side n (step s (.writable side)) := by
        rw [e]; exact put_within hc hls hn
      have hi' := step_inv hi (.writable side)
      generalize step s (.writable side) = s1 at hw hi'
      rcases hw with hw | ⟨hc1, hl1, hn1⟩
      · left; exact (idle_step hi' hw).2
      · rcases hi'.wait hc1 side with ⟨b1, b2, b3, b4, b5, b6⟩ | ⟨b1, b2, b3, _⟩
        · have hlr := trafficRecv_live { s1.dir side with srcWait := false } hl1 (by simp [b3, b4])
          have e2 : step s1 (.readable side) = s1.put side (trafficRecv { s1.dir side with srcWait := false }) := by
            simp [step, hc1, b1]
          rw [e2]; exact put_within0 hc1 hlr hn1
        · right
          simp only [step, hc1, b1, Bool.false_eq_true, if_false]
          exact ⟨by simp [hc1], by rw [dir_setDir, if_pos rfl]; exact hl1, by rw [dir_setDir, if_pos rfl]; exact hn1⟩

theorem rounds_idle {stream : Side → List UInt8} (side : Side) (k : Nat) {s : Sess} (hi : Inv stream s)
    (h : Within side k s) : Idle (run s (rounds side (k + 1))) side := by
  induction k generalizing s with
  | zero =>
    -- one more round: no would-block answers are left, so the round must finish
    have e : run s (rounds side 1) = step (step s (.writable side)) (.readable side) := rfl
    rw [e]
    rcases h with h | ⟨hc, hl, hn⟩
    · exact (idle_step (step_inv hi _) (idle_step hi h).1).2
    · have fin : ∀ (s1 : Sess) (r : Res) (d0 : Dir), s1.closed = none → LiveRes d0 r → blocks d0 = 0 →
          Idle (s1.put side r) side := by
        intro s1 r d0 hc1 hr h0
        cases r with
        | wait d' =>
          obtain ⟨a, b, c⟩ := hr
          rcases b with b | b
          · omega
          · right; exact ⟨by simp [Sess.put, hc1], by simp [Sess.put, b.1], by simp [Sess.put, b.2]⟩
        | eofClose d' => left; simp [Sess.put]
        | sendFail d' => exact hr.elim
      rcases hi.wait hc side with ⟨a1, a2, a3, a4, a5, a6⟩ | ⟨a1, a2, a3, a4, a5, a6, a7⟩
      · have e : step s (.writable side) = s.setDir side { s.dir side with dstWait := false } := by
          simp [step, hc, a2]
        rw [e]
        have hlr := trafficRecv_live { s.dir side with dstWait := false, srcWait := false } hl (by simp [a3, a4])
        have e2 : step (s.setDir side { s.dir side with dstWait := false }) (.readable side) =
            (s.setDir side { s.dir side with dstWait := false }).put side
              (trafficRecv { s.dir side with dstWait := false, srcWait := false }) := by
          simp [step, hc, a1]
        rw [e2]
        exact fin _ _ _ (by simp [hc]) hlr (by simp only [blocks] at hn ⊢; omega)
      · have hls := trafficSend_live { s.dir side with dstWait := false } hl
        have e : step s (.writable side) = s.put side (trafficSend { s.dir side with dstWait := false }) := by
          simp [step, hc, a2]
        have hw : Idle (step s (.writable side)) side := by
          rw [e]; exact fin _ _ _ hc hls (by simp only [blocks] at hn ⊢; omega)
        exact (idle_step (step_inv hi _) hw).2
  | succ k ih =>
    have e : run s (rounds side (k + 1 + 1)) =
        run (step (step s (.writable side)) (.readable side)) (rounds side (k + 1)) := rfl
    rw [e]
    exact ih (step_inv (step_inv hi _) _) (round_within hi h)

end Verif.Tunnel
