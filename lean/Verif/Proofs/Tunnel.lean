import Verif.Model.Tunnel
import Verif.Spec.Tunnel
/-
Invariants of the relay.
-/
namespace Verif.Tunnel
open Verif Verif.Net

/-- Everything a direction has delivered, holds, and will still read, in order. -/
def total (d : Dir) : List UInt8 := d.out ++ d.buf ++ streamOf d.src

theorem streamOf_pushBack (n : Nat) (b : UInt8) (bs : List UInt8) (t : List Rx) :
    (b :: bs).take n ++ streamOf (pushBack n b bs t) = streamOf (.data b bs :: t) := by
  unfold pushBack
  split
  · next h =>
    have h2 : (b :: bs).take n = b :: bs := by
      have := List.take_append_drop n (b :: bs)
      rw [h, List.append_nil] at this; exact this
    rw [h2]; simp [streamOf]
  · next c cs h =>
    have := List.take_append_drop n (b :: bs)
    rw [h] at this
    simp only [streamOf]
    rw [← List.append_assoc, this]

theorem failsAtEnd_pushBack (n : Nat) (b : UInt8) (bs : List UInt8) (t : List Rx) :
    failsAtEnd (pushBack n b bs t) = failsAtEnd t := by
  unfold pushBack
  split <;> simp [failsAtEnd]

/-- Facts about the receive loop. -/
structure RecvFacts (d d' : Dir) : Prop where
  total : total d' = total d
  out : d'.out = d.out
  dst : d'.dst = d.dst
  readCb : d'.readCb = d.readCb
  writeCb : d'.writeCb = d.writeCb
  used : d.buf.length ≤ d.used → d.used ≤ cap → d'.buf.length ≤ d'.used ∧ d'.used ≤ cap
  buf : ∃ x, d'.buf = d.buf ++ x ∧ d'.used = d.used + x.length
  fin : failsAtEnd d'.src = failsAtEnd d.src
  eof : d'.eof = true → d.eof = true ∨ (streamOf d'.src = [] ∧ failsAtEnd d'.src = true)
  wait : d'.used < cap → d'.eof = false → d'.srcWait = true

theorem recvLoop_facts (d : Dir) : RecvFacts d (recvLoop d) := by
  fun_induction recvLoop d with
  | case1 d h hs =>
    constructor <;> simp_all [Tunnel.total, streamOf]
  | case2 d h t hs =>
    constructor <;> simp_all [Tunnel.total, streamOf, failsAtEnd]
  | case3 d h t hs =>
    constructor <;> simp_all [Tunnel.total, streamOf, failsAtEnd]
  | case4 d h b bs t hs n ih =>
    have hp := streamOf_pushBack n b bs t
    constructor
    · rw [ih.total]; simp only [Tunnel.total, hs, List.append_assoc]; rw [hp]
    · rw [ih.out]
    · rw [ih.dst]
    · rw [ih.readCb]
    · rw [ih.writeCb]
    · intro h1 h2
      apply ih.used
      · simp; omega
      · simp only; omega
    · obtain ⟨x, hx, hu⟩ := ih.buf
      refine ⟨(b :: bs).take n ++ x, by rw [hx]; simp, ?_⟩
      rw [hu]; simp; omega
    · rw [ih.fin]; simp only [hs, failsAtEnd_pushBack, failsAtEnd]
    · intro he; simpa using ih.eof he
    · exact ih.wait
  | case5 d h =>
    constructor <;> simp_all
    omega

/-- Facts about the send loop. -/
structure SendFacts (d d' : Dir) (r : SendRes) : Prop where
  total : total d' = total d
  src : d'.src = d.src
  used : d'.used = d.used
  eof : d'.eof = d.eof
  readCb : d'.readCb = d.readCb
  writeCb : d'.writeCb = d.writeCb
  len : d'.buf.length ≤ d.buf.length
  out : d.out <+: d'.out
  drained : r = .drained → d'.buf = []
  again : r = .again → d'.buf ≠ [] ∧ d'.dstWait = true

theorem sendLoop_facts (d : Dir) : SendFacts d (sendLoop d).1 (sendLoop d).2 := by
  fun_induction sendLoop d with
  | case1 d h => constructor <;> simp_all
  | case2 d b bs hb hd => constructor <;> simp_all [Tunnel.total]
  | case3 d b bs hb t hd => constructor <;> simp_all [Tunnel.total]
  | case4 d b bs hb t hd => constructor <;> simp_all [Tunnel.total]
  | case5 d b bs hb n t hd ih =>
    constructor
    · rw [ih.total]
      simp only [Tunnel.total, hb, List.append_assoc]
      rw [← List.append_assoc (List.take n _), List.take_append_drop]
    · rw [ih.src]
    · rw [ih.used]
    · rw [ih.eof]
    · rw [ih.readCb]
    · rw [ih.writeCb]
    · have := ih.len
      simp only [List.length_drop] at this
      rw [hb]; omega
    · exact List.IsPrefix.trans (List.prefix_append _ _) ih.out
    · exact ih.drained
    · exact ih.again

/-- A direction between events while the session is open: either idle (waiting for input on the source with an empty buffer) or
blocked (waiting for room on the destination with a non-empty buffer). -/
def Waiting (d : Dir) : Prop :=
  (d.readCb = true ∧ d.writeCb = false ∧ d.buf = [] ∧ d.used = 0 ∧ d.eof = false ∧ d.srcWait = true) ∨
  (d.readCb = false ∧ d.writeCb = true ∧ d.buf ≠ [] ∧ d.buf.length ≤ d.used ∧ d.used ≤ cap ∧ d.dstWait = true ∧
    (d.eof = true → streamOf d.src = [] ∧ failsAtEnd d.src = true))

/-- What a handler invocation that started in `d` guarantees. -/
def ResOk (d : Dir) : Res → Prop
  | .wait d' => Waiting d' ∧ total d' = total d ∧ d.out <+: d'.out ∧ failsAtEnd d'.src = failsAtEnd d.src
  | .eofClose d' => d'.buf = [] ∧ streamOf d'.src = [] ∧ total d' = total d ∧ d.out <+: d'.out ∧
      failsAtEnd d'.src = failsAtEnd d.src ∧ failsAtEnd d'.src = true
  | .sendFail d' => d'.buf.length ≤ cap ∧ total d' = total d ∧ d.out <+: d'.out ∧ failsAtEnd d'.src = failsAtEnd d.src

theorem trafficSend_ok (d : Dir) (hr : d.readCb = false) (hw : d.writeCb = true) (hu : d.buf.length ≤ d.used)
    (hc : d.used ≤ cap) (he : d.eof = true → streamOf d.src = [] ∧ failsAtEnd d.src = true) :
    ResOk d (trafficSend d) := by
  fun_induction trafficSend d with
  | case1 d d1 h =>
    have f := sendLoop_facts d; rw [h] at f; dsimp only at f
    refine ⟨Or.inr ⟨?_, ?_, (f.again rfl).1, ?_, ?_, (f.again rfl).2, ?_⟩, f.total, f.out, by rw [f.src]⟩
    · rw [f.readCb, hr]
    · rw [f.writeCb, hw]
    · rw [f.used]; exact Nat.le_trans f.len hu
    · rw [f.used]; exact hc
    · rw [f.eof, f.src]; exact he
  | case2 d d1 h =>
    have f := sendLoop_facts d; rw [h] at f; dsimp only at f
    exact ⟨Nat.le_trans f.len (Nat.le_trans hu hc), f.total, f.out, by rw [f.src]⟩
  | case3 d d1 h h1 =>
    have f := sendLoop_facts d; rw [h] at f; dsimp only at f
    have h2 := he (by rw [← f.eof]; exact h1)
    exact ⟨f.drained rfl, by rw [f.src]; exact h2.1, f.total, f.out, by rw [f.src], by rw [f.src]; exact h2.2⟩
  | case4 d d1 h h1 d2 hb h2 =>
    have f := sendLoop_facts d; rw [h] at f; dsimp only at f
    have g := recvLoop_facts (rearm d1)
    have ht : total (rearm d1) = total d1 := by simp [total, rearm, f.drained rfl]
    have h3 : streamOf d2.src = [] ∧ failsAtEnd d2.src = true := by
      rcases g.eof h2 with h4 | h4
      · simp [rearm] at h4; exact absurd h4 h1
      · exact h4
    refine ⟨hb, h3.1, ?_, ?_, ?_, h3.2⟩
    · rw [g.total, ht, f.total]
    · rw [g.out]; exact f.out
    · rw [g.fin]; simp [rearm, f.src]
  | case5 d d1 h h1 d2 hb h2 =>
    have f := sendLoop_facts d; rw [h] at f; dsimp only at f
    have g := recvLoop_facts (rearm d1)
    have ht : total (rearm d1) = total d1 := by simp [total, rearm, f.drained rfl]
    obtain ⟨x, hx, hux⟩ := g.buf
    have h0 : d2.used = 0 := by
      have : x = [] := by
        have h5 : d2.buf = [] := hb
        rw [show d2 = recvLoop (rearm d1) from rfl, hx] at h5
        simpa [rearm] using h5
      rw [show d2 = recvLoop (rearm d1) from rfl, hux, this]; simp [rearm]
    refine ⟨Or.inl ⟨?_, ?_, hb, h0, by simpa using h2, ?_⟩, ?_, ?_, ?_⟩
    · rw [g.readCb]; rfl
    · rw [g.writeCb]; rfl
    · exact g.wait (by rw [show (recvLoop (rearm d1)).used = 0 from h0]; decide) (by simpa using h2)
    · rw [g.total, ht, f.total]
    · rw [g.out]; exact f.out
    · rw [g.fin]; simp [rearm, f.src]
  | case6 d d1 h h1 d2 hb ih =>
    have f := sendLoop_facts d; rw [h] at f; dsimp only at f
    have g := recvLoop_facts (rearm d1)
    have ht : total (rearm d1) = total d1 := by simp [total, rearm, f.drained rfl]
    have hg := g.used (by simp [rearm]) (by simp [rearm])
    have hi := ih rfl rfl hg.1 hg.2 (by
      intro h4
      rcases g.eof h4 with h5 | h5
      · simp [rearm] at h5; exact absurd h5 h1
      · exact h5)
    have e1 : total { d2 with readCb := false, writeCb := true } = total d := by
      rw [← f.total, ← ht, ← g.total]; rfl
    have e2 : failsAtEnd d2.src = failsAtEnd d.src := by rw [g.fin]; simp [rearm, f.src]
    have e3 : d.out <+: d2.out := by rw [g.out]; exact f.out
    revert hi
    cases trafficSend { d2 with readCb := false, writeCb := true } with
    | wait d' =>
      rintro ⟨a, b, c, e⟩
      exact ⟨a, b.trans e1, e3.trans c, e.trans e2⟩
    | eofClose d' =>
      rintro ⟨a, a2, b, c, e, e'⟩
      exact ⟨a, a2, b.trans e1, e3.trans c, e.trans e2, e'⟩
    | sendFail d' =>
      rintro ⟨a, b, c, e⟩
      exact ⟨a, b.trans e1, e3.trans c, e.trans e2⟩

theorem trafficRecv_ok (d : Dir) (hr : d.readCb = true) (hw : d.writeCb = false) (hu : d.used = d.buf.length)
    (hc : d.used ≤ cap) (he : d.eof = false) : ResOk d (trafficRecv d) := by
  have g := recvLoop_facts d
  have hg := g.used (by omega) hc
  obtain ⟨x, hx, hux⟩ := g.buf
  unfold trafficRecv
  simp only
  have heof : (recvLoop d).eof = true → streamOf (recvLoop d).src = [] ∧ failsAtEnd (recvLoop d).src = true := by
    intro h
    rcases g.eof h with h | h
    · rw [he] at h; cases h
    · exact h
  by_cases hb : (recvLoop d).buf = []
  · rw [if_pos hb]
    by_cases h2 : (recvLoop d).eof = true
    · rw [if_pos h2]
      exact ⟨hb, (heof h2).1, g.total, by rw [g.out]; exact List.prefix_rfl, g.fin, (heof h2).2⟩
    · rw [if_neg h2]
      have h0 : (recvLoop d).used = 0 := by
        have : (recvLoop d).buf.length = 0 := by rw [hb]; rfl
        rw [hx, List.length_append] at this
        omega
      refine ⟨Or.inl ⟨by rw [g.readCb, hr], by rw [g.writeCb, hw], hb, h0, by simpa using h2, ?_⟩, g.total,
        by rw [g.out]; exact List.prefix_rfl, g.fin⟩
      exact g.wait (by rw [h0]; decide) (by simpa using h2)
  · rw [if_neg hb]
    have hi := trafficSend_ok { recvLoop d with readCb := false, writeCb := true } rfl rfl hg.1 hg.2 heof
    have e1 : total { recvLoop d with readCb := false, writeCb := true } = total d := g.total
    have e2 : failsAtEnd (recvLoop d).src = failsAtEnd d.src := g.fin
    have e3 : d.out <+: (recvLoop d).out := by rw [g.out]; exact List.prefix_rfl
    revert hi
    cases trafficSend { recvLoop d with readCb := false, writeCb := true } with
    | wait d' =>
      rintro ⟨a, b, c, e⟩
      exact ⟨a, b.trans e1, e3.trans c, e.trans e2⟩
    | eofClose d' =>
      rintro ⟨a, a2, b, c, e, e'⟩
      exact ⟨a, a2, b.trans e1, e3.trans c, e.trans e2, e'⟩
    | sendFail d' =>
      rintro ⟨a, b, c, e⟩
      exact ⟨a, b.trans e1, e3.trans c, e.trans e2⟩

/-- Session invariant relative to the two streams. -/
structure Inv (stream : Side → List UInt8) (s : Sess) : Prop where
  total : ∀ d, total (s.dir d) = stream d
  small : ∀ d, (s.dir d).buf.length ≤ cap
  wait : s.closed = none → ∀ d, Waiting (s.dir d)
  eof : ∀ d, s.closed = some (.eof d) → (s.dir d).buf = [] ∧ streamOf (s.dir d).src = [] ∧ failsAtEnd (s.dir d).src = true

theorem Waiting.small {d : Dir} (h : Waiting d) : d.buf.length ≤ cap := by
  rcases h with ⟨_, _, h, _⟩ | ⟨_, _, _, h1, h2, _⟩
  · simp [h]
  · omega

@[simp] theorem dir_setDir (s : Sess) (a b : Side) (d : Dir) : (s.setDir a d).dir b = if b = a then d else s.dir b := by
  cases a <;> cases b <;> rfl

@[simp] theorem closed_setDir (s : Sess) (a : Side) (d : Dir) : (s.setDir a d).closed = s.closed := by
  cases a <;> rfl

@[simp] theorem dir_closed (s : Sess) (b : Side) (c : Option Why) : ({ s with closed := c } : Sess).dir b = s.dir b := by
  cases b <;> rfl

/-- Putting an acceptable handler result back preserves the invariant. -/
theorem put_inv {stream : Side → List UInt8} {s : Sess} {a : Side} {r : Res} {d0 : Dir}
    (ht : total d0 = stream a) (hr : ResOk d0 r) (hc : s.closed = none)
    (hot : ∀ d, d ≠ a → total (s.dir d) = stream d) (how : ∀ d, d ≠ a → Waiting (s.dir d)) : Inv stream (s.put a r) := by
  cases r with
  | wait d' =>
    obtain ⟨hw, h1, _, _⟩ := hr
    constructor
    · intro d; simp only [Sess.put, dir_setDir]; split
      · next h => rw [h, h1, ht]
      · next h => exact hot d h
    · intro d; simp only [Sess.put, dir_setDir]; split
      · exact hw.small
      · next h => exact (how d h).small
    · intro _ d; simp only [Sess.put, dir_setDir]; split
      · exact hw
      · next h => exact how d h
    · intro d h; simp [Sess.put, hc] at h
  | eofClose d' =>
    obtain ⟨hb, hs, h1, _, _, hf⟩ := hr
    constructor
    · intro d; simp only [Sess.put, dir_closed, dir_setDir]; split
      · next h => rw [h, h1, ht]
      · next h => exact hot d h
    · intro d; simp only [Sess.put, dir_closed, dir_setDir]; split
      · simp [hb]
      · next h => exact (how d h).small
    · intro h; simp [Sess.put] at h
    · intro d h
      simp only [Sess.put, Option.some.injEq, Why.eof.injEq] at h
      subst h
      simp [Sess.put, hb, hs, hf]
  | sendFail d' =>
    obtain ⟨hl, h1, _, _⟩ := hr
    constructor
    · intro d; simp only [Sess.put, dir_closed, dir_setDir]; split
      · next h => rw [h, h1, ht]
      · next h => exact hot d h
    · intro d; simp only [Sess.put, dir_closed, dir_setDir]; split
      · exact hl
      · next h => exact (how d h).small
    · intro h; simp [Sess.put] at h
    · intro d h; simp [Sess.put] at h

theorem proc_inv (early : List UInt8) (h : early.length ≤ cap) (srcUp : List Rx) (dstUp : List Tx) (srcDown : List Rx)
    (dstDown : List Tx) :
    Inv (streams early srcUp srcDown) (proc early srcUp dstUp srcDown dstDown) := by
  unfold proc
  refine put_inv (d0 := Dir.start early srcUp dstUp) ?_ (trafficRecv_ok _ rfl rfl rfl h rfl) rfl ?_ ?_
  · simp [total, Dir.start, streams]
  · intro d hd; cases d
    · exact absurd rfl hd
    · simp [total, Dir.start, Sess.dir, streams]
  · intro d hd; cases d
    · exact absurd rfl hd
    · left; simp [Dir.start, Sess.dir]

theorem step_inv {stream : Side → List UInt8} {s : Sess} (h : Inv stream s) (e : Event) : Inv stream (step s e) := by
  unfold step
  split
  · exact h
  · next hc =>
    have hw := h.wait hc
    cases e with
    | timeout => exact ⟨fun d => by simpa using h.total d, fun d => by simpa using h.small d, by simp, by simp⟩
    | readable side =>
      simp only
      split
      · next hr =>
        rcases hw side with ⟨a1, a2, a3, a4, a5, a6⟩ | ⟨a1, _⟩
        · refine put_inv (d0 := { s.dir side with srcWait := false }) (h.total side)
            (trafficRecv_ok _ a1 a2 (by simp [a3, a4]) (by simp [a4]) a5) hc (fun d _ => h.total d) (fun d _ => hw d)
        · rw [a1] at hr; cases hr
      · next hr =>
        rcases hw side with ⟨a1, _⟩ | hk
        · exact absurd a1 hr
        · constructor
          · intro d; simp only [dir_setDir]; split
            · next e => subst e; exact h.total d
            · exact h.total d
          · intro d; simp only [dir_setDir]; split
            · next e => subst e; exact h.small d
            · exact h.small d
          · intro _ d; simp only [dir_setDir]; split
            · exact Or.inr hk
            · exact hw d
          · intro d hd; simp [hc] at hd
    | writable side =>
      simp only
      split
      · next hr =>
        rcases hw side with ⟨_, a2, _⟩ | ⟨a1, a2, a3, a4, a5, a6, a7⟩
        · rw [a2] at hr; cases hr
        · refine put_inv (d0 := { s.dir side with dstWait := false }) (h.total side)
            (trafficSend_ok _ a1 a2 a4 a5 a7) hc (fun d _ => h.total d) (fun d _ => hw d)
      · next hr =>
        rcases hw side with hk | ⟨_, a2, _⟩
        · constructor
          · intro d; simp only [dir_setDir]; split
            · next e => subst e; exact h.total d
            · exact h.total d
          · intro d; simp only [dir_setDir]; split
            · next e => subst e; exact h.small d
            · exact h.small d
          · intro _ d; simp only [dir_setDir]; split
            · exact Or.inl hk
            · exact hw d
          · intro d hd; simp [hc] at hd
        · exact absurd a2 hr

theorem run_inv {stream : Side → List UInt8} {s : Sess} (h : Inv stream s) (es : List Event) : Inv stream (run s es) := by
  induction es generalizing s with
  | nil => exact h
  | cons e es ih => exact ih (step_inv h e)

end Verif.Tunnel
