import Verif.Proofs.TlsRelay
/-
Lemmas about progress in a session with TLS on one side.
-/
namespace Verif.TlsRelay
open Verif Verif.Spec.TlsRelay

/-- The TLS connection as the relay leaves it when reads wait for reading and writes for writing only. -/
def Plain (s : Ssl.S) : Prop :=
  (s.rcb = none ∨ s.rcb = some (.app 0)) ∧ (s.ccr = none ∨ s.ccr = some (.app 0)) ∧
  (s.wcb = none ∨ s.wcb = some (.app 1)) ∧ (s.ccw = none ∨ s.ccw = some (.app 1)) ∧
  ((s.typ = ⟨false, false⟩ ∧ s.opt = ⟨true, true⟩) ∨ (s.typ = ⟨true, true⟩ ∧ (s.opt = ⟨true, false⟩ ∨ s.opt = ⟨false, true⟩)))

/-- No crossed waits are left. -/
def Straight (r : R) : Prop := ReadsOnlyRead r.a.src ∧ WritesOnlyWrite r.b.dst

/-- The receive handler of a direction is installed. -/
def RArm (r : R) : D → Prop
  | .a => r.t.rcb = some (.app 0)
  | .b => r.pr = true

/-- The send handler of a direction is installed. -/
def WArm (r : R) : D → Prop
  | .a => r.pw = true
  | .b => r.t.wcb = some (.app 1)

/-- Readability of the source is reported, or (on the TLS connection) only writability is registered. -/
def RWait (r : R) : D → Prop
  | .a => r.tWR = true ∨ r.t.opt = ⟨false, true⟩
  | .b => r.pWR = true

/-- Writability of the destination is reported, or (on the TLS connection) only readability is registered. -/
def WWait (r : R) : D → Prop
  | .a => r.pWW = true
  | .b => r.tWW = true ∨ r.t.opt = ⟨true, false⟩

/-- Between events. -/
def L (r : R) (d : D) : Prop :=
  ((r.half d).buf = [] → RArm r d ∧ RWait r d ∧ (r.half d).used = 0) ∧ ((r.half d).buf ≠ [] → WArm r d ∧ WWait r d)

/-- The other direction. -/
def D.other : D → D
  | .a => .b
  | .b => .a

theorem other_ne (d : D) : d.other ≠ d := by cases d <;> simp [D.other]

/-- What every piece of a handler keeps: `k` is a part of `L` of the other direction. -/
structure K (r : R) (d : D) : Prop where
  plain : Plain r.t
  straight : Straight r
  other : L r d.other

theorem onRead_a {r : R} {x : Ssl.Res} (hx : x ≠ .wantW) (k : K r .a) : K (onRead r .a x) .a ∧ (onRead r .a x).t.rcb = r.t.rcb := by
  obtain ⟨⟨c1, c2, c3, c4, c5⟩, s, l1, l2⟩ := k
  refine ⟨⟨?_, ?_, ?_, ?_⟩, ?_⟩
  all_goals cases x <;> simp only [onRead, mod, Ssl.read, Ssl.cache, Ssl.restoreW, Ssl.restoreTyp, Ssl.maskR, Ssl.maskW, Plain, Straight, D.other, R.half, RArm, RWait, WArm, WWait, Event.Mask.none] at * <;> grind (splits := 40)

theorem onWrite_b {r : R} {x : Ssl.Res} (hx : x ≠ .wantR) (k : K r .b) : K (onWrite r .b x) .b ∧ (onWrite r .b x).t.wcb = r.t.wcb := by
  obtain ⟨⟨c1, c2, c3, c4, c5⟩, s, l1, l2⟩ := k
  refine ⟨⟨?_, ?_, ?_, ?_⟩, ?_⟩
  all_goals cases x <;> simp only [onWrite, mod, Ssl.write, Ssl.cache, Ssl.restoreR, Ssl.restoreTyp, Ssl.maskR, Ssl.maskW, Plain, Straight, D.other, R.half, RArm, RWait, WArm, WWait, Event.Mask.none] at * <;> grind (splits := 40)

theorem K.onRead {r : R} {d : D} {x : Ssl.Res} (k : K r d) (hx : d = .a → x ≠ .wantW) : K (onRead r d x) d := by
  cases d
  · exact (onRead_a (hx rfl) k).1
  · obtain ⟨c, s, l⟩ := k
    cases x <;> exact ⟨c, s, l⟩

theorem K.onWrite {r : R} {d : D} {x : Ssl.Res} (k : K r d) (hx : d = .b → x ≠ .wantR) : K (onWrite r d x) d := by
  cases d
  · obtain ⟨c, s, l⟩ := k
    cases x <;> exact ⟨c, s, l⟩
  · exact (onWrite_b (hx rfl) k).1

theorem RArm.onRead {r : R} {d : D} (x : Ssl.Res) (h : RArm r d) : RArm (onRead r d x) d := by
  cases d <;> cases x <;> simp only [TlsRelay.onRead, RArm, t_mod, Ssl.read, Ssl.cache, Ssl.restoreW, Ssl.restoreTyp] at * <;> grind

theorem WArm.onWrite {r : R} {d : D} (x : Ssl.Res) (h : WArm r d) : WArm (onWrite r d x) d := by
  cases d <;> cases x <;> simp only [TlsRelay.onWrite, WArm, t_mod, Ssl.write, Ssl.cache, Ssl.restoreR, Ssl.restoreTyp] at * <;> grind

theorem K.set' {r : R} {d : D} {h : Half} (k : K r d) (hs : Rd.wait true ∈ h.src → Rd.wait true ∈ (r.half d).src) (hd : Wr.wait true ∈ h.dst → Wr.wait true ∈ (r.half d).dst) : K (r.set d h) d := by
  obtain ⟨c, ⟨s1, s2⟩, l⟩ := k
  cases d
  · exact ⟨c, ⟨fun hm => s1 (hs hm), s2⟩, l⟩
  · exact ⟨c, ⟨s1, fun hm => s2 (hd hm)⟩, l⟩

theorem RArm.set {r : R} {d : D} (h : Half) (k : RArm r d) : RArm (r.set d h) d := by cases d <;> exact k
theorem WArm.set {r : R} {d : D} (h : Half) (k : WArm r d) : WArm (r.set d h) d := by cases d <;> exact k

theorem mem_pushBack {n : Nat} {b : UInt8} {bs : List UInt8} {q : List Rd} (h : Rd.wait true ∈ pushBack n b bs q) : Rd.wait true ∈ q := by
  unfold pushBack at h
  split at h
  · exact h
  · simpa using h

theorem RWait.onRead (r : R) (d : D) (w : Bool) (_hw : d = .a → w = false) : RWait (onRead r d (if w then .wantW else .wantR)) d := by
  cases d
  · simp_all [TlsRelay.onRead, RWait]
  · cases w <;> simp [TlsRelay.onRead, RWait]

theorem WWait.onWrite (r : R) (d : D) (w : Bool) (_hw : d = .b → w = false) : WWait (onWrite r d (if w then .wantR else .wantW)) d := by
  cases d
  · cases w <;> simp [TlsRelay.onWrite, WWait]
  · simp_all [TlsRelay.onWrite, WWait]

theorem K.recvLoop {r : R} {d : D} (k : K r d) :
    K (recvLoop r d) d ∧ (RArm r d → RArm (TlsRelay.recvLoop r d) d) ∧
      (((r.half d).buf = [] → (r.half d).used = 0) → ((TlsRelay.recvLoop r d).half d).buf = [] →
        ((TlsRelay.recvLoop r d).half d).used = 0 ∧ (((TlsRelay.recvLoop r d).half d).eof = false → RWait (TlsRelay.recvLoop r d) d)) := by
  fun_induction TlsRelay.recvLoop r d with
  | case1 r h hs =>
    refine ⟨k.onRead (by simp), fun a => a.onRead _, fun hu hb => ?_⟩
    simp only [half_onRead] at hb ⊢
    exact ⟨hu hb, fun _ => RWait.onRead r d false (fun _ => rfl)⟩
  | case2 r h w q hs =>
    have hw : d = .a → w = false := by
      intro hd; subst hd
      have := k.straight.1
      simp only [R.half] at hs
      cases w
      · rfl
      · exfalso; apply this; rw [hs]; simp
    refine ⟨(k.set' ?_ (by exact id)).onRead ?_, fun a => (a.set _).onRead _, fun hu hb => ?_⟩
    · intro hm; rw [hs]; exact List.mem_cons_of_mem _ hm
    · intro hd; rw [hw hd]; simp
    · simp only [half_onRead, half_set] at hb ⊢
      exact ⟨hu hb, fun _ => RWait.onRead _ d w hw⟩
  | case3 r h t hs =>
    refine ⟨(k.set' (by exact id) (by exact id)).onRead (by simp), fun a => (a.set _).onRead _, fun hu hb => ?_⟩
    simp only [half_onRead, half_set] at hb ⊢
    exact ⟨hu hb, by simp⟩
  | case4 r h b bs q hs n ih =>
    have := ih ((k.set' ?_ (by exact id)).onRead (by simp))
    · refine ⟨this.1, fun a => this.2.1 ((a.set _).onRead _), fun hu => this.2.2 ?_⟩
      intro hb
      simp only [half_onRead, half_set, List.append_eq_nil_iff, List.take_eq_nil_iff] at hb
      simp at hb
      omega
    · intro hm
      rw [hs]
      exact List.mem_cons_of_mem _ (mem_pushBack hm)
  | case5 r h =>
    refine ⟨k, fun a => a, fun hu hb => ?_⟩
    have := hu hb
    simp [this, Tunnel.cap] at h

theorem K.sendLoop {r : R} {d : D} (k : K r d) (ha : WArm r d) :
    K (sendLoop r d).1 d ∧ WArm (TlsRelay.sendLoop r d).1 d ∧
      ((TlsRelay.sendLoop r d).2 = .again → ((TlsRelay.sendLoop r d).1.half d).buf ≠ [] ∧ WWait (TlsRelay.sendLoop r d).1 d) := by
  fun_induction TlsRelay.sendLoop r d with
  | case1 r hb => exact ⟨k, ha, by simp⟩
  | case2 r b bs hb hd =>
    exact ⟨k.onWrite (by simp), ha.onWrite _, fun _ => ⟨by simp [hb], WWait.onWrite r d false (fun _ => rfl)⟩⟩
  | case3 r b bs hb x q hd =>
    have hw : d = .b → x = false := by
      intro hd'; subst hd'
      have := k.straight.2
      simp only [R.half] at hd
      cases x
      · rfl
      · exfalso; apply this; rw [hd]; simp
    refine ⟨(k.set' (by exact id) ?_).onWrite ?_, (ha.set _).onWrite _, fun _ => ⟨by simp [hb], WWait.onWrite _ d x hw⟩⟩
    · intro hm; rw [hd]; exact List.mem_cons_of_mem _ hm
    · intro h; rw [hw h]; simp
  | case4 r b bs hb t hd => exact ⟨k.onWrite (by simp), ha.onWrite _, by simp⟩
  | case5 r b bs hb n q hd ih =>
    exact ih ((k.set' (by exact id) (fun hm => by rw [hd]; exact List.mem_cons_of_mem _ hm)).onWrite (by simp)) ((ha.set _).onWrite _)

theorem K.setRead {r : R} {d : D} (k : K r d) (v : Bool) : K (setRead r d v) d := by
  obtain ⟨⟨c1, c2, c3, c4, c5⟩, s, l⟩ := k
  cases d
  · refine ⟨⟨?_, c2, c3, c4, c5⟩, s, l⟩
    cases v <;> simp [TlsRelay.setRead]
  · exact ⟨⟨c1, c2, c3, c4, c5⟩, s, l⟩

theorem K.setWrite {r : R} {d : D} (k : K r d) (v : Bool) : K (setWrite r d v) d := by
  obtain ⟨⟨c1, c2, c3, c4, c5⟩, s, l⟩ := k
  cases d
  · exact ⟨⟨c1, c2, c3, c4, c5⟩, s, l⟩
  · refine ⟨⟨c1, c2, ?_, c4, c5⟩, s, l⟩
    cases v <;> simp [TlsRelay.setWrite]

theorem K.rearm {r : R} {d : D} (k : K r d) : K (rearm r d) d ∧ RArm (TlsRelay.rearm r d) d ∧ ((TlsRelay.rearm r d).half d).used = 0 := by
  refine ⟨((k.set' (by exact id) (by exact id)).setWrite _).setRead _, ?_, by simp [TlsRelay.rearm]⟩
  cases d <;> rfl

theorem warm (r : R) (d : D) : WArm (setWrite r d true) d := by cases d <;> rfl

/-- Open sessions between events. -/
def Live (r : R) : Prop := r.closed = none → Plain r.t ∧ Straight r ∧ ∀ d, L r d

theorem live_of {r : R} {d : D} (k : K r d) (h : L r d) : Live r := by
  intro _
  refine ⟨k.plain, k.straight, fun e => ?_⟩
  by_cases he : e = d
  · subst he; exact h
  · have : e = d.other := by cases d <;> cases e <;> simp_all [D.other]
    rw [this]; exact k.other

theorem live_closed {r : R} {w : Why} : Live (close r w) := by intro h; simp [close] at h

theorem K.trafficSend {r : R} {d : D} (k : K r d) (ha : WArm r d) : Live (trafficSend r d) := by
  fun_induction TlsRelay.trafficSend r d with
  | case1 r r1 h =>
    have := k.sendLoop ha; rw [h] at this
    have h2 := this.2.2 rfl
    exact live_of this.1 ⟨fun hb => absurd hb h2.1, fun _ => ⟨this.2.1, h2.2⟩⟩
  | case2 r r1 h => exact live_closed
  | case3 r r1 h he => exact live_closed
  | case4 r r1 h he r2 hb he2 => exact live_closed
  | case5 r r1 h he r2 hb he2 =>
    have := k.sendLoop ha; rw [h] at this
    have h3 := this.1.rearm
    have h4 := h3.1.recvLoop
    have h5 := h4.2.2 (fun _ => h3.2.2) hb
    exact live_of h4.1 ⟨fun _ => ⟨h4.2.1 h3.2.1, h5.2 (by simpa using he2), h5.1⟩, fun hn => absurd hb hn⟩
  | case6 r r1 h he r2 hb ih =>
    have := k.sendLoop ha; rw [h] at this
    have h3 := this.1.rearm
    have h4 := h3.1.recvLoop
    exact ih ((h4.1.setRead _).setWrite _) (warm _ _)

theorem K.trafficRecv {r : R} {d : D} (k : K r d) (ha : RArm r d) (hu : (r.half d).buf = [] → (r.half d).used = 0) : Live (trafficRecv r d) := by
  have h4 := k.recvLoop
  unfold TlsRelay.trafficRecv
  dsimp only
  split
  · next hb =>
    split
    · exact live_closed
    · next he =>
      have h5 := h4.2.2 hu hb
      exact live_of h4.1 ⟨fun _ => ⟨h4.2.1 ha, h5.2 (by simpa using he), h5.1⟩, fun hn => absurd hb hn⟩
  · exact ((h4.1.setRead _).setWrite _).trafficSend (warm _ _)

theorem Live.step {r : R} {e : Ev} (l : Live r) : ∃ r', step r e = some r' ∧ Live r' := by
  unfold TlsRelay.step
  split
  · exact ⟨r, rfl, l⟩
  · next hc =>
    obtain ⟨p, s, h⟩ := l hc
    have ha := h .a
    have hb := h .b
    cases e with
    | timeout => exact ⟨_, rfl, live_closed⟩
    | tr =>
      dsimp only
      rcases p.1 with hr | hr <;> rw [hr]
      · refine ⟨_, rfl, fun _ => ⟨p, s, fun d => ?_⟩⟩
        cases d
        · refine ⟨fun hbuf => ?_, ha.2⟩
          have := (ha.1 hbuf).1
          simp [RArm, hr] at this
        · exact hb
      · refine ⟨trafficRecv { r with tWR := false } .a, ?_, ?_⟩
        · simp [callR, hr]
        · exact K.trafficRecv ⟨p, s, hb⟩ hr (fun hbuf => (ha.1 hbuf).2.2)
    | tw =>
      dsimp only
      rcases p.2.2.1 with hr | hr <;> rw [hr]
      · refine ⟨_, rfl, fun _ => ⟨p, s, fun d => ?_⟩⟩
        cases d
        · exact ha
        · refine ⟨hb.1, fun hbuf => ?_⟩
          have := (hb.2 hbuf).1
          simp [WArm, hr] at this
      · refine ⟨trafficSend { r with tWW := false } .b, ?_, ?_⟩
        · simp [callW, hr]
        · exact K.trafficSend ⟨p, s, ha⟩ hr
    | pr =>
      refine ⟨_, rfl, ?_⟩
      split
      · next hp => exact K.trafficRecv ⟨p, s, ha⟩ hp (fun hbuf => (hb.1 hbuf).2.2)
      · next hp =>
        refine fun _ => ⟨p, s, fun d => ?_⟩
        cases d
        · exact ha
        · refine ⟨fun hbuf => ?_, hb.2⟩
          exact absurd (hb.1 hbuf).1 hp
    | pw =>
      refine ⟨_, rfl, ?_⟩
      split
      · next hp => exact K.trafficSend ⟨p, s, hb⟩ hp
      · next hp =>
        refine fun _ => ⟨p, s, fun d => ?_⟩
        cases d
        · refine ⟨ha.1, fun hbuf => ?_⟩
          exact absurd (ha.2 hbuf).1 hp
        · exact hb

theorem Live.run {r : R} (l : Live r) (es : List Ev) : ∃ r', run r es = some r' ∧ Live r' := by
  induction es generalizing r with
  | nil => exact ⟨r, rfl, l⟩
  | cons e es ih =>
    obtain ⟨r1, h1, l1⟩ := l.step (e := e)
    obtain ⟨r2, h2, l2⟩ := ih l1
    exact ⟨r2, by simp [TlsRelay.run, h1, h2], l2⟩

/-! ### Only a blocked write removes the interest in reading -/

/-- Only writability is registered only while something is waiting to be written. -/
def Q (r : R) : Prop := r.t.opt = ⟨false, true⟩ → r.b.buf ≠ []

theorem Q.onRead {r : R} {d : D} {x : Ssl.Res} (q : Q r) (p : Plain r.t) (hx : d = .a → x ≠ .wantW) : Q (onRead r d x) := by
  have hb : (TlsRelay.onRead r d x).b = r.b := half_onRead r d .b x
  unfold Q at *
  rw [hb]
  cases d
  · have hx := hx rfl
    obtain ⟨c1, c2, c3, c4, c5⟩ := p
    cases x <;> simp only [TlsRelay.onRead, t_mod, Ssl.read, Ssl.cache, Ssl.restoreW, Ssl.restoreTyp, Ssl.maskR, Ssl.maskW, Event.Mask.none] at * <;> grind
  · cases x <;> exact q

theorem Q.recvLoop {r : R} {d : D} (k : K r d) (q : Q r) : Q (recvLoop r d) := by
  fun_induction TlsRelay.recvLoop r d with
  | case1 r h hs => exact q.onRead k.plain (by simp)
  | case2 r h w q' hs =>
    have hw : d = .a → w = false := by
      intro hd; subst hd
      have := k.straight.1
      simp only [R.half] at hs
      cases w
      · rfl
      · exfalso; apply this; rw [hs]; simp
    have q1 : Q (r.set d { r.half d with src := q' }) := by cases d <;> exact q
    exact q1.onRead (by simpa using k.plain) (fun hd => by rw [hw hd]; simp)
  | case3 r h t hs =>
    have q1 : Q (r.set d { r.half d with eof := true }) := by cases d <;> exact q
    exact q1.onRead (by simpa using k.plain) (by simp)
  | case4 r h b bs q' hs n ih =>
    refine ih ((k.set' ?_ (by exact id)).onRead (by simp)) ?_
    · intro hm
      rw [hs]
      exact List.mem_cons_of_mem _ (mem_pushBack hm)
    · refine Q.onRead ?_ (by simpa using k.plain) (by simp)
      cases d
      · exact q
      · intro ho hb
        have := q ho
        simp only [R.set, R.half, List.append_eq_nil_iff] at hb
        exact this hb.1
  | case5 r h => exact q

theorem opt_write_ok {s : Ssl.S} (p : Plain s) : (Ssl.write s .ok).opt = ⟨true, true⟩ := by
  obtain ⟨c1, c2, c3, c4, c5⟩ := p
  simp only [Ssl.write, Ssl.restoreR, Ssl.restoreTyp, Event.Mask.none]
  grind

theorem Q.sendLoop {r : R} {d : D} (k : K r d) (q : Q r) : Q (sendLoop r d).1 := by
  fun_induction TlsRelay.sendLoop r d with
  | case1 r hb => exact q
  | case2 r b bs hb hd =>
    cases d
    · exact q
    · intro _
      have : (onWrite r .b .wantW).b = r.b := half_onWrite r .b .b .wantW
      rw [this]; simp only [R.half] at hb; simp [hb]
  | case3 r b bs hb x q' hd =>
    cases d
    · cases x <;> exact q
    · intro _
      have := half_onWrite (r.set .b { r.half .b with dst := q' }) .b .b (if x then .wantR else .wantW)
      simp only [R.half, R.set] at this hb
      simp only [R.set, R.half]
      rw [this]
      simp [hb]
  | case4 r b bs hb t hd =>
    cases d
    · exact q
    · intro ho
      have : (onWrite r .b .err).b = r.b := half_onWrite r .b .b .err
      rw [this]; simp only [R.half] at hb; simp [hb]
  | case5 r b bs hb n q' hd ih =>
    refine ih ((k.set' (by exact id) (fun hm => by rw [hd]; exact List.mem_cons_of_mem _ hm)).onWrite (by simp)) ?_
    cases d
    · exact q
    · intro ho
      exfalso
      simp only [onWrite, t_mod] at ho
      rw [opt_write_ok (by simpa using k.plain)] at ho
      simp at ho

theorem sendLoop_drained {r : R} {d : D} (h : (sendLoop r d).2 = .drained) : ((sendLoop r d).1.half d).buf = [] := by
  fun_induction TlsRelay.sendLoop r d with
  | case1 r hb => exact hb
  | case5 r b bs hb n q' hd ih => exact ih h
  | _ => simp at h

theorem Q.set_read {r : R} (q : Q r) (d : D) (v : Bool) : Q (setRead r d v) := by cases d <;> exact q
theorem Q.set_write {r : R} (q : Q r) (d : D) (v : Bool) : Q (setWrite r d v) := by cases d <;> exact q

theorem Q.rearm {r : R} {d : D} (q : Q r) (hb : (r.half d).buf = []) : Q (rearm r d) := by
  refine Q.set_read (Q.set_write ?_ _ _) _ _
  cases d
  · exact q
  · intro ho; exact absurd hb (q ho)

theorem Q.trafficSend {r : R} {d : D} (k : K r d) (q : Q r) (ha : WArm r d) : Q (trafficSend r d) := by
  fun_induction TlsRelay.trafficSend r d with
  | case1 r r1 h => have := q.sendLoop k; rw [h] at this; exact this
  | case2 r r1 h => have := q.sendLoop k; rw [h] at this; exact this
  | case3 r r1 h he => have := q.sendLoop k; rw [h] at this; exact this
  | case4 r r1 h he r2 hb he2 =>
    have h1 := k.sendLoop ha; have h2 := q.sendLoop k; have h3 := sendLoop_drained (r := r) (d := d)
    rw [h] at h1 h2 h3
    exact Q.recvLoop h1.1.rearm.1 (h2.rearm (h3 rfl))
  | case5 r r1 h he r2 hb he2 =>
    have h1 := k.sendLoop ha; have h2 := q.sendLoop k; have h3 := sendLoop_drained (r := r) (d := d)
    rw [h] at h1 h2 h3
    exact Q.recvLoop h1.1.rearm.1 (h2.rearm (h3 rfl))
  | case6 r r1 h he r2 hb ih =>
    have h1 := k.sendLoop ha; have h2 := q.sendLoop k; have h3 := sendLoop_drained (r := r) (d := d)
    rw [h] at h1 h2 h3
    have h4 := h1.1.rearm.1.recvLoop
    exact ih ((h4.1.setRead _).setWrite _) (Q.set_write (Q.set_read (Q.recvLoop h1.1.rearm.1 (h2.rearm (h3 rfl))) _ _) _ _) (warm _ _)

theorem Q.trafficRecv {r : R} {d : D} (k : K r d) (q : Q r) : Q (trafficRecv r d) := by
  have h1 := q.recvLoop k
  have h4 := k.recvLoop
  unfold TlsRelay.trafficRecv
  dsimp only
  split
  · split <;> exact h1
  · exact Q.trafficSend ((h4.1.setRead _).setWrite _) (Q.set_write (Q.set_read h1 _ _) _ _) (warm _ _)

theorem Q.step {r r' : R} {e : Ev} (l : Live r) (q : Q r) (h : step r e = some r') : Q r' := by
  unfold TlsRelay.step at h
  split at h
  · cases h; exact q
  · next hc =>
    obtain ⟨p, s, hl⟩ := l hc
    have ha := hl .a
    have hb := hl .b
    cases e with
    | timeout => cases h; exact q
    | tr =>
      dsimp only at h
      rcases p.1 with hr | hr <;> rw [hr] at h
      · cases h; exact q
      · simp only [callR, hr, Option.some.injEq] at h
        subst h
        exact Q.trafficRecv (r := { r with tWR := false }) ⟨p, s, hb⟩ q
    | tw =>
      dsimp only at h
      rcases p.2.2.1 with hr | hr <;> rw [hr] at h
      · cases h; exact q
      · simp only [callW, hr, Option.some.injEq] at h
        subst h
        exact Q.trafficSend (r := { r with tWW := false }) ⟨p, s, ha⟩ q hr
    | pr =>
      cases h
      split
      · exact Q.trafficRecv (r := { r with pWR := false }) ⟨p, s, ha⟩ q
      · exact q
    | pw =>
      cases h
      split
      · next hp => exact Q.trafficSend (r := { r with pWW := false }) ⟨p, s, hb⟩ q hp
      · exact q

theorem Q.run {r : R} (l : Live r) (q : Q r) (es : List Ev) : ∃ r', run r es = some r' ∧ Live r' ∧ Q r' := by
  induction es generalizing r with
  | nil => exact ⟨r, rfl, l, q⟩
  | cons e es ih =>
    obtain ⟨r1, h1, l1⟩ := l.step (e := e)
    obtain ⟨r2, h2, l2⟩ := ih l1 (q.step l h1)
    exact ⟨r2, by simp [TlsRelay.run, h1, h2], l2⟩

/-! ### The beginning -/

/-- The TLS connection when the receive handler of the client side is called for the first time. -/
def t1 (cw : Option Ssl.Cb) : Ssl.S := ⟨⟨true, true⟩, some (.app 0), none, ⟨false, false⟩, none, cw⟩

/-- The session at that time. -/
def r1 (client : Bool) (cw : Option Ssl.Cb) (early : List UInt8) (srcA : List Rd) (dstA : List Wr) (srcB : List Rd) (dstB : List Wr) : R :=
  { client, t := t1 cw, tWR := true, tWW := true, pr := true, pw := false, pWR := true, pWW := true
    a := ⟨srcA, dstA, [], [], 0, false⟩
    b := ⟨srcB, dstB, [], if client then early else [], if client then early.length else 0, false⟩
    closed := none }

theorem start_eq (client : Bool) (t0 : Ssl.S) (ws : List Ssl.Res) (early : List UInt8) (srcA : List Rd) (dstA : List Wr) (srcB : List Rd)
    (dstB : List Wr) (h1 : (ws.foldl Ssl.write t0).ccr = none) (h2 : (ws.foldl Ssl.write t0).typ = Event.Mask.none) :
    start client t0 ws early srcA dstA srcB dstB =
      trafficRecv (r1 client (ws.foldl Ssl.write t0).ccw early srcA dstA srcB dstB) (if client then .b else .a) := by
  unfold start proc
  generalize ws.foldl Ssl.write t0 = t at *
  obtain ⟨o, a1, a2, a3, a4, a5⟩ := t
  subst h1 h2
  by_cases ho : (⟨true, true⟩ : Event.Mask) = o
  · subst ho
    cases client <;> simp [setRead, setWrite, mod, r1, t1, Event.Mask.none]
  · cases client <;> simp [setRead, setWrite, mod, r1, t1, Event.Mask.none, ho]

theorem start_live (client : Bool) (t0 : Ssl.S) (ws : List Ssl.Res) (early : List UInt8) (srcA : List Rd) (dstA : List Wr) (srcB : List Rd)
    (dstB : List Wr) (h : ∀ x ∈ ws, x = .ok) (hn : ws ≠ []) (hw : t0.ccw = none) (hr : ReadsOnlyRead srcA) (hww : WritesOnlyWrite dstB) :
    Live (start client t0 ws early srcA dstA srcB dstB) ∧ Q (start client t0 ws early srcA dstA srcB dstB) := by
  have k := write_oks t0 ws h hn hw
  rw [start_eq client t0 ws early srcA dstA srcB dstB k.2.1 k.2.2, k.1]
  have kk : K (r1 client none early srcA dstA srcB dstB) (if client then .b else .a) := by
    refine ⟨by simp [Plain, r1, t1], ⟨hr, hww⟩, ?_⟩
    cases client <;> simp [L, D.other, r1, t1, R.half, RArm, RWait]
  have q : Q (r1 client none early srcA dstA srcB dstB) := by simp [Q, r1, t1]
  refine ⟨kk.trafficRecv ?_ ?_, Q.trafficRecv kk q⟩
  · cases client <;> simp [RArm, r1, t1]
  · cases client <;> simp [R.half, r1]

end Verif.TlsRelay
