import Verif.Spec.TlsRelay
/-
Lemmas about the relay of a session with TLS on one side.
-/
namespace Verif.TlsRelay
open Verif Verif.Spec.TlsRelay

theorem streamOf_pushBack (n : Nat) (b : UInt8) (bs : List UInt8) (q : List Rd) :
    (b :: bs).take n ++ streamOf (pushBack n b bs q) = b :: bs ++ streamOf q := by
  unfold pushBack
  split
  · next h =>
    have := List.take_append_drop n (b :: bs)
    rw [h, List.append_nil] at this
    rw [this]
  · next c cs h =>
    have := List.take_append_drop n (b :: bs)
    rw [h] at this
    simp only [streamOf]
    rw [← List.append_assoc, this]

@[simp] theorem half_set_ne {r : R} {d e : D} (h : Half) (hn : e ≠ d) : (r.set d h).half e = r.half e := by
  cases d <;> cases e <;> first | rfl | exact absurd rfl hn

@[simp] theorem closed_mod (r : R) (s : Ssl.S) : (mod r s).closed = r.closed := by unfold mod; split <;> rfl
@[simp] theorem closed_onRead (r : R) (d : D) (x : Ssl.Res) : (onRead r d x).closed = r.closed := by
  cases d <;> cases x <;> simp [onRead]
@[simp] theorem closed_onWrite (r : R) (d : D) (x : Ssl.Res) : (onWrite r d x).closed = r.closed := by
  cases d <;> cases x <;> simp [onWrite]
@[simp] theorem closed_set (r : R) (d : D) (h : Half) : (r.set d h).closed = r.closed := by cases d <;> rfl
@[simp] theorem t_set (r : R) (d : D) (h : Half) : (r.set d h).t = r.t := by cases d <;> rfl
@[simp] theorem t_mod (r : R) (s : Ssl.S) : (mod r s).t = s := by unfold mod; split <;> rfl
@[simp] theorem half_close (r : R) (w : Why) (d : D) : (close r w).half d = r.half d := by cases d <;> rfl

/-! ### Which callbacks occur -/

/-- The callbacks of the TLS connection are those of the relay and of the TLS layer. -/
def Clean (s : Ssl.S) : Prop :=
  (s.rcb = none ∨ s.rcb = some (.app 0) ∨ s.rcb = some .wr) ∧ (s.ccr = none ∨ s.ccr = some (.app 0) ∨ s.ccr = some .wr) ∧
  (s.wcb = none ∨ s.wcb = some (.app 1) ∨ s.wcb = some .rd) ∧ (s.ccw = none ∨ s.ccw = some (.app 1) ∨ s.ccw = some .rd)

theorem Clean.read {s : Ssl.S} (h : Clean s) (x : Ssl.Res) : Clean (Ssl.read s x) := by
  unfold Clean at *
  cases x <;> simp only [Ssl.read, Ssl.cache, Ssl.restoreW, Ssl.restoreTyp] <;> (try split) <;> (try split) <;> simp_all <;> grind

theorem Clean.write {s : Ssl.S} (h : Clean s) (x : Ssl.Res) : Clean (Ssl.write s x) := by
  unfold Clean at *
  cases x <;> simp only [Ssl.write, Ssl.cache, Ssl.restoreR, Ssl.restoreTyp] <;> (try split) <;> (try split) <;> simp_all <;> grind

theorem Clean.onRead {r : R} (h : Clean r.t) (d : D) (x : Ssl.Res) : Clean (onRead r d x).t := by
  cases d <;> cases x <;> simp only [TlsRelay.onRead, t_mod] <;> first | exact h | exact h.read _

theorem Clean.onWrite {r : R} (h : Clean r.t) (d : D) (x : Ssl.Res) : Clean (onWrite r d x).t := by
  cases d <;> cases x <;> simp only [TlsRelay.onWrite, t_mod] <;> first | exact h | exact h.write _

theorem Clean.setRead {r : R} (h : Clean r.t) (d : D) (v : Bool) : Clean (setRead r d v).t := by
  cases d <;> cases v <;> simp_all [TlsRelay.setRead, Clean]

theorem Clean.setWrite {r : R} (h : Clean r.t) (d : D) (v : Bool) : Clean (setWrite r d v).t := by
  cases d <;> cases v <;> simp_all [TlsRelay.setWrite, Clean]

/-! ### Order and completeness -/

/-- The bytes of one direction add up, in order; after the end nothing is left in the source. -/
def Tot (h : Half) (s : List UInt8) : Prop := h.out ++ h.buf ++ streamOf h.src = s ∧ (h.eof = true → streamOf h.src = [])

/-- Callbacks and data are in order. -/
def Good (S : D → List UInt8) (r : R) : Prop := Clean r.t ∧ ∀ d, Tot (r.half d) (S d)

/-- If the session ended with the end of a direction, that direction is complete. -/
def Done (r : R) : Prop := ∀ d, r.closed = some (.eof d) → (r.half d).buf = [] ∧ (r.half d).eof = true

theorem Good.set {S : D → List UInt8} {r : R} (g : Good S r) (d : D) {h : Half} (hh : Tot h (S d)) : Good S (r.set d h) := by
  refine ⟨by simpa using g.1, fun e => ?_⟩
  by_cases he : e = d
  · subst he; simpa using hh
  · rw [half_set_ne _ he]; exact g.2 e

theorem Good.onRead {S : D → List UInt8} {r : R} (g : Good S r) (d : D) (x : Ssl.Res) : Good S (onRead r d x) :=
  ⟨g.1.onRead d x, fun e => by rw [half_onRead]; exact g.2 e⟩

theorem Good.onWrite {S : D → List UInt8} {r : R} (g : Good S r) (d : D) (x : Ssl.Res) : Good S (onWrite r d x) :=
  ⟨g.1.onWrite d x, fun e => by rw [half_onWrite]; exact g.2 e⟩

theorem Good.setRead {S : D → List UInt8} {r : R} (g : Good S r) (d : D) (v : Bool) : Good S (setRead r d v) :=
  ⟨g.1.setRead d v, fun e => by rw [half_setRead]; exact g.2 e⟩

theorem Good.setWrite {S : D → List UInt8} {r : R} (g : Good S r) (d : D) (v : Bool) : Good S (setWrite r d v) :=
  ⟨g.1.setWrite d v, fun e => by rw [half_setWrite]; exact g.2 e⟩

theorem Good.close {S : D → List UInt8} {r : R} (g : Good S r) (w : Why) : Good S (close r w) :=
  ⟨g.1, fun e => by rw [half_close]; exact g.2 e⟩

theorem Good.recvLoop {S : D → List UInt8} {r : R} {d : D} (g : Good S r) :
    Good S (recvLoop r d) ∧ (TlsRelay.recvLoop r d).closed = r.closed := by
  fun_induction TlsRelay.recvLoop r d with
  | case1 r h hs => exact ⟨g.onRead d _, by simp⟩
  | case2 r h w q hs =>
    have t := g.2 d
    refine ⟨(g.set d ?_).onRead d _, by simp⟩
    simpa [Tot, hs, streamOf] using t
  | case3 r h t hs =>
    have t := g.2 d
    refine ⟨(g.set d ?_).onRead d _, by simp⟩
    simpa [Tot, hs, streamOf] using t
  | case4 r h b bs q hs n ih =>
    have t := g.2 d
    have := ih ((g.set d ?_).onRead d _)
    · exact ⟨this.1, by rw [this.2]; simp⟩
    · constructor
      · have e := streamOf_pushBack n b bs q
        have t1 := t.1
        simp only [hs, streamOf] at t1
        simp only [List.append_assoc] at t1 ⊢
        rw [e, ← t1]
      · intro he
        have := t.2 he
        simp [hs, streamOf] at this
  | case5 r h => exact ⟨g, rfl⟩

theorem Good.sendLoop {S : D → List UInt8} {r : R} {d : D} (g : Good S r) :
    Good S (sendLoop r d).1 ∧ (TlsRelay.sendLoop r d).1.closed = r.closed ∧
      ((TlsRelay.sendLoop r d).2 = .drained → ((TlsRelay.sendLoop r d).1.half d).buf = []) := by
  fun_induction TlsRelay.sendLoop r d with
  | case1 r hb => exact ⟨g, rfl, fun _ => hb⟩
  | case2 r b bs hb hd => exact ⟨g.onWrite d _, by simp, by simp⟩
  | case3 r b bs hb x q hd =>
    refine ⟨(g.set d ?_).onWrite d _, by simp, by simp⟩
    exact g.2 d
  | case4 r b bs hb t hd => exact ⟨g.onWrite d _, by simp, by simp⟩
  | case5 r b bs hb n q hd ih =>
    have t := g.2 d
    have := ih ((g.set d ?_).onWrite d _)
    · exact ⟨this.1, by rw [this.2.1]; simp, this.2.2⟩
    · refine ⟨?_, t.2⟩
      have t1 := t.1
      rw [hb] at t1
      rw [← t1]
      show (r.half d).out ++ (b :: bs).take n ++ (b :: bs).drop n ++ _ = _
      rw [List.append_assoc (r.half d).out, List.take_append_drop]

theorem Good.rearm {S : D → List UInt8} {r : R} {d : D} (g : Good S r) (hb : (r.half d).buf = []) : Good S (rearm r d) := by
  refine ((g.set d ?_).setWrite d _).setRead d _
  have t := g.2 d
  simpa [Tot, hb] using t

@[simp] theorem closed_setRead (r : R) (d : D) (v : Bool) : (setRead r d v).closed = r.closed := by cases d <;> rfl
@[simp] theorem closed_setWrite (r : R) (d : D) (v : Bool) : (setWrite r d v).closed = r.closed := by cases d <;> rfl
@[simp] theorem closed_rearm (r : R) (d : D) : (rearm r d).closed = r.closed := by simp [rearm]

theorem Done.of_none {r : R} (h : r.closed = none) : Done r := by intro d hd; simp [h] at hd

theorem Done.eof {r : R} {d : D} (hb : (r.half d).buf = []) (he : (r.half d).eof = true) : Done (close r (.eof d)) := by
  intro e h
  simp only [TlsRelay.close, Option.some.injEq, Why.eof.injEq] at h
  subst h
  simp [hb, he]

theorem Done.other {r : R} {w : Why} (h : ∀ d, w ≠ .eof d) : Done (TlsRelay.close r w) := by
  intro e he
  simp only [TlsRelay.close, Option.some.injEq] at he
  exact absurd he (h e)

theorem Good.trafficSend {S : D → List UInt8} {r : R} {d : D} (g : Good S r) (hc : r.closed = none) :
    Good S (trafficSend r d) ∧ Done (TlsRelay.trafficSend r d) := by
  fun_induction TlsRelay.trafficSend r d with
  | case1 r r1 h =>
    have := g.sendLoop (d := d); rw [h] at this
    exact ⟨this.1, Done.of_none (by rw [this.2.1, hc])⟩
  | case2 r r1 h =>
    have := g.sendLoop (d := d); rw [h] at this
    exact ⟨this.1.close _, Done.other (by simp)⟩
  | case3 r r1 h he =>
    have := g.sendLoop (d := d); rw [h] at this
    exact ⟨this.1.close _, Done.eof (this.2.2 rfl) he⟩
  | case4 r r1 h he r2 hb he2 =>
    have := g.sendLoop (d := d); rw [h] at this
    have := (this.1.rearm (this.2.2 rfl)).recvLoop (d := d)
    exact ⟨this.1.close _, Done.eof hb he2⟩
  | case5 r r1 h he r2 hb he2 =>
    have := g.sendLoop (d := d); rw [h] at this
    have h3 := (this.1.rearm (this.2.2 rfl)).recvLoop (d := d)
    exact ⟨h3.1, Done.of_none (by rw [h3.2, closed_rearm, this.2.1, hc])⟩
  | case6 r r1 h he r2 hb ih =>
    have := g.sendLoop (d := d); rw [h] at this
    have h3 := (this.1.rearm (this.2.2 rfl)).recvLoop (d := d)
    exact ih ((h3.1.setRead d _).setWrite d _) (by rw [closed_setWrite, closed_setRead, h3.2, closed_rearm, this.2.1, hc])

theorem Good.trafficRecv {S : D → List UInt8} {r : R} {d : D} (g : Good S r) (hc : r.closed = none) :
    Good S (trafficRecv r d) ∧ Done (TlsRelay.trafficRecv r d) := by
  have h := g.recvLoop (d := d)
  unfold TlsRelay.trafficRecv
  dsimp only
  split
  · next hb =>
    split
    · next he => exact ⟨h.1.close _, Done.eof hb he⟩
    · exact ⟨h.1, Done.of_none (by rw [h.2, hc])⟩
  · exact ((h.1.setRead d _).setWrite d _).trafficSend (by simp [h.2, hc])

theorem Good.callR {S : D → List UInt8} {r r' : R} (g : Good S r) (hc : r.closed = none) (h : callR r = some r') :
    Good S r' ∧ Done r' := by
  unfold TlsRelay.callR at h
  split at h
  · cases h; exact g.trafficRecv hc
  · cases h

theorem Good.callW {S : D → List UInt8} {r r' : R} (g : Good S r) (hc : r.closed = none) (h : callW r = some r') :
    Good S r' ∧ Done r' := by
  unfold TlsRelay.callW at h
  split at h
  · cases h; exact g.trafficSend hc
  · next hw =>
    exfalso
    have := g.1.2.2.1
    simp [hw] at this
  · cases h

theorem Good.step {S : D → List UInt8} {r r' : R} {e : Ev} (g : Good S r) (hd : Done r) (h : step r e = some r') :
    Good S r' ∧ Done r' := by
  unfold TlsRelay.step at h
  split at h
  · cases h; exact ⟨g, hd⟩
  · next hc =>
    cases e with
    | timeout => cases h; exact ⟨g.close _, Done.other (by simp)⟩
    | tr =>
      have g' : Good S { r with tWR := false } := g
      dsimp only at h
      split at h
      · cases h; exact ⟨g', Done.of_none hc⟩
      · exact g'.callW hc h
      · exact g'.callR hc h
    | tw =>
      have g' : Good S { r with tWW := false } := g
      dsimp only at h
      split at h
      · cases h; exact ⟨g', Done.of_none hc⟩
      · exact g'.callR hc h
      · exact g'.callW hc h
    | pr =>
      have g' : Good S { r with pWR := false } := g
      dsimp only at h
      cases h
      split
      · exact g'.trafficRecv hc
      · exact ⟨g', Done.of_none hc⟩
    | pw =>
      have g' : Good S { r with pWW := false } := g
      dsimp only at h
      cases h
      split
      · exact g'.trafficSend hc
      · exact ⟨g', Done.of_none hc⟩

theorem Good.run {S : D → List UInt8} {r r' : R} {es : List Ev} (g : Good S r) (hd : Done r) (h : run r es = some r') :
    Good S r' ∧ Done r' := by
  induction es generalizing r with
  | nil => cases h; exact ⟨g, hd⟩
  | cons e es ih =>
    simp only [TlsRelay.run, Option.bind_eq_some_iff] at h
    obtain ⟨r1, h1, h2⟩ := h
    have := g.step hd h1
    exact ih this.1 this.2 h2

/-! ### The beginning -/

theorem write_oks (s : Ssl.S) : ∀ (ws : List Ssl.Res), (∀ x ∈ ws, x = .ok) → ws ≠ [] → s.ccw = none →
    (ws.foldl Ssl.write s).ccw = none ∧ (ws.foldl Ssl.write s).ccr = none ∧ (ws.foldl Ssl.write s).typ = Event.Mask.none := by
  intro ws
  induction ws generalizing s with
  | nil => intro _ h; exact absurd rfl h
  | cons x ws ih =>
    intro h _ hw
    have hx : x = .ok := h x (by simp)
    subst hx
    simp only [List.foldl_cons]
    have key : (Ssl.write s .ok).ccw = none ∧ (Ssl.write s .ok).ccr = none ∧ (Ssl.write s .ok).typ = Event.Mask.none := by
      simp only [Ssl.write, Ssl.restoreR, Ssl.restoreTyp]
      grind
    by_cases hn : ws = []
    · subst hn; exact key
    · exact ih _ (fun y hy => h y (by simp [hy])) hn key.1

theorem proc_good {S : D → List UInt8} {r : R} (hcl : r.t.ccr = none ∧ r.t.ccw = none) (hc : r.closed = none)
    (ht : ∀ d, Tot (r.half d) (S d)) (hb : if r.client then r.a.buf = [] else r.b.buf = []) : Good S (proc r) ∧ Done (proc r) := by
  unfold proc
  apply Good.trafficRecv
  · refine ⟨?_, fun d => ?_⟩
    · rw [t_mod]
      split <;> simp [Clean, setRead, setWrite, hcl]
    · rw [half_mod, half_setWrite, half_setRead, half_setWrite, half_setRead]
      have := ht d
      split
      · next h => simp only [h, if_true] at hb; cases d <;> simp_all [R.half, Tot]
      · next h => simp only [h] at hb; cases d <;> simp_all [R.half, Tot]
  · rw [closed_mod, closed_setWrite, closed_setRead, closed_setWrite, closed_setRead]
    split <;> exact hc

/-- The streams of a session. -/
def S0 (client : Bool) (early : List UInt8) (srcA srcB : List Rd) : D → List UInt8
  | .a => streamOf srcA
  | .b => (if client then early else []) ++ streamOf srcB

theorem start_good (client : Bool) (t0 : Ssl.S) (ws : List Ssl.Res) (early : List UInt8) (srcA : List Rd) (dstA : List Wr) (srcB : List Rd)
    (dstB : List Wr) (h : ∀ x ∈ ws, x = .ok) (hn : ws ≠ []) (hw : t0.ccw = none) :
    Good (S0 client early srcA srcB) (start client t0 ws early srcA dstA srcB dstB) ∧ Done (start client t0 ws early srcA dstA srcB dstB) := by
  have k := write_oks t0 ws h hn hw
  apply proc_good ⟨k.2.1, k.1⟩ rfl
  · intro d
    cases d <;> simp [R.half, Tot, S0]
  · cases client <;> simp

end Verif.TlsRelay
