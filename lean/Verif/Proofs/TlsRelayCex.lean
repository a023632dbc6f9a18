import Verif.Proofs.TlsRelayLive
/-
Sessions with TLS on one side in which data that could move does not move, or goes to the wrong place: the states in question.
-/
namespace Verif.TlsRelay
open Verif Verif.Spec.TlsRelay

theorem recvLoop_nil {r : R} {d : D} (h : (r.half d).used < Tunnel.cap) (hs : (r.half d).src = []) : recvLoop r d = onRead r d .wantR := by
  rw [recvLoop.eq_def, dif_pos h]; split <;> simp_all

theorem recvLoop_wait {r : R} {d : D} {w : Bool} {q : List Rd} (h : (r.half d).used < Tunnel.cap) (hs : (r.half d).src = .wait w :: q) :
    recvLoop r d = onRead (r.set d { r.half d with src := q }) d (if w then .wantW else .wantR) := by
  rw [recvLoop.eq_def, dif_pos h]; split <;> simp_all

theorem recvLoop_data {r : R} {d : D} {b : UInt8} {bs : List UInt8} {q : List Rd} (h : (r.half d).used < Tunnel.cap)
    (hs : (r.half d).src = .data b bs :: q) :
    recvLoop r d = recvLoop (onRead (r.set d { r.half d with
        buf := (r.half d).buf ++ (b :: bs).take (Tunnel.cap - (r.half d).used)
        used := (r.half d).used + min (Tunnel.cap - (r.half d).used) (bs.length + 1)
        src := pushBack (Tunnel.cap - (r.half d).used) b bs q }) d .ok) d := by
  rw [recvLoop.eq_def, dif_pos h]; split <;> simp_all

theorem recvLoop_full {r : R} {d : D} (h : ¬ (r.half d).used < Tunnel.cap) : recvLoop r d = r := by
  rw [recvLoop.eq_def, dif_neg h]

/-- A segment that fits, then would-block. -/
theorem recvLoop_seg {r : R} {d : D} {b : UInt8} {bs : List UInt8} {w : Bool} {q : List Rd} (hu : (r.half d).used = 0) (hb : (r.half d).buf = [])
    (hl : bs.length + 1 < Tunnel.cap) (hs : (r.half d).src = .data b bs :: .wait w :: q) :
    recvLoop r d = onRead ((onRead (r.set d { r.half d with buf := b :: bs, used := bs.length + 1, src := .wait w :: q }) d .ok).set d
      { r.half d with buf := b :: bs, used := bs.length + 1, src := q }) d (if w then .wantW else .wantR) := by
  have ht : (b :: bs).take Tunnel.cap = b :: bs := List.take_of_length_le (by simp; omega)
  have hp : pushBack Tunnel.cap b bs (.wait w :: q) = .wait w :: q := by
    unfold pushBack
    rw [List.drop_eq_nil_of_le (by simp; omega)]
  have hm : min Tunnel.cap (bs.length + 1) = bs.length + 1 := by omega
  rw [recvLoop_data (by rw [hu]; decide) hs, hu, hb]
  simp only [Nat.sub_zero, ht, hp, hm, List.nil_append, Nat.zero_add]
  rw [recvLoop_wait (w := w) (q := q) (by simpa using hl) (by simp)]
  simp

theorem sendLoop_nil {r : R} {d : D} (h : (r.half d).buf = []) : sendLoop r d = (r, .drained) := by
  rw [sendLoop.eq_def]; simp [h]

theorem sendLoop_wait {r : R} {d : D} {x : Bool} {q : List Wr} (h : (r.half d).buf ≠ []) (hd : (r.half d).dst = .wait x :: q) :
    sendLoop r d = (onWrite (r.set d { r.half d with dst := q }) d (if x then .wantR else .wantW), .again) := by
  rw [sendLoop.eq_def]
  split
  · contradiction
  · split <;> simp_all

theorem sendLoop_sent {r : R} {d : D} {n : Nat} {q : List Wr} (h : (r.half d).buf ≠ []) (hn : (r.half d).buf.length ≤ n) (hd : (r.half d).dst = .sent n :: q) :
    sendLoop r d = (onWrite (r.set d { r.half d with buf := [], out := (r.half d).out ++ (r.half d).buf, dst := q }) d .ok, .drained) := by
  have h1 : (r.half d).buf.take n = (r.half d).buf := List.take_of_length_le hn
  have h2 : (r.half d).buf.drop n = [] := List.drop_eq_nil_of_le hn
  rw [sendLoop.eq_def]
  split
  · contradiction
  · next b bs hb =>
    rw [hb] at h1 h2
    split
    · simp_all
    · simp_all
    · simp_all
    · next m q' hd' =>
      rw [hd] at hd'
      cases hd'
      rw [h1, h2, sendLoop_nil (by simp), hb]

theorem sendLoop_part {r : R} {d : D} {n : Nat} {q : List Wr} (h : (r.half d).buf ≠ []) (hd : (r.half d).dst = .sent n :: q) :
    sendLoop r d = sendLoop (onWrite (r.set d { r.half d with buf := (r.half d).buf.drop n, out := (r.half d).out ++ (r.half d).buf.take n, dst := q }) d .ok) d := by
  rw [sendLoop.eq_def]
  split
  · contradiction
  · next b bs hb =>
    split
    · simp_all
    · simp_all
    · simp_all
    · next m q' hd' =>
      rw [hd] at hd'
      cases hd'
      rw [hb]

theorem firstLoop_nil {r : R} (h : r.a.buf = []) : firstLoop r = (r, .drained) := by
  rw [firstLoop.eq_def]; simp [h]

theorem firstLoop_sent {r : R} {n : Nat} {q : List Wr} (h : r.a.buf ≠ []) (hn : r.a.buf.length ≤ n) (hd : r.b.dst = .sent n :: q) :
    firstLoop r = (onWrite { r with a := { r.a with buf := [] }, b := { r.b with dst := q, out := r.b.out ++ r.a.buf } } .b .ok, .drained) := by
  have h1 : r.a.buf.take n = r.a.buf := List.take_of_length_le hn
  have h2 : r.a.buf.drop n = [] := List.drop_eq_nil_of_le hn
  rw [firstLoop.eq_def]
  split
  · contradiction
  · next b bs hb =>
    rw [hb] at h1 h2
    split
    · simp_all
    · simp_all
    · simp_all
    · next m q' hd' =>
      rw [hd] at hd'
      cases hd'
      rw [h1, h2, hb]
      refine firstLoop_nil ?_
      have := half_onWrite { r with a := { r.a with buf := [] }, b := { r.b with dst := q, out := r.b.out ++ b :: bs } } .b .a .ok
      have := congrArg Half.buf this
      exact this

theorem trafficRecv_idle {r : R} {d : D} (hb : ((recvLoop r d).half d).buf = []) (he : ((recvLoop r d).half d).eof = false) :
    trafficRecv r d = recvLoop r d := by simp [trafficRecv, hb, he]

theorem trafficRecv_send {r : R} {d : D} (hb : ((recvLoop r d).half d).buf ≠ []) :
    trafficRecv r d = trafficSend (setWrite (setRead (recvLoop r d) d false) d true) d := by simp [trafficRecv, hb]

theorem trafficSend_again {r r' : R} {d : D} (h : sendLoop r d = (r', .again)) : trafficSend r d = r' := by
  rw [trafficSend.eq_def]; split <;> simp_all

theorem trafficSend_idle {r r' : R} {d : D} (h : sendLoop r d = (r', .drained)) (he : (r'.half d).eof = false)
    (hb : ((recvLoop (rearm r' d) d).half d).buf = []) (he2 : ((recvLoop (rearm r' d) d).half d).eof = false) :
    trafficSend r d = recvLoop (rearm r' d) d := by
  rw [trafficSend.eq_def]
  split
  · simp_all
  · simp_all
  · next r1 h1 =>
    rw [h] at h1
    cases h1
    simp [he, hb, he2]

/-- Nothing of the other direction's data changes. -/
theorem recvLoop_other {r : R} {d e : D} (hn : e ≠ d) : (recvLoop r d).half e = r.half e := by
  fun_induction recvLoop r d with
  | case4 r h b bs q hs n ih => rw [ih]; simp [hn]
  | _ => simp [hn]

theorem sendLoop_other {r : R} {d e : D} (hn : e ≠ d) : (sendLoop r d).1.half e = r.half e := by
  fun_induction sendLoop r d with
  | case5 r b bs hb n q hd ih => rw [ih]; simp [hn]
  | _ => simp [hn]

theorem rearm_other {r : R} {d e : D} (hn : e ≠ d) : (rearm r d).half e = r.half e := by simp [rearm, hn]

theorem trafficSend_other {r : R} {d e : D} (hn : e ≠ d) : (trafficSend r d).half e = r.half e := by
  fun_induction trafficSend r d with
  | case1 r r1 h => have := sendLoop_other (r := r) hn; rw [h] at this; exact this
  | case2 r r1 h => have := sendLoop_other (r := r) hn; rw [h] at this; simpa using this
  | case3 r r1 h => have := sendLoop_other (r := r) hn; rw [h] at this; simpa using this
  | case4 r r1 h he r2 hb he2 => have := sendLoop_other (r := r) hn; rw [h] at this; simp only [half_close]; rw [recvLoop_other hn, rearm_other hn, this]
  | case5 r r1 h he r2 hb he2 => have := sendLoop_other (r := r) hn; rw [h] at this; rw [recvLoop_other hn, rearm_other hn, this]
  | case6 r r1 h he r2 hb ih => have := sendLoop_other (r := r) hn; rw [h] at this; rw [ih, half_setWrite, half_setRead, recvLoop_other hn, rearm_other hn, this]

theorem trafficRecv_other {r : R} {d e : D} (hn : e ≠ d) : (trafficRecv r d).half e = r.half e := by
  unfold trafficRecv
  dsimp only
  split
  · split
    · rw [half_close, recvLoop_other hn]
    · rw [recvLoop_other hn]
  · rw [trafficSend_other hn, half_setWrite, half_setRead, recvLoop_other hn]

theorem proc_out_b {r : R} (h : r.client = false) : (proc r).b.out = r.b.out := by
  unfold proc
  simp only [h, Bool.false_eq_true, if_false]
  generalize hm : mod _ _ = m
  have hc : m.client = false := by
    rw [← hm]; unfold mod; split <;> rfl
  have hb : m.half .b = { r.b with buf := [], used := 0 } := by
    rw [← hm, half_mod, half_setWrite, half_setRead, half_setWrite, half_setRead]; rfl
  simp only [hc, Bool.false_eq_true, if_false]
  have := trafficRecv_other (r := m) (d := .a) (e := .b) (by simp)
  rw [hb] at this
  have h2 := congrArg Half.out this
  exact h2

theorem step_tr {r : R} (hc : r.closed = none) (hr : r.t.rcb = some (.app 0)) : step r .tr = some (trafficRecv { r with tWR := false } .a) := by
  simp [step, hc, hr, callR]

theorem run_append (r : R) (xs ys : List Ev) : run r (xs ++ ys) = (run r xs).bind fun r' => run r' ys := by
  induction xs generalizing r with
  | nil => rfl
  | cons e es ih =>
    simp only [List.cons_append, run]
    cases step r e <;> simp [ih]

theorem possible_append {r r' : R} {xs ys : List Ev} (h : Possible r xs) (hr : run r xs = some r') (h' : Possible r' ys) : Possible r (xs ++ ys) := by
  induction xs generalizing r with
  | nil => cases hr; exact h'
  | cons e es ih =>
    refine ⟨h.1, fun r1 h1 => ?_⟩
    simp only [run, h1, Option.bind_some] at hr
    exact ih (h.2 r1 h1) hr

/-- A fact that survives every reportable event survives every possible sequence of events. -/
theorem possible_inv {P : R → Prop} (hP : ∀ r e r', P r → Reportable r e → e ≠ .tw → e ≠ .timeout → step r e = some r' → P r') {r r' : R} {es : List Ev} (h : P r)
    (hp : Possible r es) (h1 : Ev.tw ∉ es) (h2 : Ev.timeout ∉ es) (hr : run r es = some r') : P r' := by
  induction es generalizing r with
  | nil => cases hr; exact h
  | cons e es ih =>
    simp only [run, Option.bind_eq_some_iff] at hr
    obtain ⟨r1, s1, s2⟩ := hr
    simp only [List.mem_cons, not_or] at h1 h2
    exact ih (hP r e r1 h hp.1 (fun h => h1.1 h.symm) (fun h => h2.1 h.symm) s1) (hp.2 r1 s1) h1.2 h2.2 s2

/-- The variant in which the TLS connection is never reported as writable. -/
theorem possible_inv' {P : R → Prop} (hw : ∀ r, P r → r.tWW = false)
    (hP : ∀ r e r', P r → Reportable r e → e ≠ .tw → e ≠ .timeout → step r e = some r' → P r') {r r' : R} {es : List Ev} (h : P r)
    (hp : Possible r es) (h2 : Ev.timeout ∉ es) (hr : run r es = some r') : P r' := by
  induction es generalizing r with
  | nil => cases hr; exact h
  | cons e es ih =>
    simp only [run, Option.bind_eq_some_iff] at hr
    obtain ⟨r1, s1, s2⟩ := hr
    simp only [List.mem_cons, not_or] at h2
    refine ih (hP r e r1 h hp.1 ?_ (fun h => h2.1 h.symm) s1) (hp.2 r1 s1) h2.2 s2
    rintro rfl
    have := hp.1
    simp [Reportable, hw r h] at this

/-! ### The states -/

/-- The TLS connection of a running relay that waits for reading (`o` = `⟨true, false⟩`) or writing. -/
def tw (o : Event.Mask) (cr cw : Option Ssl.Cb) (ccw : Option Ssl.Cb) : Ssl.S := ⟨o, cr, cw, ⟨true, true⟩, some (.app 0), ccw⟩

/-- After the start: idle. -/
def idle (srcA : List Rd) (dstA : List Wr) (srcB : List Rd) (dstB : List Wr) : R :=
  { client := false, t := tw ⟨true, false⟩ (some (.app 0)) none none, tWR := true, tWW := false, pr := true, pw := false, pWR := true, pWW := true
    a := ⟨srcA, dstA, [], [], 0, false⟩, b := ⟨srcB, dstB, [], [], 0, false⟩, closed := none }

theorem start_idle (t0 : Ssl.S) (h0 : t0.ccw = none) (srcA : List Rd) (dstA : List Wr) (srcB : List Rd) (dstB : List Wr) :
    start false t0 [.ok] [] (.wait false :: srcA) dstA srcB dstB = idle srcA dstA srcB dstB := by
  have k := write_oks t0 [.ok] (by simp) (by simp) h0
  rw [start_eq false t0 [.ok] [] _ dstA srcB dstB k.2.1 k.2.2, k.1]
  have e : recvLoop (r1 false none [] (.wait false :: srcA) dstA srcB dstB) .a = idle srcA dstA srcB dstB := by
    rw [recvLoop_wait (w := false) (q := srcA) (by simp [r1, R.half, Tunnel.cap]) (by simp [r1, R.half])]
    simp [r1, t1, idle, tw, onRead, mod, R.set, R.half, Ssl.read, Ssl.cache, Ssl.maskR, Event.Mask.none]
  simp only [Bool.false_eq_true, if_false]
  rw [trafficRecv_idle (by rw [e]; rfl) (by rw [e]; rfl), e]

/-- A write to the TLS connection blocked while the relay was idle. -/
def upWaits (srcA : List Rd) (dstA : List Wr) (srcB : List Rd) (dstB : List Wr) (d : List UInt8) : R :=
  { client := false, t := tw ⟨false, true⟩ (some (.app 0)) (some (.app 1)) (some (.app 1)), tWR := false, tWW := true, pr := false, pw := false, pWR := true, pWW := true
    a := ⟨srcA, dstA, [], [], 0, false⟩, b := ⟨srcB, dstB, [], d, d.length, false⟩, closed := none }

theorem step_upWaits (srcA : List Rd) (dstA : List Wr) (c : UInt8) (cs : List UInt8) (srcB : List Rd) (dstB : List Wr) (hl : cs.length + 1 < 12288) :
    step (idle srcA dstA (.data c cs :: .wait false :: srcB) (.wait false :: dstB)) .pr = some (upWaits srcA dstA srcB dstB (c :: cs)) := by
  have e : recvLoop { idle srcA dstA (.data c cs :: .wait false :: srcB) (.wait false :: dstB) with pWR := false } .b =
      { idle srcA dstA srcB (.wait false :: dstB) with b := ⟨srcB, .wait false :: dstB, [], c :: cs, cs.length + 1, false⟩ } := by
    rw [recvLoop_seg rfl rfl hl rfl]
    simp [idle, tw, onRead, R.set, R.half]
  have h : trafficRecv { idle srcA dstA (.data c cs :: .wait false :: srcB) (.wait false :: dstB) with pWR := false } .b = upWaits srcA dstA srcB dstB (c :: cs) := by
    rw [trafficRecv_send (by rw [e]; simp [R.half]), e]
    refine trafficSend_again ?_
    rw [sendLoop_wait (x := false) (q := dstB) (by simp [R.half, setRead, setWrite]) (by simp [R.half, setRead, setWrite])]
    simp [idle, upWaits, tw, onWrite, mod, R.set, R.half, setRead, setWrite, Ssl.write, Ssl.cache, Ssl.maskW, Event.Mask.none]
  show some _ = _
  simp only [idle, if_true] at h ⊢
  rw [h]

/-- A write to the TLS connection has to wait for reading (`x`) or writing while the relay was idle. -/
def upWaitsX (x : Bool) (srcA : List Rd) (dstA : List Wr) (srcB : List Rd) (dstB : List Wr) (d : List UInt8) : R :=
  { client := false, t := tw ⟨x, !x⟩ (some (if x then .wr else .app 0)) (some (.app 1)) (some (.app 1)), tWR := x, tWW := !x, pr := false, pw := false, pWR := true, pWW := true
    a := ⟨srcA, dstA, [], [], 0, false⟩, b := ⟨srcB, dstB, [], d, d.length, false⟩, closed := none }

theorem step_upWaitsX (x : Bool) (srcA : List Rd) (dstA : List Wr) (c : UInt8) (cs : List UInt8) (srcB : List Rd) (dstB : List Wr) (hl : cs.length + 1 < 12288) :
    step (idle srcA dstA (.data c cs :: .wait false :: srcB) (.wait x :: dstB)) .pr = some (upWaitsX x srcA dstA srcB dstB (c :: cs)) := by
  have e : recvLoop { idle srcA dstA (.data c cs :: .wait false :: srcB) (.wait x :: dstB) with pWR := false } .b =
      { idle srcA dstA srcB (.wait x :: dstB) with b := ⟨srcB, .wait x :: dstB, [], c :: cs, cs.length + 1, false⟩ } := by
    rw [recvLoop_seg rfl rfl hl rfl]
    simp [idle, tw, onRead, R.set, R.half]
  have h : trafficRecv { idle srcA dstA (.data c cs :: .wait false :: srcB) (.wait x :: dstB) with pWR := false } .b = upWaitsX x srcA dstA srcB dstB (c :: cs) := by
    rw [trafficRecv_send (by rw [e]; simp [R.half]), e]
    refine trafficSend_again ?_
    rw [sendLoop_wait (x := x) (q := dstB) (by simp [R.half, setRead, setWrite]) (by simp [R.half, setRead, setWrite])]
    cases x <;> simp [idle, upWaitsX, tw, onWrite, mod, R.set, R.half, setRead, setWrite, Ssl.write, Ssl.cache, Ssl.maskW, Ssl.maskR, Event.Mask.none]
  show some _ = _
  simp only [idle, if_true] at h ⊢
  rw [h]

/-- What was waiting was written; both connections are registered for both. -/
def resumed (srcA : List Rd) (dstA : List Wr) (srcB : List Rd) (dstB : List Wr) (d : List UInt8) : R :=
  { client := false, t := ⟨⟨true, true⟩, some (.app 0), none, ⟨false, false⟩, none, some (.app 1)⟩, tWR := true, tWW := true, pr := true, pw := false, pWR := true, pWW := true
    a := ⟨srcA, dstA, [], [], 0, false⟩, b := ⟨srcB, dstB, d, [], 0, false⟩, closed := none }

theorem step_resumed (x : Bool) (srcA : List Rd) (dstA : List Wr) (c : UInt8) (cs : List UInt8) (srcB : List Rd) (dstB : List Wr) (hl : cs.length + 1 < 12288) :
    step (upWaitsX x srcA dstA (.wait false :: srcB) (.sent 12288 :: dstB) (c :: cs)) (if x then .tr else .tw) = some (resumed srcA dstA srcB dstB (c :: cs)) := by
  have h : ∀ f g : Bool, trafficSend { upWaitsX x srcA dstA (.wait false :: srcB) (.sent 12288 :: dstB) (c :: cs) with tWR := f, tWW := g } .b = resumed srcA dstA srcB dstB (c :: cs) := by
    intro f g
    have e : recvLoop (rearm (onWrite (({ upWaitsX x srcA dstA (.wait false :: srcB) (.sent 12288 :: dstB) (c :: cs) with tWR := f, tWW := g } : R).set .b
        ⟨.wait false :: srcB, dstB, c :: cs, [], cs.length + 1, false⟩) .b .ok) .b) .b = resumed srcA dstA srcB dstB (c :: cs) := by
      rw [recvLoop_wait (w := false) (q := srcB) (by simp [rearm, Tunnel.cap]) (by simp [rearm])]
      cases x <;> simp [rearm, upWaitsX, resumed, tw, onWrite, onRead, mod, R.set, R.half, setRead, setWrite, Ssl.write, Ssl.restoreR, Ssl.restoreTyp, Event.Mask.none]
    rw [trafficSend_idle (sendLoop_sent (n := 12288) (q := dstB) (by simp [R.half, upWaitsX]) (by simp [R.half, upWaitsX]; omega) rfl) (by rw [half_onWrite, half_set]; rfl)
      ((congrArg (fun r : R => (r.half .b).buf) e).trans rfl) ((congrArg (fun r : R => (r.half .b).eof) e).trans rfl)]
    exact e
  cases x
  · exact congrArg some (h false false)
  · exact congrArg some (h false false)

/-- Uploaded data waits for the plain connection; nothing else. -/
def upBlocked (srcA : List Rd) (dstA : List Wr) (srcB : List Rd) (dstB : List Wr) (u : List UInt8) : R :=
  { client := false, t := tw ⟨true, false⟩ none none none, tWR := true, tWW := false, pr := true, pw := true, pWR := true, pWW := true
    a := ⟨srcA, dstA, [], u, u.length, false⟩, b := ⟨srcB, dstB, [], [], 0, false⟩, closed := none }

theorem step_upBlocked (b : UInt8) (bs : List UInt8) (srcA : List Rd) (dstA : List Wr) (srcB : List Rd) (dstB : List Wr) (hl : bs.length + 1 < 12288) :
    step (idle (.data b bs :: .wait false :: srcA) (.wait false :: dstA) srcB dstB) .tr = some (upBlocked srcA dstA srcB dstB (b :: bs)) := by
  have e : recvLoop { idle (.data b bs :: .wait false :: srcA) (.wait false :: dstA) srcB dstB with tWR := false } .a =
      { idle srcA dstA srcB dstB with a := ⟨srcA, .wait false :: dstA, [], b :: bs, bs.length + 1, false⟩ } := by
    rw [recvLoop_seg rfl rfl hl rfl]
    simp [idle, tw, onRead, mod, R.set, R.half, Ssl.read, Ssl.restoreTyp, Ssl.restoreW, Ssl.cache, Ssl.maskR, Event.Mask.none]
  have h : trafficRecv { idle (.data b bs :: .wait false :: srcA) (.wait false :: dstA) srcB dstB with tWR := false } .a = upBlocked srcA dstA srcB dstB (b :: bs) := by
    rw [trafficRecv_send (by rw [e]; simp [R.half]), e]
    refine trafficSend_again ?_
    rw [sendLoop_wait (x := false) (q := dstA) (by simp [R.half, setRead, setWrite]) (by simp [R.half, setRead, setWrite])]
    simp [idle, upBlocked, tw, onWrite, R.set, R.half, setRead, setWrite]
  rw [step_tr rfl rfl, h]

/-- Both directions wait: uploaded data for the plain connection, downloaded data for the TLS connection. -/
def bothWait (srcA : List Rd) (dstA : List Wr) (srcB : List Rd) (dstB : List Wr) (u d : List UInt8) : R :=
  { client := false, t := tw ⟨false, true⟩ none (some (.app 1)) (some (.app 1)), tWR := false, tWW := true, pr := false, pw := true, pWR := true, pWW := true
    a := ⟨srcA, dstA, [], u, u.length, false⟩, b := ⟨srcB, dstB, [], d, d.length, false⟩, closed := none }

theorem step_bothWait (u : List UInt8) (c : UInt8) (cs : List UInt8) (srcA : List Rd) (dstA : List Wr) (srcB : List Rd) (dstB : List Wr)
    (hl : cs.length + 1 < 12288) :
    step (upBlocked srcA dstA (.data c cs :: .wait false :: srcB) (.wait false :: dstB) u) .pr = some (bothWait srcA dstA srcB dstB u (c :: cs)) := by
  have e : recvLoop { upBlocked srcA dstA (.data c cs :: .wait false :: srcB) (.wait false :: dstB) u with pWR := false } .b =
      { upBlocked srcA dstA srcB (.wait false :: dstB) u with b := ⟨srcB, .wait false :: dstB, [], c :: cs, cs.length + 1, false⟩ } := by
    rw [recvLoop_seg rfl rfl hl rfl]
    simp [upBlocked, tw, onRead, R.set, R.half]
  have h : trafficRecv { upBlocked srcA dstA (.data c cs :: .wait false :: srcB) (.wait false :: dstB) u with pWR := false } .b =
      bothWait srcA dstA srcB dstB u (c :: cs) := by
    rw [trafficRecv_send (by rw [e]; simp [R.half]), e]
    refine trafficSend_again ?_
    rw [sendLoop_wait (x := false) (q := dstB) (by simp [R.half, setRead, setWrite]) (by simp [R.half, setRead, setWrite])]
    simp [upBlocked, bothWait, tw, onWrite, mod, R.set, R.half, setRead, setWrite, Ssl.write, Ssl.cache, Ssl.maskW, Event.Mask.none]
  show some _ = _
  simp only [upBlocked, if_true] at h ⊢
  rw [h]

/-- Downloaded data waits for the TLS connection, of which only readability is registered. -/
def lost (srcA : List Rd) (dstA : List Wr) (srcB : List Rd) (dstB : List Wr) (o d : List UInt8) (pWW : Bool) : R :=
  { client := false, t := tw ⟨true, false⟩ (some (.app 0)) (some (.app 1)) (some (.app 1)), tWR := true, tWW := false, pr := false, pw := false, pWR := true, pWW
    a := ⟨srcA, dstA, o, [], 0, false⟩, b := ⟨srcB, dstB, [], d, d.length, false⟩, closed := none }

theorem step_lost (b : UInt8) (bs d : List UInt8) (srcA : List Rd) (dstA : List Wr) (srcB : List Rd) (dstB : List Wr) (hl : bs.length + 1 < 12288) :
    step (bothWait (.wait false :: srcA) (.sent 12288 :: dstA) srcB dstB (b :: bs) d) .pw = some (lost srcA dstA srcB dstB (b :: bs) d false) := by
  have e1 := sendLoop_sent (r := { bothWait (.wait false :: srcA) (.sent 12288 :: dstA) srcB dstB (b :: bs) d with pWW := false }) (d := .a) (n := 12288) (q := dstA)
    (by simp [R.half, bothWait]) (by simp [R.half, bothWait]; omega) (by simp [R.half, bothWait])
  have e2 : recvLoop (rearm (onWrite (R.set { bothWait (.wait false :: srcA) (.sent 12288 :: dstA) srcB dstB (b :: bs) d with pWW := false } .a
      { R.half { bothWait (.wait false :: srcA) (.sent 12288 :: dstA) srcB dstB (b :: bs) d with pWW := false } .a with
        buf := [], out := (R.half { bothWait (.wait false :: srcA) (.sent 12288 :: dstA) srcB dstB (b :: bs) d with pWW := false } .a).out ++
          (R.half { bothWait (.wait false :: srcA) (.sent 12288 :: dstA) srcB dstB (b :: bs) d with pWW := false } .a).buf, dst := dstA }) .a .ok) .a) .a =
      lost srcA dstA srcB dstB (b :: bs) d false := by
    rw [recvLoop_wait (w := false) (q := srcA) (by simp [rearm, Tunnel.cap]) (by simp [rearm, R.half, R.set, bothWait, onWrite, setRead, setWrite])]
    simp [rearm, bothWait, lost, tw, onRead, onWrite, mod, R.set, R.half, setRead, setWrite, Ssl.read, Ssl.cache, Ssl.maskR, Event.Mask.none]
  have h := trafficSend_idle e1 rfl (by rw [e2]; rfl) (by rw [e2]; rfl)
  rw [e2] at h
  show some _ = _
  rw [← h]
  rfl

theorem step_lost_again (b : UInt8) (bs o d : List UInt8) (srcA : List Rd) (dstA : List Wr) (srcB : List Rd) (dstB : List Wr) (f : Bool) (hl : bs.length + 1 < 12288) :
    step (lost (.data b bs :: .wait false :: .wait false :: srcA) (.sent 12288 :: dstA) srcB dstB o d f) .tr =
      some (lost srcA dstA srcB dstB (o ++ b :: bs) d f) := by
  have e : recvLoop { lost (.data b bs :: .wait false :: .wait false :: srcA) (.sent 12288 :: dstA) srcB dstB o d f with tWR := false } .a =
      { lost srcA dstA srcB dstB o d f with a := ⟨.wait false :: srcA, .sent 12288 :: dstA, o, b :: bs, bs.length + 1, false⟩ } := by
    rw [recvLoop_seg rfl rfl hl rfl]
    simp [lost, tw, onRead, mod, R.set, R.half, Ssl.read, Ssl.restoreTyp, Ssl.restoreW, Ssl.cache, Ssl.maskR, Event.Mask.none]
  generalize hr : ({ lost srcA dstA srcB dstB o d f with a := ⟨.wait false :: srcA, .sent 12288 :: dstA, o, b :: bs, bs.length + 1, false⟩ } : R) = r at e
  have e1 := sendLoop_sent (r := setWrite (setRead r .a false) .a true) (d := .a) (n := 12288) (q := dstA)
    (by subst hr; simp [R.half, setRead, setWrite]) (by subst hr; simp [R.half, setRead, setWrite]; omega) (by subst hr; simp [R.half, setRead, setWrite])
  have e2 : recvLoop (rearm (onWrite ((setWrite (setRead r .a false) .a true).set .a
      { (setWrite (setRead r .a false) .a true).half .a with
        buf := [], out := ((setWrite (setRead r .a false) .a true).half .a).out ++ ((setWrite (setRead r .a false) .a true).half .a).buf, dst := dstA }) .a .ok) .a) .a =
      lost srcA dstA srcB dstB (o ++ b :: bs) d f := by
    subst hr
    rw [recvLoop_wait (w := false) (q := srcA) (by simp [rearm, Tunnel.cap]) (by simp [rearm, R.half, R.set, onWrite, setRead, setWrite])]
    simp [rearm, lost, tw, onRead, onWrite, mod, R.set, R.half, setRead, setWrite, Ssl.read, Ssl.cache, Ssl.maskR, Event.Mask.none]
  have h := trafficSend_idle e1 (by subst hr; rfl) (by rw [e2]; rfl) (by rw [e2]; rfl)
  rw [e2] at h
  rw [step_tr rfl rfl, trafficRecv_send (by rw [e]; subst hr; simp [R.half]), e, h]

theorem step_lost_idle (o d : List UInt8) (dstA : List Wr) (srcB : List Rd) (dstB : List Wr) (f : Bool) :
    step (lost [] dstA srcB dstB o d f) .tr = some (lost [] dstA srcB dstB o d f) := by
  have e : recvLoop { lost [] dstA srcB dstB o d f with tWR := false } .a = lost [] dstA srcB dstB o d f := by
    rw [recvLoop_nil (by simp [R.half, lost, Tunnel.cap]) (by simp [R.half, lost])]
    simp [lost, tw, onRead, mod, Ssl.read, Ssl.cache, Ssl.maskR, Event.Mask.none]
  rw [step_tr rfl rfl, trafficRecv_idle (by rw [e]; rfl) (by rw [e]; rfl), e]

end Verif.TlsRelay
