import Verif.Proofs.TlsRelayCex
/-
Property C102 (and parts of C07, C08, C09, C91): the relay together with the TLS layer's exchange of callbacks and interest. One connection of a session uses TLS.
Direction `a` is read from it, direction `b` is written to it.
-/
namespace Verif.TlsRelay
open Verif Verif.Spec.TlsRelay

/-- For all results of the TLS layer (including reads that wait for writing and writes that wait for reading), all results of the plain connection and all sequences
of events, as long as the process did not crash: each direction's bytes arrive in order, each once; what was not delivered is in the buffer or was not received yet.
Missing for the full claim: the message before the relay (the SOCKS5 reply of the server, the header of the tunnel client) must not have had to wait
(`c102_echo_counterexample`). -/
theorem c102_order_partial (client : Bool) (t0 : Ssl.S) (ws : List Ssl.Res) (early : List UInt8) (srcA : List Rd) (dstA : List Wr) (srcB : List Rd) (dstB : List Wr)
    (h : ∀ x ∈ ws, x = .ok) (hn : ws ≠ []) (hw : t0.ccw = none) (es : List Ev) (r : R)
    (hr : run (start client t0 ws early srcA dstA srcB dstB) es = some r) :
    r.a.out ++ r.a.buf ++ streamOf r.a.src = streamOf srcA ∧
    r.b.out ++ r.b.buf ++ streamOf r.b.src = (if client then early else []) ++ streamOf srcB := by
  have g := start_good client t0 ws early srcA dstA srcB dstB h hn hw
  have := (g.1.run g.2 hr).1.2
  exact ⟨(this .a).1, (this .b).1⟩

/-- When a session ends because a direction's source ended, everything that source had sent was delivered before. Same remark as for `c102_order_partial`. -/
theorem c102_flush_partial (client : Bool) (t0 : Ssl.S) (ws : List Ssl.Res) (early : List UInt8) (srcA : List Rd) (dstA : List Wr) (srcB : List Rd) (dstB : List Wr)
    (h : ∀ x ∈ ws, x = .ok) (hn : ws ≠ []) (hw : t0.ccw = none) (es : List Ev) (r : R)
    (hr : run (start client t0 ws early srcA dstA srcB dstB) es = some r) :
    (r.closed = some (.eof .a) → r.a.out = streamOf srcA) ∧ (r.closed = some (.eof .b) → r.b.out = (if client then early else []) ++ streamOf srcB) := by
  have g := start_good client t0 ws early srcA dstA srcB dstB h hn hw
  obtain ⟨g1, g2⟩ := g.1.run g.2 hr
  have ta := g1.2 .a
  have tb := g1.2 .b
  constructor
  · intro hc
    obtain ⟨h1, h2⟩ := g2 .a hc
    have h3 := ta.2 h2
    have h4 := ta.1
    simp only [R.half] at h1 h3 h4
    simpa [h1, h3, S0] using h4
  · intro hc
    obtain ⟨h1, h2⟩ := g2 .b hc
    have h3 := tb.2 h2
    have h4 := tb.1
    simp only [R.half] at h1 h3 h4
    simpa [h1, h3, S0] using h4

/-- When reads of the TLS layer wait for reading only and writes for writing only, then for all sequences of events the process does not crash, and while the session
is open: direction `a` moves on unless only writability of the TLS connection is registered; in that case bytes wait to be written to it, and direction `b` moves on.
Direction `b` moves on unless only readability of the TLS connection is registered and bytes wait to be written to it; in that case direction `a` moves on. Missing for
the full claim: in these cases the other direction stands still although its data could move (`c102_upload_starves_counterexample`,
`c102_wakeup_lost_counterexample`); other waits of the TLS layer (`c102_null_call_counterexample`). -/
theorem c102_progress_partial (client : Bool) (t0 : Ssl.S) (ws : List Ssl.Res) (early : List UInt8) (srcA : List Rd) (dstA : List Wr) (srcB : List Rd) (dstB : List Wr)
    (h : ∀ x ∈ ws, x = .ok) (hn : ws ≠ []) (hw : t0.ccw = none) (h1 : ReadsOnlyRead srcA) (h2 : WritesOnlyWrite dstB) (es : List Ev) :
    ∃ r, run (start client t0 ws early srcA dstA srcB dstB) es = some r ∧ (r.closed = none →
      (MovesA r ∨ (r.t.opt = ⟨false, true⟩ ∧ r.b.buf ≠ [] ∧ MovesB r)) ∧
      (MovesB r ∨ (r.t.opt = ⟨true, false⟩ ∧ r.b.buf ≠ [] ∧ MovesA r))) := by
  have l := start_live client t0 ws early srcA dstA srcB dstB h hn hw h1 h2
  obtain ⟨r, hr, lr, q⟩ := Q.run l.1 l.2 es
  refine ⟨r, hr, fun hc => ?_⟩
  obtain ⟨p, s, hl⟩ := lr hc
  have ha := hl .a
  have hb := hl .b
  have hq := q
  simp only [L, R.half, RArm, WArm, RWait, WWait] at ha hb
  simp only [MovesA, MovesB, Q] at *
  by_cases e1 : r.a.buf = [] <;> by_cases e2 : r.b.buf = [] <;> simp only [e1, e2, if_true, if_false, ne_eq, not_true, not_false_iff, false_imp_iff, true_and, and_true] at *
  all_goals grind

/-- In particular both directions move on whenever nothing waits to be written to the TLS connection. -/
theorem c102_no_stall_partial (client : Bool) (t0 : Ssl.S) (ws : List Ssl.Res) (early : List UInt8) (srcA : List Rd) (dstA : List Wr) (srcB : List Rd) (dstB : List Wr)
    (h : ∀ x ∈ ws, x = .ok) (hn : ws ≠ []) (hw : t0.ccw = none) (h1 : ReadsOnlyRead srcA) (h2 : WritesOnlyWrite dstB) (es : List Ev) (r : R)
    (hr : run (start client t0 ws early srcA dstA srcB dstB) es = some r) (hc : r.closed = none) (hb : r.b.buf = []) : MovesA r ∧ MovesB r := by
  obtain ⟨r', hr', k⟩ := c102_progress_partial client t0 ws early srcA dstA srcB dstB h hn hw h1 h2 es
  rw [hr] at hr'
  cases hr'
  have := k hc
  simp only [hb, ne_eq, not_true, false_and, and_false, or_false] at this
  exact this

/-- A write to the TLS connection that has to wait, for writing (`x = false`) or for reading (`x = true`), in a session whose other direction is quiet: what it waits for
is reported, no other event of the TLS connection can be reported, and when it is reported the bytes are written and both directions move on. -/
theorem c102_write_resumes_partial (x : Bool) (t0 : Ssl.S) (h0 : t0.ccw = none) (srcA : List Rd) (dstA : List Wr) (c : UInt8)
    (cs : List UInt8) (hl : cs.length + 1 < 12288) (srcB : List Rd) (dstB : List Wr) :
    Possible (start false t0 [.ok] [] (.wait false :: srcA) dstA (.data c cs :: .wait false :: .wait false :: srcB) (.wait x :: .sent 12288 :: dstB)) [.pr, if x then .tr else .tw] ∧
    ¬ Possible (start false t0 [.ok] [] (.wait false :: srcA) dstA (.data c cs :: .wait false :: .wait false :: srcB) (.wait x :: .sent 12288 :: dstB)) [.pr, if x then .tw else .tr] ∧
    ∃ r, run (start false t0 [.ok] [] (.wait false :: srcA) dstA (.data c cs :: .wait false :: .wait false :: srcB) (.wait x :: .sent 12288 :: dstB))
        [.pr, if x then .tr else .tw] = some r ∧
      r.b.out = c :: cs ∧ r.b.buf = [] ∧ r.a.out = [] ∧ r.a.src = srcA ∧ r.b.src = srcB ∧ r.closed = none ∧ MovesA r ∧ MovesB r := by
  rw [start_idle t0 h0]
  have s1 := step_upWaitsX x srcA dstA c cs (.wait false :: srcB) (.sent 12288 :: dstB) hl
  have s2 := step_resumed x srcA dstA c cs srcB dstB hl
  refine ⟨⟨rfl, fun r' hr => ?_⟩, fun hp => ?_, resumed srcA dstA srcB dstB (c :: cs), ?_, rfl, rfl, rfl, rfl, rfl, rfl, ⟨rfl, rfl⟩, ⟨rfl, rfl⟩⟩
  · rw [s1] at hr; cases hr
    exact ⟨by cases x <;> rfl, fun _ _ => trivial⟩
  · have := (hp.2 _ s1).1
    cases x <;> simp [Reportable, upWaitsX] at this
  · simp only [run, s1, Option.bind_some, s2]

/-- COUNTEREXAMPLE (upload stands still while the client does not read): the client sent `b :: bs`, the target can take it, but since a write to the client blocked only
writability of the client is registered. Whatever `epoll` can report except that the client can be written to again (and timers): nothing of the upload moves. -/
theorem c102_upload_starves_counterexample (t0 : Ssl.S) (h0 : t0.ccw = none) (b : UInt8) (bs : List UInt8) (srcA : List Rd) (dstA : List Wr) (c : UInt8)
    (cs : List UInt8) (hl : cs.length + 1 < 12288) (srcB : List Rd) (dstB : List Wr) :
    ∃ r, run (start false t0 [.ok] [] (.wait false :: .data b bs :: srcA) (.sent 12288 :: dstA) (.data c cs :: .wait false :: srcB) (.wait false :: dstB)) [.pr] = some r ∧
      Possible (start false t0 [.ok] [] (.wait false :: .data b bs :: srcA) (.sent 12288 :: dstA) (.data c cs :: .wait false :: srcB) (.wait false :: dstB)) [.pr] ∧
      r.a.src = .data b bs :: srcA ∧ r.a.dst = .sent 12288 :: dstA ∧ r.a.buf = [] ∧ r.closed = none ∧
      ∀ es r', Possible r es → Ev.tw ∉ es → Ev.timeout ∉ es → run r es = some r' → r'.a = r.a ∧ r'.closed = none := by
  rw [start_idle t0 h0]
  refine ⟨upWaits (.data b bs :: srcA) (.sent 12288 :: dstA) srcB dstB (c :: cs), ?_, ?_, rfl, rfl, rfl, rfl, ?_⟩
  · simp only [run, step_upWaits _ _ _ _ _ _ hl, Option.bind_some]
  · exact ⟨rfl, fun _ _ => trivial⟩
  · intro es r' hp h1 h2 hr
    have := possible_inv (P := fun r => r.tWR = false ∧ r.pr = false ∧ r.pw = false ∧ r.closed = none ∧ r.a = ⟨.data b bs :: srcA, .sent 12288 :: dstA, [], [], 0, false⟩)
      ?_ (r := upWaits (.data b bs :: srcA) (.sent 12288 :: dstA) srcB dstB (c :: cs)) ⟨rfl, rfl, rfl, rfl, rfl⟩ hp h1 h2 hr
    · exact ⟨this.2.2.2.2, this.2.2.2.1⟩
    · rintro r e r1 ⟨i1, i2, i3, i4, i5⟩ hrep n1 n2 hs
      cases e with
      | tr => simp [Reportable, i1] at hrep
      | tw => exact absurd rfl n1
      | timeout => exact absurd rfl n2
      | pr => simp only [step, i4, i2, Bool.false_eq_true, if_false] at hs; cases hs; exact ⟨i1, rfl, i3, rfl, i5⟩
      | pw => simp only [step, i4, i3, Bool.false_eq_true, if_false] at hs; cases hs; exact ⟨i1, i2, rfl, rfl, i5⟩

/-- The upload segments of `c102_wakeup_lost_counterexample` as results of the TLS layer: each is followed by would-block, and so is the attempt after it was sent. -/
def segs : List (UInt8 × List UInt8) → List Rd
  | [] => []
  | u :: us => .data u.1 u.2 :: .wait false :: .wait false :: segs us

/-- COUNTEREXAMPLE (the wake-up is lost): download data `c :: cs` waits for the client (one write would have blocked), and uploads go on. Every read from the client that
has to wait registers readability only. Then no matter how many upload segments follow, the download stands still although the client takes everything again, and
whatever `epoll` can report from then on (except timers): it never moves again. -/
theorem c102_wakeup_lost_counterexample (t0 : Ssl.S) (h0 : t0.ccw = none) (b : UInt8) (bs : List UInt8) (hb : bs.length + 1 < 12288) (c : UInt8) (cs : List UInt8)
    (hl : cs.length + 1 < 12288) (srcB : List Rd) (dstB : List Wr) (us : List (UInt8 × List UInt8)) (hu : ∀ u ∈ us, u.2.length + 1 < 12288) :
    ∃ r, run (start false t0 [.ok] [] (.wait false :: .data b bs :: .wait false :: .wait false :: segs us) (.wait false :: .sent 12288 :: List.replicate us.length (.sent 12288))
        (.data c cs :: .wait false :: srcB) (.wait false :: .sent 12288 :: dstB)) ([.tr, .pr, .pw] ++ List.replicate us.length .tr) = some r ∧
      Possible (start false t0 [.ok] [] (.wait false :: .data b bs :: .wait false :: .wait false :: segs us) (.wait false :: .sent 12288 :: List.replicate us.length (.sent 12288))
        (.data c cs :: .wait false :: srcB) (.wait false :: .sent 12288 :: dstB)) ([.tr, .pr, .pw] ++ List.replicate us.length .tr) ∧
      r.a.out = b :: bs ++ us.flatMap (fun u => u.1 :: u.2) ∧ r.b.buf = c :: cs ∧ r.b.dst = .sent 12288 :: dstB ∧ r.closed = none ∧
      ∀ es r', Possible r es → Ev.timeout ∉ es → run r es = some r' → r'.b = r.b ∧ r'.b.out = [] ∧ r'.closed = none := by
  rw [start_idle t0 h0]
  generalize hdb : (Wr.sent 12288 :: dstB) = dB
  have key : ∀ (us : List (UInt8 × List UInt8)), (∀ u ∈ us, u.2.length + 1 < 12288) → ∀ o : List UInt8,
      run (lost (segs us) (List.replicate us.length (.sent 12288)) srcB dB o (c :: cs) false) (List.replicate us.length .tr) =
        some (lost [] [] srcB dB (o ++ us.flatMap (fun u => u.1 :: u.2)) (c :: cs) false) ∧
      Possible (lost (segs us) (List.replicate us.length (.sent 12288)) srcB dB o (c :: cs) false) (List.replicate us.length .tr) := by
    intro us
    induction us with
    | nil => intro _ o; simp [segs, run, Possible]
    | cons u us ih =>
      intro hu o
      have e := step_lost_again u.1 u.2 o (c :: cs) (segs us) (List.replicate us.length (.sent 12288)) srcB dB false (hu u (by simp))
      have k := ih (fun x hx => hu x (by simp [hx])) (o ++ u.1 :: u.2)
      simp only [segs, List.length_cons, List.replicate_succ, run, e, Option.bind_some, List.flatMap_cons]
      constructor
      · rw [k.1]; simp
      · refine ⟨rfl, fun r' hr => ?_⟩
        rw [e] at hr; cases hr
        exact k.2
  have k := key us hu (b :: bs)
  have s1 := step_upBlocked b bs (.wait false :: segs us) (.sent 12288 :: List.replicate us.length (.sent 12288)) (.data c cs :: .wait false :: srcB) (.wait false :: dB) hb
  have s2 := step_bothWait (b :: bs) c cs (.wait false :: segs us) (.sent 12288 :: List.replicate us.length (.sent 12288)) srcB dB hl
  have s3 := step_lost b bs (c :: cs) (segs us) (List.replicate us.length (.sent 12288)) srcB dB hb
  refine ⟨lost [] [] srcB dB (b :: bs ++ us.flatMap (fun u => u.1 :: u.2)) (c :: cs) false, ?_, ?_, rfl, rfl, rfl, rfl, ?_⟩
  · simp only [List.cons_append, List.nil_append, run, s1, s2, s3, Option.bind_some]
    exact k.1
  · refine ⟨rfl, fun r' hr => ?_⟩
    rw [s1] at hr; cases hr
    refine ⟨rfl, fun r' hr => ?_⟩
    rw [s2] at hr; cases hr
    refine ⟨rfl, fun r' hr => ?_⟩
    rw [s3] at hr; cases hr
    exact k.2
  · intro es r' hp h2 hr
    have := possible_inv' (P := fun r => ∃ f g, r = { lost [] [] srcB dB (b :: bs ++ us.flatMap (fun u => u.1 :: u.2)) (c :: cs) f with pWR := g })
      ?_ ?_ (r := lost [] [] srcB dB (b :: bs ++ us.flatMap (fun u => u.1 :: u.2)) (c :: cs) false) ⟨false, true, rfl⟩ hp h2 hr
    · obtain ⟨f, g, rfl⟩ := this
      exact ⟨rfl, rfl, rfl⟩
    · rintro r ⟨f, g, rfl⟩; rfl
    · rintro r e r1 ⟨f, g, rfl⟩ hrep n1 n2 hs
      cases e with
      | tw => exact absurd rfl n1
      | timeout => exact absurd rfl n2
      | tr =>
        refine ⟨f, g, ?_⟩
        rw [step_tr rfl rfl] at hs
        rw [trafficRecv_idle, recvLoop_nil] at hs
        · cases hs; rfl
        · simp [R.half, lost, Tunnel.cap]
        · rfl
        · rw [recvLoop_nil (by simp [R.half, lost, Tunnel.cap]) rfl]; rfl
        · rw [recvLoop_nil (by simp [R.half, lost, Tunnel.cap]) rfl]; rfl
      | pr => cases hs; exact ⟨f, false, rfl⟩
      | pw => cases hs; exact ⟨false, g, rfl⟩

/-- COUNTEREXAMPLE (call of NULL): a read returned data, the next one has to wait until the TLS layer can write, and the target does not take the data at once. Then the read
callback is NULL and the write callback calls it: the worker crashes as soon as the client can be written to. -/
theorem c102_null_call_counterexample (t0 : Ssl.S) (h0 : t0.ccw = none) (b : UInt8) (bs : List UInt8) (hb : bs.length + 1 < 12288) (srcA : List Rd) (dstA : List Wr)
    (srcB : List Rd) (dstB : List Wr) :
    Possible (start false t0 [.ok] [] (.wait false :: .data b bs :: .wait true :: srcA) (.wait false :: dstA) srcB dstB) [.tr, .tw] ∧
    run (start false t0 [.ok] [] (.wait false :: .data b bs :: .wait true :: srcA) (.wait false :: dstA) srcB dstB) [.tr, .tw] = none := by
  rw [start_idle t0 h0]
  have e : recvLoop { idle (.data b bs :: .wait true :: srcA) (.wait false :: dstA) srcB dstB with tWR := false } .a =
      { idle srcA dstA srcB dstB with
        t := tw ⟨false, true⟩ (some (.app 0)) (some .rd) none, tWR := false, tWW := true
        a := ⟨srcA, .wait false :: dstA, [], b :: bs, bs.length + 1, false⟩ } := by
    rw [recvLoop_seg rfl rfl hb rfl]
    simp [idle, tw, onRead, mod, R.set, R.half, Ssl.read, Ssl.restoreTyp, Ssl.restoreW, Ssl.cache, Ssl.maskW, Event.Mask.none]
  have h : step (idle (.data b bs :: .wait true :: srcA) (.wait false :: dstA) srcB dstB) .tr = some { idle srcA dstA srcB dstB with
      t := tw ⟨false, true⟩ none (some .rd) none, tWR := false, tWW := true, pw := true
      a := ⟨srcA, dstA, [], b :: bs, bs.length + 1, false⟩ } := by
    rw [step_tr rfl rfl, trafficRecv_send (by rw [e]; simp [R.half]), e]
    congr 1
    refine trafficSend_again ?_
    rw [sendLoop_wait (x := false) (q := dstA) (by simp [R.half, setRead, setWrite]) (by simp [R.half, setRead, setWrite])]
    simp [idle, tw, onWrite, R.set, R.half, setRead, setWrite]
  constructor
  · refine ⟨rfl, fun r' hr => ?_⟩
    rw [h] at hr; cases hr
    exact ⟨rfl, fun _ _ => trivial⟩
  · simp only [run, h, Option.bind_some]
    rfl

/-- COUNTEREXAMPLE (uploads sent back): the SOCKS5 reply had to wait once; the client sends at least 12288 bytes and the target does not take them at once. When the
client can be written to, these bytes are sent back to the client, as if they came from the target, and the target never gets them. -/
theorem c102_echo_counterexample (t0 : Ssl.S) (h0 : t0.ccw = none) (h1 : t0.wcb = some (.app 2)) (b : UInt8) (bs : List UInt8) (hb : 12288 ≤ bs.length + 1)
    (srcA : List Rd) (dstA : List Wr) (srcB : List Rd) (dstB : List Wr) :
    Possible (start false t0 [.wantW, .ok] [] (.data b bs :: srcA) (.wait false :: dstA) srcB (.sent 12288 :: dstB)) [.tw] ∧
    ∃ r, run (start false t0 [.wantW, .ok] [] (.data b bs :: srcA) (.wait false :: dstA) srcB (.sent 12288 :: dstB)) [.tw] = some r ∧
      r.b.out = (b :: bs).take 12288 ∧ r.a.out ++ r.a.buf ++ streamOf r.a.src = (b :: bs).drop 12288 ++ streamOf srcA := by
  have c1 : ([.wantW, .ok].foldl Ssl.write t0).ccr = none := by
    simp only [List.foldl, Ssl.write, Ssl.cache, Ssl.restoreR, Ssl.restoreTyp]; grind
  have c2 : ([.wantW, .ok].foldl Ssl.write t0).typ = Event.Mask.none := by
    simp only [List.foldl, Ssl.write, Ssl.cache, Ssl.restoreR, Ssl.restoreTyp]; grind
  have c3 : ([.wantW, .ok].foldl Ssl.write t0).ccw = some (.app 2) := by
    simp only [List.foldl, Ssl.write, Ssl.cache, Ssl.restoreR, Ssl.restoreTyp, h0, h1]; grind
  have e : recvLoop (r1 false (some (.app 2)) [] (.data b bs :: srcA) (.wait false :: dstA) srcB (.sent 12288 :: dstB)) .a =
      { r1 false none [] srcA dstA srcB (.sent 12288 :: dstB) with
        t := { t1 none with wcb := some (.app 2) }
        a := ⟨pushBack 12288 b bs srcA, .wait false :: dstA, [], (b :: bs).take 12288, 12288, false⟩ } := by
    rw [recvLoop_data (b := b) (bs := bs) (q := srcA) (by simp [R.half, r1, Tunnel.cap]) rfl]
    have hm : min 12288 (bs.length + 1) = 12288 := by omega
    rw [recvLoop_full]
    · simp [r1, t1, onRead, mod, R.set, R.half, Ssl.read, Ssl.restoreTyp, Ssl.restoreW, Event.Mask.none, Tunnel.cap, hm]
    · simp only [half_onRead, half_set]
      simp [r1, R.half, Tunnel.cap, hm]
  have hs : start false t0 [.wantW, .ok] [] (.data b bs :: srcA) (.wait false :: dstA) srcB (.sent 12288 :: dstB) =
      { r1 false none [] srcA dstA srcB (.sent 12288 :: dstB) with
        t := { t1 none with rcb := none, wcb := some (.app 2) }, pw := true
        a := ⟨pushBack 12288 b bs srcA, dstA, [], (b :: bs).take 12288, 12288, false⟩ } := by
    rw [start_eq _ _ _ _ _ _ _ _ c1 c2, c3]
    simp only [Bool.false_eq_true, if_false]
    rw [trafficRecv_send (by rw [e]; simp [R.half]), e]
    refine trafficSend_again ?_
    rw [sendLoop_wait (x := false) (q := dstA) (by simp [R.half, setRead, setWrite]) (by simp [R.half, setRead, setWrite])]
    simp [r1, t1, onWrite, R.set, R.half, setRead, setWrite]
  rw [hs]
  constructor
  · exact ⟨rfl, fun _ _ => trivial⟩
  · generalize hr0 : ({ r1 false none [] srcA dstA srcB (.sent 12288 :: dstB) with
        t := { t1 none with rcb := none, wcb := some (.app 2) }, pw := true, tWW := false
        a := ⟨pushBack 12288 b bs srcA, dstA, [], (b :: bs).take 12288, 12288, false⟩ } : R) = r0
    have f : firstLoop r0 = (onWrite { r0 with
        a := { r0.a with buf := [] }, b := { r0.b with dst := dstB, out := (b :: bs).take 12288 } } .b .ok, .drained) := by
      have := firstLoop_sent (r := r0) (n := 12288) (q := dstB) (by subst hr0; simp) (by subst hr0; simp; omega) (by subst hr0; rfl)
      rw [this]
      subst hr0
      rfl
    have hg := proc_good (S := fun | .a => (b :: bs).drop 12288 ++ streamOf srcA | .b => (b :: bs).take 12288 ++ streamOf srcB)
      (r := (onWrite { r0 with a := { r0.a with buf := [], used := 0 }, b := { r0.b with dst := dstB, out := (b :: bs).take 12288 } } .b .ok))
      ?_ ?_ ?_ ?_
    · refine ⟨proc (onWrite { r0 with a := { r0.a with buf := [], used := 0 }, b := { r0.b with dst := dstB, out := (b :: bs).take 12288 } } .b .ok), ?_, ?_, ?_⟩
      · have : step { r1 false none [] srcA dstA srcB (.sent 12288 :: dstB) with
            t := { t1 none with rcb := none, wcb := some (.app 2) }, pw := true
            a := ⟨pushBack 12288 b bs srcA, dstA, [], (b :: bs).take 12288, 12288, false⟩ } .tw = some (first r0) := by
          subst hr0; rfl
        simp only [run, this, Option.bind_some, first, f]
        subst hr0
        rfl
      · subst hr0
        rw [proc_out_b rfl]
        rfl
      · exact (hg.1.2 .a).1
    · subst hr0; exact ⟨rfl, rfl⟩
    · subst hr0; rfl
    · subst hr0
      intro d
      have hp := streamOf_pushBack 12288 b bs srcA
      have hp2 : streamOf (pushBack 12288 b bs srcA) = (b :: bs).drop 12288 ++ streamOf srcA := by
        have := List.take_append_drop 12288 (b :: bs)
        rw [← this, List.append_assoc] at hp
        simpa using hp
      rw [half_onWrite]
      cases d
      · exact ⟨hp2, by simp [R.half]⟩
      · exact ⟨by simp [R.half, r1], by simp [R.half, r1]⟩
    · subst hr0; rfl

/-- COUNTEREXAMPLE (C86: what reaches the upstream is not a contiguous part of the client's stream): the same with a target that takes the first `k` bytes at once. It gets
these, and then what follows the first 12288 bytes; what is between them is sent back to the client. -/
theorem c86_gap_counterexample (t0 : Ssl.S) (h0 : t0.ccw = none) (h1 : t0.wcb = some (.app 2)) (b : UInt8) (bs : List UInt8) (hb : 12288 ≤ bs.length + 1)
    (k : Nat) (hk : k < 12288) (srcA : List Rd) (dstA : List Wr) (srcB : List Rd) (dstB : List Wr) :
    Possible (start false t0 [.wantW, .ok] [] (.data b bs :: srcA) (.sent k :: .wait false :: dstA) srcB (.sent 12288 :: dstB)) [.tw] ∧
    ∃ r, run (start false t0 [.wantW, .ok] [] (.data b bs :: srcA) (.sent k :: .wait false :: dstA) srcB (.sent 12288 :: dstB)) [.tw] = some r ∧
      r.b.out = ((b :: bs).take 12288).drop k ∧
      r.a.out ++ r.a.buf ++ streamOf r.a.src = (b :: bs).take k ++ (b :: bs).drop 12288 ++ streamOf srcA := by
  have c1 : ([.wantW, .ok].foldl Ssl.write t0).ccr = none := by
    simp only [List.foldl, Ssl.write, Ssl.cache, Ssl.restoreR, Ssl.restoreTyp]; grind
  have c2 : ([.wantW, .ok].foldl Ssl.write t0).typ = Event.Mask.none := by
    simp only [List.foldl, Ssl.write, Ssl.cache, Ssl.restoreR, Ssl.restoreTyp]; grind
  have c3 : ([.wantW, .ok].foldl Ssl.write t0).ccw = some (.app 2) := by
    simp only [List.foldl, Ssl.write, Ssl.cache, Ssl.restoreR, Ssl.restoreTyp, h0, h1]; grind
  have e : recvLoop (r1 false (some (.app 2)) [] (.data b bs :: srcA) (.sent k :: .wait false :: dstA) srcB (.sent 12288 :: dstB)) .a =
      { r1 false none [] srcA dstA srcB (.sent 12288 :: dstB) with
        t := { t1 none with wcb := some (.app 2) }
        a := ⟨pushBack 12288 b bs srcA, .sent k :: .wait false :: dstA, [], (b :: bs).take 12288, 12288, false⟩ } := by
    rw [recvLoop_data (b := b) (bs := bs) (q := srcA) (by simp [R.half, r1, Tunnel.cap]) rfl]
    have hm : min 12288 (bs.length + 1) = 12288 := by omega
    rw [recvLoop_full]
    · simp [r1, t1, onRead, mod, R.set, R.half, Ssl.read, Ssl.restoreTyp, Ssl.restoreW, Event.Mask.none, Tunnel.cap, hm]
    · simp only [half_onRead, half_set]
      simp [r1, R.half, Tunnel.cap, hm]
  have hlen : ((b :: bs).take 12288).length = 12288 := by rw [List.length_take]; simp; omega
  have hk2 : ((b :: bs).take 12288).take k = (b :: bs).take k := by rw [List.take_take]; congr 1; omega
  have hp2 : streamOf (pushBack 12288 b bs srcA) = (b :: bs).drop 12288 ++ streamOf srcA := by
    have hp := streamOf_pushBack 12288 b bs srcA
    have := List.take_append_drop 12288 (b :: bs)
    rw [← this, List.append_assoc] at hp
    simpa using hp
  rw [← hk2]
  generalize (b :: bs).take 12288 = P at e hlen
  have hP : P ≠ [] := by rintro rfl; simp at hlen
  have hd : P.drop k ≠ [] := by rw [ne_eq, List.drop_eq_nil_iff]; omega
  have hs : start false t0 [.wantW, .ok] [] (.data b bs :: srcA) (.sent k :: .wait false :: dstA) srcB (.sent 12288 :: dstB) =
      { r1 false none [] srcA dstA srcB (.sent 12288 :: dstB) with
        t := { t1 none with rcb := none, wcb := some (.app 2) }, pw := true
        a := ⟨pushBack 12288 b bs srcA, dstA, P.take k, P.drop k, 12288, false⟩ } := by
    rw [start_eq _ _ _ _ _ _ _ _ c1 c2, c3]
    simp only [Bool.false_eq_true, if_false]
    rw [trafficRecv_send (by rw [e]; simpa [R.half] using hP), e]
    refine trafficSend_again ?_
    rw [sendLoop_part (n := k) (q := .wait false :: dstA) (by simpa [R.half, setRead, setWrite] using hP) (by simp [R.half, setRead, setWrite])]
    rw [sendLoop_wait (x := false) (q := dstA) (by rw [half_onWrite, half_set]; simpa [R.half, setRead, setWrite] using hd)
      (by rw [half_onWrite, half_set])]
    simp [r1, t1, onWrite, R.set, R.half, setRead, setWrite]
  rw [hs]
  constructor
  · exact ⟨rfl, fun _ _ => trivial⟩
  · generalize hr0 : ({ r1 false none [] srcA dstA srcB (.sent 12288 :: dstB) with
        t := { t1 none with rcb := none, wcb := some (.app 2) }, pw := true, tWW := false
        a := ⟨pushBack 12288 b bs srcA, dstA, P.take k, P.drop k, 12288, false⟩ } : R) = r0
    have f : firstLoop r0 = (onWrite { r0 with
        a := { r0.a with buf := [] }, b := { r0.b with dst := dstB, out := P.drop k } } .b .ok, .drained) := by
      have := firstLoop_sent (r := r0) (n := 12288) (q := dstB) (by subst hr0; exact hd) (by subst hr0; simp; omega) (by subst hr0; rfl)
      rw [this]
      subst hr0
      rfl
    have hg := proc_good (S := fun | .a => P.take k ++ (b :: bs).drop 12288 ++ streamOf srcA | .b => P.drop k ++ streamOf srcB)
      (r := (onWrite { r0 with a := { r0.a with buf := [], used := 0 }, b := { r0.b with dst := dstB, out := P.drop k } } .b .ok))
      ?_ ?_ ?_ ?_
    · refine ⟨proc (onWrite { r0 with a := { r0.a with buf := [], used := 0 }, b := { r0.b with dst := dstB, out := P.drop k } } .b .ok), ?_, ?_, ?_⟩
      · have : step { r1 false none [] srcA dstA srcB (.sent 12288 :: dstB) with
            t := { t1 none with rcb := none, wcb := some (.app 2) }, pw := true
            a := ⟨pushBack 12288 b bs srcA, dstA, P.take k, P.drop k, 12288, false⟩ } .tw = some (first r0) := by
          subst hr0; rfl
        simp only [run, this, Option.bind_some, first, f]
        subst hr0
        rfl
      · subst hr0
        rw [proc_out_b rfl]
        rfl
      · exact (hg.1.2 .a).1
    · subst hr0; exact ⟨rfl, rfl⟩
    · subst hr0; rfl
    · subst hr0
      intro d
      rw [half_onWrite]
      cases d
      · exact ⟨by simp [R.half, hp2], by simp [R.half]⟩
      · exact ⟨by simp [R.half, r1], by simp [R.half, r1]⟩
    · subst hr0; rfl

/-- The TLS connection of the server before its SOCKS5 reply. -/
def exT : Ssl.S := ⟨⟨true, false⟩, none, some (.app 2), ⟨false, false⟩, some (.app 3), none⟩

/-- Concrete case (`c102_order_partial`, `c102_flush_partial`): reads and writes that wait for the other direction of the TLS connection, a target that blocks; the client ends. -/
example : (run (start false exT [.ok] [] [.wait false, .data 1 [2], .wait false, .data 3 [], .fail] [.sent 1, .wait false, .sent 5, .sent 1] [.data 7 [8]] [.wait true, .sent 1, .sent 1])
    [.tr, .pr, .tr, .pw, .tr]).map (fun r => (r.a.out, r.b.out, r.closed)) = some ([1, 2, 3], [7, 8], some (.eof .a)) := by decide +kernel
/-- The tunnel client, with data received before the relay. -/
example : (run (start true exT [.ok] [9] [.data 1 [2], .wait true] [.sent 5] [.data 7 [], .fail] [.sent 1, .sent 1]) []).map (fun r => (r.b.out, r.closed)) =
    some ([9, 7], some (.eof .b)) := by decide +kernel

/-- Concrete case (`c102_progress_partial`, `c102_no_stall_partial`): a session in the middle of its work, and the two cases in which one direction stands still. -/
example : ReadsOnlyRead [.wait false, .data 1 [2], .wait false] ∧ WritesOnlyWrite [.wait false, .sent 1] := by simp [ReadsOnlyRead, WritesOnlyWrite]
example : (run (start false exT [.ok] [] [.wait false, .data 1 [2], .wait false] [.sent 5] [.data 7 [8]] [.sent 2]) [.tr, .pr]).map
    (fun r => (r.closed, r.a.out, r.b.out, r.b.buf, r.tWR)) = some (none, [1, 2], [7, 8], [], true) := by decide +kernel
example : (run (start false exT [.ok] [] [.wait false, .data 1 [2]] [.sent 5] [.data 7 [8]] [.wait false, .sent 2]) [.pr]).map
    (fun r => (r.closed, r.t.opt, r.b.buf, r.tWR, r.tWW)) = some (none, ⟨false, true⟩, [7, 8], false, true) := by decide +kernel

/-- Concrete case (`c102_write_resumes_partial`): `[7, 8]` waits until the client can be read. -/
example := c102_write_resumes_partial true exT rfl [.data 1 []] [] 7 [8] (by decide) [] []

/-- Concrete case (`c102_upload_starves_counterexample`): the upload `[1, 2]` waits for the client to read `[7, 8]`. -/
example := c102_upload_starves_counterexample exT rfl 1 [2] [] [] 7 [8] (by decide) [] [.sent 2]

/-- Concrete case (`c102_wakeup_lost_counterexample`): two more segments are uploaded; the answer `[7, 8]` stays where it is. -/
example := c102_wakeup_lost_counterexample exT rfl 1 [2] (by decide) 7 [8] (by decide) [] [.sent 2] [(3, []), (4, [5])] (by simp)
example : (run (start false exT [.ok] [] (.wait false :: .data 1 [2] :: .wait false :: .wait false :: segs [(3, []), (4, [5])]) [.wait false, .sent 12288, .sent 12288, .sent 12288]
    [.data 7 [8], .wait false] [.wait false, .sent 12288]) [.tr, .pr, .pw, .tr, .tr]).map (fun r => (r.a.out, r.b.buf, r.b.out, r.tWR, r.tWW)) =
    some ([1, 2, 3, 4, 5], [7, 8], [], true, false) := by decide +kernel

/-- Concrete case (`c102_null_call_counterexample`). -/
example := c102_null_call_counterexample exT rfl 1 [2] (by decide) [] [] [] []

/-- Concrete case (`c102_echo_counterexample`): 12289 bytes are uploaded. -/
example := c102_echo_counterexample exT rfl rfl 1 (List.replicate 12288 5) (by rw [List.length_replicate]; omega) [] [] [] []

/-- Concrete case (`c86_gap_counterexample`): of 12290 bytes the target gets the first two and the last two. -/
example := c86_gap_counterexample exT rfl rfl 1 (List.replicate 12289 5) (by rw [List.length_replicate]; omega) 2 (by omega) [] [.sent 12288] [] []

end Verif.TlsRelay
