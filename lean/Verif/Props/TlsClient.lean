import Verif.Proofs.TlsClient
import Verif.Props.TlsRelay
/-
C105: the tunnel client's exchange before the relay, on top of TLS.
-/
namespace Verif.TlsClient
open Verif Verif.Spec.TlsClient
open Verif.TlsRelay (Rd)
open Verif.Spec.TlsRelay (streamOf)

variable {key : List UInt8}

/-- A history used in the cases below: the connection is established later; the local program sends meanwhile; the handshake waits for reading twice and for writing
once; the header waits for reading and for writing. -/
def hist : List Ev :=
  [.readable, .report true true, .dispatch, .call .go, .call .waitR, .edge true false, .report true true, .dispatch, .call .waitR, .readable,
    .report true true, .dispatch, .call .waitW, .report true true, .dispatch, .call .go,
    .call .waitR, .report true true, .dispatch, .call .waitW, .report true true, .dispatch, .call .go]

/-- What the local program sends in it. -/
def input : List Rd := [.data 1 [2], .wait false, .data 3 [], .wait false, .data 4 [5]]

/-- For all results of the TLS layer, in the handshake and afterwards, all orders of reports and dispatches and all timers: NULL is never called, callbacks never
call each other without end, and never does a handler run that is not the one of the session's phase. -/
theorem c105_right_handler (now : Bool) (src : List Rd) (es : List Ev) : (run key (init now src) es).bad = none :=
  ((inv_init now src).run es).1

/-- Case: the history above, up to the relay. -/
example : (run [7] (init false input) hist).phase = .relay ∧ (run [7] (init false input) hist).bad = none ∧
    (run [7] (init true input) [.call .go, .call .waitW, .report true true, .dispatch, .call .go]).phase = .auth := by decide +kernel

/-- Nothing gets stuck: at any time when control is with the event loop, once `epoll` reports what it has, the next dispatched event of the upstream connection runs
the handler of the session's phase, and nothing else has changed by then. -/
theorem c105_wakes (now : Bool) (src : List Rd) (es : List Ev) (c : C) (hc : run key (init now src) es = c) (ha : c.active = false)
    (hk : c.phase ≠ .relay ∧ ∀ w, c.phase ≠ .closed w) :
    let d := run key c [.report true true, .dispatch]
    d.active = true ∧ d.phase = c.phase ∧ d.cache = c.cache ∧ d.src = c.src ∧ d.wire = c.wire := by
  have hi := (inv_init now src).run (key := key) es
  rw [hc] at hi
  have ho : ¬ over c = true := by
    intro h
    simp only [over, hi.1, Option.isSome_none, Bool.false_or] at h
    cases hp : c.phase with
    | relay => exact hk.1 hp
    | closed w => exact hk.2 w hp
    | conn => simp [hp, handler] at h
    | shake => simp [hp, handler] at h
    | auth => simp [hp, handler] at h
  have hd : Due c := by
    obtain ⟨hb, hf⟩ := hi
    cases hp : c.phase with
    | relay => exact absurd hp hk.1
    | closed w => exact absurd hp (hk.2 w)
    | conn => rw [hp] at hf; exact hf.2.2.2 ha
    | shake =>
      rw [hp] at hf
      rcases hf with ⟨h, -⟩ | ⟨-, -, -, -, -, -, h⟩
      · rw [ha] at h; cases h
      · exact (h ha).1
    | auth => rw [hp] at hf; exact (hf.2.2.2.2.1 ha).1
  have hi' := hi.step (key := key) (.report true true)
  have hs : step key c (.report true true) = { c with qR := c.qR || (c.aR && c.t.opt.r), aR := c.aR && !c.t.opt.r, qW := c.qW || (c.aW && c.t.opt.w), aW := c.aW && !c.t.opt.w } := by
    unfold step; rw [if_neg ho]; simp [ha]
  have hq : (step key c (.report true true)).qR = true ∨ (step key c (.report true true)).qW = true := by
    rw [hs]
    rcases hd with ⟨-, h2, h3, -⟩ | ⟨-, h2, h3, -⟩
    · left; rcases h3 with h3 | h3 <;> simp [h2, h3]
    · right; rcases h3 with h3 | h3 <;> simp [h2, h3]
  have ha' : (step key c (.report true true)).active = false := by rw [hs]; exact ha
  have ho' : ¬ over (step key c (.report true true)) = true := by rw [hs]; exact ho
  obtain ⟨-, e1, e2⟩ := inv_dispatch (key := key) hi' ho' ha'
  have cb : ∀ (d : C) (x : Option Ssl.Cb), (callCb d x).cache = d.cache ∧ (callCb d x).src = d.src ∧ (callCb d x).wire = d.wire := by
    intro d x
    unfold callCb
    (repeat' split) <;> exact ⟨rfl, rfl, rfl⟩
  have data : ∀ d : C, (step key d .dispatch).cache = d.cache ∧ (step key d .dispatch).src = d.src ∧ (step key d .dispatch).wire = d.wire := by
    intro d
    simp only [step]
    (repeat' split) <;> first | exact ⟨rfl, rfl, rfl⟩ | exact cb _ _
  refine ⟨e1 hq, ?_, ?_⟩
  · show (step key (step key c (.report true true)) .dispatch).phase = _
    rw [e2, hs]
  · have := data (step key c (.report true true))
    simp only [run, List.foldl_cons, List.foldl_nil]
    rw [hs] at this ⊢
    exact this

/-- Case: the handshake waits for reading; the header waits for writing. -/
example :
    let c := run [7] (init false input) (hist.take 5)
    let d := run [7] (init false input) (hist.take 20)
    c.phase = .shake ∧ c.active = false ∧ (run [7] c [.report true true, .dispatch]).active = true ∧
    d.phase = .auth ∧ d.active = false ∧ (run [7] d [.report true true, .dispatch]).active = true := by decide +kernel

/-- The session gets on: from any state before the relay, once `epoll` reports what it has and the calls succeed, the header is sent and the relay begins after three calls. -/
theorem c105_reaches (now : Bool) (src : List Rd) (es : List Ev) (c : C) (hc : run key (init now src) es = c)
    (hk : c.phase ≠ .relay ∧ ∀ w, c.phase ≠ .closed w) :
    (run key c [.report true true, .dispatch, .call .go, .call .go, .call .go]).phase = .relay := by
  have over_iff : ∀ d : C, d.bad = none → d.phase ≠ .relay → (∀ w, d.phase ≠ .closed w) → ¬ over d = true := by
    intro d h1 h2 h3 h
    simp only [over, h1, Option.isSome_none, Bool.false_or] at h
    cases hp : d.phase with
    | relay => exact h2 hp
    | closed w => exact h3 w hp
    | conn => simp [hp, handler] at h
    | shake => simp [hp, handler] at h
    | auth => simp [hp, handler] at h
  have stay : ∀ (d : C), d.phase = .relay → step key d (.call .go) = d := by
    intro d h; simp [step, over, h, handler]
  have fin : ∀ (d : C), d.bad = none → d.active = true → d.phase = .auth → (step key d (.call .go)).phase = .relay := by
    intro d h1 h2 h3
    simp only [step, over_iff d h1 (by rw [h3]; simp) (by rw [h3]; simp), h2, call, h3]
    simp [auth]
  have sh : ∀ (d : C), Inv d → d.active = true → d.phase = .shake →
      (step key d (.call .go)).bad = none ∧ (step key d (.call .go)).active = true ∧ (step key d (.call .go)).phase = .auth := by
    intro d h1 h2 h3
    have h4 := (h1.step (key := key) (.call .go)).1
    refine ⟨h4, ?_⟩
    simp only [step, over_iff d h1.1 (by rw [h3]; simp) (by rw [h3]; simp), h2, call, h3] at h4 ⊢
    simp only [shake, if_true, Bool.false_eq_true, if_false] at h4 ⊢
    have hb : ∀ s, (begin d s).active = true ∧ (begin d s).phase = .auth := by
      intro s; simp only [begin, mod]; split <;> exact ⟨h2, by simp⟩
    split
    · rename_i hv
      rw [if_pos hv] at h4
      split at h4
      · exact hb _
      · simp at h4
      · simp at h4
      · simp at h4
    · exact hb _
  have three : ∀ (d : C), Inv d → d.active = true → d.phase ≠ .relay → (∀ w, d.phase ≠ .closed w) →
      (run key d [.call .go, .call .go, .call .go]).phase = .relay := by
    intro d h1 h2 h3 h4
    simp only [run, List.foldl_cons, List.foldl_nil]
    cases hp : d.phase with
    | relay => exact absurd hp h3
    | closed w => exact absurd hp (h4 w)
    | conn =>
      have h5 : step key d (.call .go) = { d with phase := .shake, t := { d.t with wcb := some (.app 21) }, via := false } := by
        simp only [step, over_iff d h1.1 h3 h4, h2, call, hp]
        simp
      have hi := h1.step (key := key) (.call .go)
      rw [h5] at hi ⊢
      obtain ⟨q1, q2, q3⟩ := sh _ hi h2 rfl
      exact fin _ q1 q2 q3
    | shake =>
      obtain ⟨q1, q2, q3⟩ := sh d h1 h2 hp
      have := fin _ q1 q2 q3
      rw [stay _ this]
      exact this
    | auth =>
      have := fin d h1.1 h2 hp
      rw [stay _ this, stay _ this]
      exact this
  have hi := (inv_init now src).run (key := key) es
  rw [hc] at hi
  show (run key (run key c [.report true true, .dispatch]) [.call .go, .call .go, .call .go]).phase = .relay
  by_cases ha : c.active = true
  · have ho := over_iff c hi.1 hk.1 hk.2
    have : run key c [.report true true, .dispatch] = c := by
      simp only [run, List.foldl_cons, List.foldl_nil, step, ho, ha]
      simp [ho, ha]
    rw [this]
    exact three c hi ha hk.1 hk.2
  · have hw := c105_wakes now src es c hc (by simpa using ha) hk
    exact three _ (hi.run _) hw.1 (by rw [hw.2.1]; exact hk.1) (by rw [hw.2.1]; exact hk.2)

/-- Case: the history above, cut in the handshake and in the middle of the header. -/
example : (run [7] (run [7] (init false input) (hist.take 5)) [.report true true, .dispatch, .call .go, .call .go, .call .go]).phase = .relay ∧
    (run [7] (run [7] (init false input) (hist.take 17)) [.report true true, .dispatch, .call .go, .call .go, .call .go]).phase = .relay := by decide +kernel

/-- A failed call ends the session, whatever its phase, and so does a timer. -/
theorem c105_ends (now : Bool) (src : List Rd) (es : List Ev) (c : C) (hc : run key (init now src) es = c) (hk : c.phase ≠ .relay ∧ ∀ w, c.phase ≠ .closed w) :
    (run key c [if c.active then .call .fail else .expire]).phase = .closed .upstream := by
  have hi := (inv_init now src).run (key := key) es
  rw [hc] at hi
  have ho : ¬ over c = true := by
    intro h
    simp only [over, hi.1, Option.isSome_none, Bool.false_or] at h
    cases hp : c.phase with
    | relay => exact hk.1 hp
    | closed w => exact hk.2 w hp
    | conn => simp [hp, handler] at h
    | shake => simp [hp, handler] at h
    | auth => simp [hp, handler] at h
  cases ha : c.active with
  | false => simp [run, step, ho, ha, close]
  | true =>
    simp only [run, List.foldl_cons, List.foldl_nil, step, ho, ha, if_true, call]
    cases hp : c.phase with
    | relay => exact absurd hp hk.1
    | closed w => exact absurd hp (hk.2 w)
    | conn => simp [close]
    | shake => simp [shake, close]
    | auth => simp [auth, close]

/-- Case: the handshake fails; the timer expires while the header waits. -/
example : (run [7] (run [7] (init false input) (hist.take 4)) [.call .fail]).phase = .closed .upstream ∧
    (run [7] (run [7] (init false input) (hist.take 17)) [.expire]).phase = .closed .upstream := by decide +kernel

/-- What the server gets and what is kept: nothing is sent before the header, which is sent whole, once, and then the relay begins. At any time the kept bytes and what
the local connection still has are what the local program sent, in order. The session ends because of the local side only if 12288 bytes were kept or the local
program's stream ended with everything kept. -/
theorem c105_header (now : Bool) (src : List Rd) (es : List Ev) (c : C) (hc : run key (init now src) es = c) :
    (c.phase ≠ .relay → c.wire = []) ∧ (c.phase = .relay → c.wire = header key) ∧
    c.cache ++ streamOf c.src = streamOf src ∧ c.cache.length ≤ 12288 ∧
    (c.phase = .closed .full → c.cache.length = 12288) ∧ (c.phase = .closed .ended → c.cache = streamOf src) := by
  have h := kept_run (key := key) (kept_init now src) es
  rw [hc] at h
  obtain ⟨h1, h2, h3, h4, h5, h6⟩ := h
  refine ⟨h3, fun e => ?_, h1, h2, h5, fun e => ?_⟩
  · rw [h4 e]
    simp only [Auth.clientHeader, header, Auth.magic, List.take_take]
    congr 2
    rw [show min 16 33 = 16 from rfl, List.take_append, List.take_append, List.take_take, List.take_replicate, List.take_replicate, List.length_take,
      show min 16 32 = 16 from rfl]
    congr 2
    omega
  · obtain ⟨q, hq⟩ := h6 e
    rw [hq] at h1
    simpa [streamOf] using h1

/-- Case: the history above; a local program that ends too early. -/
example : (run [7, 8] (init false input) hist).wire = [0xa0, 0x01, 0xbe, 0xef, 7, 8] ++ List.replicate 30 0 ∧
    (run [7, 8] (init false input) hist).cache = [1, 2, 3] ∧ (run [7, 8] (init false input) hist).src = [.data 4 [5]] ∧
    (run [7, 8] (init false [.data 1 [2], .fail]) [.readable]).phase = .closed .ended ∧
    (run [7, 8] (init false [.data 1 [2], .fail]) [.readable]).cache = [1, 2] := by decide +kernel

/-- The relay begins on a TLS connection as `Model/TlsRelay` starts it, with no callback saved for writing before the header: for every history up to it, it is the start of
a relay after a header whose `ssl_write` calls had the results `ws`, all but the last of which are waits. -/
theorem c105_relay_start (now : Bool) (src : List Rd) (es : List Ev) (c : C) (hc : run key (init now src) es = c) (hp : c.phase = .relay)
    (srcA : List Rd) (dstA dstB : List TlsRelay.Wr) :
    ∃ (t0 : Ssl.S) (ws : List Ssl.Res), t0.ccw = none ∧ t0.wcb = some (.app 2) ∧ (∀ x ∈ ws, x = .wantR ∨ x = .wantW) ∧
      relay c srcA dstA dstB = TlsRelay.start true t0 (ws ++ [.ok]) c.cache srcA dstA c.src dstB := by
  have hi := (inv_init now src).run (key := key) es
  rw [hc] at hi
  obtain ⟨-, hf⟩ := hi
  rw [hp] at hf
  obtain ⟨t0, ws, k1, k2, k3, k4⟩ := hf
  exact ⟨t0, ws, k1, k2, k3, by simp only [relay, TlsRelay.start, k4, List.foldl_nil]⟩

/-- Case: the history above. The header waited twice; its handler is still saved. -/
example : (run [7] (init false input) hist).phase = .relay ∧ (run [7] (init false input) hist).t.ccw = some (.app 2) := by decide +kernel

/-- A whole session of the tunnel client on top of TLS: when its header was written without a wait, the server gets the header and then the local program's bytes, the local
program gets the bytes that come from the server, in order, each once, for all results of both connections and all sequences of events, as long as the process does
not crash. Missing: as for `c102_order_partial`. -/
theorem c102_client_session_partial (now : Bool) (src : List Rd) (es : List Ev) (c : C) (hc : run key (init now src) es = c) (hw : HeaderAtOnce key (init now src) es)
    (hp : c.phase = .relay) (srcA : List Rd) (dstA dstB : List TlsRelay.Wr) (rs : List TlsRelay.Ev) (r : TlsRelay.R)
    (hr : TlsRelay.run (relay c srcA dstA dstB) rs = some r) :
    (c.wire ++ r.b.out) ++ r.b.buf ++ streamOf r.b.src = header key ++ streamOf src ∧ r.a.out ++ r.a.buf ++ streamOf r.a.src = streamOf srcA := by
  have ho := once_run (key := key) (c := init now src) ⟨inv_init now src, by simp [init], by simp [init]⟩ es hw
  rw [hc] at ho
  obtain ⟨t0, k1, k2⟩ := ho.2.2 hp
  have h := c105_header now src es c hc
  have := TlsRelay.c102_order_partial true t0 [.ok] c.cache srcA dstA c.src dstB (by simp) (by simp) k1 rs r
    (by rw [← hr, relay]; simp only [TlsRelay.start, k2, List.foldl_nil, List.foldl_cons])
  refine ⟨?_, this.1⟩
  rw [List.append_assoc, List.append_assoc, ← List.append_assoc r.b.out, this.2, h.2.1 hp]
  simp [h.2.2.1]

/-- Case: three bytes are kept, two follow in the relay; one byte comes back. -/
example :
    let es : List Ev := [.readable, .report true true, .dispatch, .call .go, .call .waitR, .report true true, .dispatch, .call .go, .readable, .call .go]
    HeaderAtOnce [7] (init false [.data 1 [2, 3], .wait false, .data 4 [5]]) es ∧
    (TlsRelay.run (relay (run [7] (init false [.data 1 [2, 3], .wait false, .data 4 [5]]) es) [.data 9 []] [.sent 9] [.sent 99, .sent 99]) [.tr]).map
      (fun r => (r.b.out, r.a.out)) = some ([1, 2, 3, 4, 5], [9]) := by decide +kernel

open Verif.TlsRelay Verif.Spec.TlsRelay in
/-- COUNTEREXAMPLE (order, after a header that had to wait once; compare `c102_echo_counterexample`): 12288 bytes or more come from the server while the local program does not
read. They are sent back to the server as if the local program had sent them, and the local program never gets them. -/
theorem c102_client_echo_counterexample (t0 : Ssl.S) (h0 : t0.ccw = none) (h1 : t0.wcb = some (.app 2)) (b : UInt8) (bs : List UInt8) (hb : 12288 ≤ bs.length + 1)
    (srcA : List Rd) (dstA : List Wr) (srcB : List Rd) (dstB : List Wr) :
    Possible (start true t0 [.wantW, .ok] [] (.data b bs :: srcA) (.wait false :: dstA) (.wait false :: .wait false :: srcB) (.sent 12288 :: dstB)) [.tr, .tw] ∧
    ∃ r, TlsRelay.run (start true t0 [.wantW, .ok] [] (.data b bs :: srcA) (.wait false :: dstA) (.wait false :: .wait false :: srcB) (.sent 12288 :: dstB)) [.tr, .tw] = some r ∧
      r.b.out = (b :: bs).take 12288 ∧ r.a.out ++ r.a.buf ++ streamOf r.a.src = (b :: bs).drop 12288 ++ streamOf srcA := by
  have c1 : ([.wantW, .ok].foldl Ssl.write t0).ccr = none := by
    simp only [List.foldl, Ssl.write, Ssl.cache, Ssl.restoreR, Ssl.restoreTyp]; grind
  have c2 : ([.wantW, .ok].foldl Ssl.write t0).typ = Event.Mask.none := by
    simp only [List.foldl, Ssl.write, Ssl.cache, Ssl.restoreR, Ssl.restoreTyp]; grind
  have c3 : ([.wantW, .ok].foldl Ssl.write t0).ccw = some (.app 2) := by
    simp only [List.foldl, Ssl.write, Ssl.cache, Ssl.restoreR, Ssl.restoreTyp, h0, h1]; grind
  generalize hk : (r1 true (some (.app 2)) [] (.data b bs :: srcA) (.wait false :: dstA) (.wait false :: srcB) (.sent 12288 :: dstB)) = k0
  have hs : start true t0 [.wantW, .ok] [] (.data b bs :: srcA) (.wait false :: dstA) (.wait false :: .wait false :: srcB) (.sent 12288 :: dstB) = k0 := by
    rw [start_eq _ _ _ _ _ _ _ _ c1 c2, c3]
    simp only [if_true]
    have e : recvLoop (r1 true (some (.app 2)) [] (.data b bs :: srcA) (.wait false :: dstA) (.wait false :: .wait false :: srcB) (.sent 12288 :: dstB)) .b = k0 := by
      rw [recvLoop_wait (w := false) (q := .wait false :: srcB) (by simp [R.half, r1, Tunnel.cap]) rfl]
      subst hk; rfl
    rw [trafficRecv_idle (by rw [e]; subst hk; rfl) (by rw [e]; subst hk; rfl), e]
  have e : recvLoop { k0 with tWR := false } .a =
      { k0 with
        tWR := false
        t := { t1 none with wcb := some (.app 2) }
        a := ⟨pushBack 12288 b bs srcA, .wait false :: dstA, [], (b :: bs).take 12288, 12288, false⟩ } := by
    rw [recvLoop_data (b := b) (bs := bs) (q := srcA) (by subst hk; simp [R.half, r1, Tunnel.cap]) (by subst hk; rfl)]
    have hm : min 12288 (bs.length + 1) = 12288 := by omega
    rw [recvLoop_full]
    · subst hk; simp [r1, t1, onRead, TlsRelay.mod, R.set, R.half, Ssl.read, Ssl.restoreTyp, Ssl.restoreW, Event.Mask.none, Tunnel.cap, hm]
    · simp only [half_onRead, half_set]
      subst hk
      simp [r1, R.half, Tunnel.cap, hm]
  generalize hk1 : ({ k0 with
        tWR := false
        t := { t1 none with rcb := none, wcb := some (.app 2) }, pw := true
        a := ⟨pushBack 12288 b bs srcA, dstA, [], (b :: bs).take 12288, 12288, false⟩ } : R) = k1
  have s1 : TlsRelay.step k0 .tr = some k1 := by
    have : TlsRelay.step k0 .tr = some (trafficRecv { k0 with tWR := false } .a) := by subst hk; rfl
    rw [this, trafficRecv_send (by rw [e]; simp [R.half]), e]
    congr 1
    refine trafficSend_again ?_
    rw [sendLoop_wait (x := false) (q := dstA) (by simp [R.half, setRead, setWrite]) (by simp [R.half, setRead, setWrite])]
    subst hk1; subst hk
    simp [r1, t1, onWrite, R.set, R.half, setRead, setWrite]
  generalize hr0 : ({ k1 with tWW := false } : R) = r0
  have f : firstLoop r0 = (onWrite { r0 with
      a := { r0.a with buf := [] }, b := { r0.b with dst := dstB, out := (b :: bs).take 12288 } } .b .ok, .drained) := by
    have := firstLoop_sent (r := r0) (n := 12288) (q := dstB) (by subst hr0 hk1; simp) (by subst hr0 hk1; simp; omega) (by subst hr0 hk1 hk; rfl)
    rw [this]
    subst hr0 hk1 hk
    rfl
  rw [hs]
  generalize hm : (onWrite { r0 with a := { r0.a with buf := [], used := 0 }, b := { r0.b with dst := dstB, out := (b :: bs).take 12288 } } .b .ok) = m
  have s2 : TlsRelay.step k1 .tw = some (proc m) := by
    have : TlsRelay.step k1 .tw = some (first r0) := by subst hr0 hk1 hk; rfl
    simp only [this, first, f]
    subst hm hr0 hk1 hk
    rfl
  generalize hp : (TlsRelay.mod (setWrite (setRead (setWrite (setRead { m with a := { m.a with buf := [], used := 0 } } .a true) .a false) .b true) .b false)
    { (setWrite (setRead (setWrite (setRead { m with a := { m.a with buf := [], used := 0 } } .a true) .a false) .b true) .b false).t with opt := ⟨true, true⟩ }) = m'
  have hpm : proc m = trafficRecv m' .b := by subst hp hm hr0 hk1 hk; rfl
  have hu : (m'.half .b).used = 0 := by subst hp hm hr0 hk1 hk; rfl
  have e2 : recvLoop m' .b = onRead (m'.set .b { m'.half .b with src := srcB }) .b .wantR := by
    rw [recvLoop_wait (w := false) (q := srcB) (by rw [hu]; simp [Tunnel.cap])
      (by subst hp hm hr0 hk1 hk; rfl)]
    rfl
  have e3 : proc m = onRead (m'.set .b { m'.half .b with src := srcB }) .b .wantR := by
    rw [hpm, trafficRecv_idle (by rw [e2]; subst hp hm hr0 hk1 hk; rfl) (by rw [e2]; subst hp hm hr0 hk1 hk; rfl), e2]
  refine ⟨⟨by subst hk; rfl, fun r' hr' => ?_⟩, proc m, by simp only [TlsRelay.run, s1, s2, Option.bind_some], ?_, ?_⟩
  · rw [s1] at hr'; cases hr'
    exact ⟨by subst hk1 hk; rfl, fun _ _ => trivial⟩
  · rw [e3]; subst hp hm hr0 hk1 hk; rfl
  · have hp2 : streamOf (pushBack 12288 b bs srcA) = (b :: bs).drop 12288 ++ streamOf srcA := by
      have hp := streamOf_pushBack 12288 b bs srcA
      have := List.take_append_drop 12288 (b :: bs)
      rw [← this, List.append_assoc] at hp
      simpa using hp
    rw [e3, ← hp2]; subst hp hm hr0 hk1 hk; rfl

/-- Case: a header that waited once, in a history of this model; the relay begins with its handler saved. -/
example :
    let es : List Ev := [.report true true, .dispatch, .call .go, .call .go, .call .waitW, .report true true, .dispatch, .call .go]
    let c := run [7] (init false [.wait false, .wait false]) es
    c.phase = .relay ∧ c.t.ccw = some (.app 2) ∧
    ((TlsRelay.run (relay c [.data 1 (List.replicate 12287 2)] [.wait false] [.sent 12288]) [.tr, .tw]).map fun r => (r.b.out.length, r.b.out.head?, r.a.out)) =
      some (12288, some 1, []) := by decide +kernel

/-- What a saved callback leads to: `ssl_read_handler` and `ssl_write_handler` - which call what is registered for their direction - lead to a handler of the session, to the
handshake, to NULL, or back to each other without end; never to themselves unnoticed. -/
theorem c105_resolve (s : Ssl.S) (cb : Option Ssl.Cb) :
    (Tgt.endless = TlsClient.resolve s 3 cb ↔
      (cb = some .rd ∧ (s.rcb = some .rd ∨ s.rcb = some .wr ∧ (s.wcb = some .rd ∨ s.wcb = some .wr))) ∨
      (cb = some .wr ∧ (s.wcb = some .wr ∨ s.wcb = some .rd ∧ (s.rcb = some .rd ∨ s.rcb = some .wr)))) := by
  obtain ⟨opt, r, w, typ, ccr, ccw⟩ := s
  rcases cb with _ | cb <;> rcases r with _ | r <;> rcases w with _ | w <;> (try cases cb) <;> (try cases r) <;> (try cases w) <;> simp [TlsClient.resolve]

end Verif.TlsClient
