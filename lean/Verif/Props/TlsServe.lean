import Verif.Proofs.TlsServe
import Verif.Props.TlsRelay
/-
Property C104: a session of the server from the accepted connection to the relay, on top of TLS. Whatever the TLS layer has to wait for, the step that had to wait goes on.
-/
namespace Verif.TlsServe
open Verif Verif.Serve Verif.Spec.TlsServe

variable {admit : List UInt8 → Bool}

/-- A history used in the cases below, up to the request: the handshake waits, the header is read after a wait for writing, the answer to the greeting is written after
a wait for reading. -/
def hist : List Ev :=
  [.report true true, .dispatch, .call .waitR, .edge true false, .report true true, .dispatch, .call .go,
    .call .waitW, .arrive (List.replicate 36 7), .edge false true, .report true true, .dispatch, .call .go,
    .call .waitR, .arrive [5, 1, 0], .report true true, .dispatch, .call .go,
    .call .waitR, .edge true true, .report true true, .dispatch, .call .go,
    .call .waitR, .arrive [5, 1, 0, 1, 10, 0, 0, 1, 0, 80], .report true true, .dispatch, .call .go]

/-- The rest of it: while the upstream connection is established the client connection is reported readable; the reply has to wait for writing. -/
def rest : List Ev :=
  [.edge true false, .report true false, .connected [], .call .waitW, .dispatch, .edge false true, .report true true, .dispatch, .call .go]

/-- For all results of the TLS layer (including reads that wait for writing and writes that wait for reading), all orders of arrivals, reports and dispatches and all timers:
NULL is never called, callbacks never call each other without end, and never does a handler run that is not the one of the session's phase. Missing for the full
claim: a handshake that has to wait for writability (`c104_handshake_counterexample`). -/
theorem c104_right_handler_partial (es : List Ev) (h : HandshakeReads admit init es) : (run admit init es).bad = none :=
  (inv_init.run es h).1

/-- Case: the history above, up to the relay. -/
example : HandshakeReads (fun _ => true) init (hist ++ rest) ∧ (run (fun _ => true) init (hist ++ rest)).ses.phase = .relay ∧
    (run (fun _ => true) init (hist ++ rest)).bad = none := by decide +kernel

/-- Nothing gets stuck: at any time when control is with the event loop and the session does not wait for its upstream connection, then once `epoll` reports what it
has, the handler of the session's phase runs again after one or two dispatched events, and nothing else has changed by then. Same remark. -/
theorem c104_wakes_partial (es : List Ev) (h : HandshakeReads admit init es) (c : C) (hc : run admit init es = c) (ha : c.active = false)
    (hk : (∀ a, c.ses.phase ≠ .connect a) ∧ c.ses.phase ≠ .relay ∧ c.ses.phase ≠ .closed ∧ c.ses.phase ≠ .crash) :
    ∃ k ≤ 2, (run admit c (.report true true :: List.replicate k .dispatch)).active = true ∧
      (run admit c (.report true true :: List.replicate k .dispatch)).ses = c.ses := by
  have hi := inv_init.run es h
  rw [hc] at hi
  have ho : ¬ over c = true := by
    have := hi.1
    obtain ⟨-, k2, k3, k4⟩ := hk
    simp only [over, this]
    cases e : c.ses.phase <;> simp_all [handler]
  have hk := hk.1
  have hr : step admit c (.report true true) = told c true true := by
    simp only [step]; rw [if_neg (by simp [ho, ha])]; rfl
  have ho' : over (told c true true) = false := by rw [← Bool.not_eq_true]; exact ho
  have one : ∀ d : C, over d = false → d.active = false → d.qR = true → callCb { d with qR := false } d.t.rcb = { d with qR := false, active := true } →
      (step admit d .dispatch).active = true ∧ (step admit d .dispatch).ses = d.ses := by
    intro d h1 h2 h3 h4
    simp only [step]; rw [if_neg (by simp [h1, h2]), if_pos h3, h4]; exact ⟨rfl, rfl⟩
  have two : ∀ d : C, over d = false → d.active = false → d.qR = false → d.qW = true → callCb { d with qW := false } d.t.wcb = { d with qW := false, active := true } →
      (step admit d .dispatch).active = true ∧ (step admit d .dispatch).ses = d.ses := by
    intro d h1 h2 h3 h4 h5
    simp only [step]; rw [if_neg (by simp [h1, h2]), if_neg (by simp [h3]), if_pos h4, h5]; exact ⟨rfl, rfl⟩
  have rd : ∀ n, handler c.ses.phase = some n → calls c.ses.phase = true → c.hs = false → RInv n c →
      (step admit (told c true true) .dispatch).active = true ∧ (step admit (told c true true) .dispatch).ses = c.ses := by
    intro n hn hcl hh k
    obtain ⟨k1, k2, k3, k4⟩ := k
    obtain ⟨k4, k5, k6⟩ := k4 ha
    rcases k4 with ⟨w, o, q⟩ | ⟨w, o, q⟩
    · refine one _ ho' ha ?_ ?_
      · rcases q with q | q <;> simp [told, o, q]
      · simp [callCb, told, k1, resolve, hh, hn, hcl]
    · refine two _ ho' ha ?_ ?_ ?_
      · simp [told, o, (k5 w).2]
      · rcases q with q | q <;> simp [told, o, q]
      · simp [callCb, told, (k5 w).1, resolve, k1, hh, hn, hcl]
  have wr : ∀ n, handler c.ses.phase = some n → calls c.ses.phase = true → c.hs = false → WInv n c →
      ∃ k ≤ 2, (run admit c (.report true true :: List.replicate k .dispatch)).active = true ∧
        (run admit c (.report true true :: List.replicate k .dispatch)).ses = c.ses := by
    intro n hn hcl hh k
    obtain ⟨k1, k2, k3, k4, k5, -⟩ := k
    obtain ⟨k5, k6, k7⟩ := k5 ha
    rcases k5 with ⟨w, o, q⟩ | ⟨w, o, q⟩
    · refine ⟨1, by omega, ?_⟩
      simp only [run, List.replicate, List.foldl, hr]
      refine one _ ho' ha ?_ ?_
      · rcases q with q | q <;> simp [told, o, q]
      · simp [callCb, told, (k7 w).1, resolve, k1, hh, hn, hcl]
    · cases Bool.eq_false_or_eq_true c.qR with
      | inl hq =>
        refine ⟨2, by omega, ?_⟩
        have e1 : step admit (told c true true) .dispatch = { told c true true with qR := false } := by
          have : (told c true true).qR = true := by simp [told, hq]
          simp only [step]
          rw [if_neg (by rw [ho']; simp [told, ha]), if_pos this]
          simp [callCb, told, k6 w hq]
        simp only [run, List.replicate, List.foldl, hr, e1]
        refine two _ ?_ ha rfl ?_ ?_
        · rw [← Bool.not_eq_true]; exact ho
        · rcases q with q | q <;> simp [told, o, q]
        · simp [callCb, told, k1, resolve, hh, hn, hcl]
      | inr hq =>
        refine ⟨1, by omega, ?_⟩
        simp only [run, List.replicate, List.foldl, hr]
        refine two _ ho' ha ?_ ?_ ?_
        · simp [told, o, hq]
        · rcases q with q | q <;> simp [told, o, q]
        · simp [callCb, told, k1, resolve, hh, hn, hcl]
  cases Bool.eq_false_or_eq_true c.hs with
  | inl hh =>
    rcases hi.2.1 hh with k | k
    · obtain ⟨h1, h2, h3, h4, h5, h6, h7, h8, h9⟩ := k
      refine ⟨1, by omega, ?_⟩
      simp only [run, List.replicate, List.foldl, hr]
      refine one _ ho' ha ?_ ?_
      · rcases h9 ha with q | q <;> simp [told, h4, q]
      · rcases h5 with ⟨e, -⟩ | ⟨e, -⟩ <;> simp [callCb, told, e, resolve, hh]
    · exact absurd (by simp [over, k, handler]) ho
  | inr hh =>
    have hf := hi.2.2 hh
    cases e : c.ses.phase with
    | auth b =>
      rw [e] at hf; refine ⟨1, by omega, ?_⟩; simp only [run, List.replicate, List.foldl, hr]
      exact rd 11 (by rw [e]; rfl) (by rw [e]; rfl) hh hf
    | greet p f =>
      rw [e] at hf; refine ⟨1, by omega, ?_⟩; simp only [run, List.replicate, List.foldl, hr]
      exact rd 12 (by rw [e]; rfl) (by rw [e]; rfl) hh hf
    | greetRsp u => rw [e] at hf; exact wr 13 (by rw [e]; rfl) (by rw [e]; rfl) hh hf.1
    | request p f =>
      rw [e] at hf; refine ⟨1, by omega, ?_⟩; simp only [run, List.replicate, List.foldl, hr]
      exact rd 14 (by rw [e]; rfl) (by rw [e]; rfl) hh hf
    | connect a => exact absurd e (hk a)
    | reply u => rw [e] at hf; exact wr 2 (by rw [e]; rfl) (by rw [e]; rfl) hh hf
    | relay => exact absurd (by simp [over, e, handler]) ho
    | closed => exact absurd (by simp [over, e, handler]) ho
    | crash => exact absurd (by simp [over, e, handler]) ho

/-- Case: the answer to the greeting waits for reading (18 events later the handler runs again); the reply waits for writing while an older report of readability is
still to be dispatched, so that it takes two. -/
example :
    let c := run (fun _ => true) init (hist.take 19)
    let d := run (fun _ => true) init (hist ++ rest.take 4)
    c.ses.phase = .greetRsp [5, 0] ∧ c.active = false ∧ (run (fun _ => true) c [.edge true false, .report true true, .dispatch]).active = true ∧
    d.active = false ∧ (run (fun _ => true) d [.report true true, .dispatch]).active = false ∧
    (run (fun _ => true) d [.report true true, .dispatch, .dispatch]).active = true := by decide +kernel

/-- While the session waits for its upstream connection: when that is established, the reply to the client is due and its handler makes the first call of `ssl_write`
at once; when it cannot be, the session is closed. Same remark as for `c104_right_handler_partial`. -/
theorem c104_upstream_partial (es : List Ev) (h : HandshakeReads admit init es) (c : C) (hc : run admit init es = c) (a : S5.Action)
    (hp : c.ses.phase = .connect a) (ip : List UInt8) :
    (step admit c (.connected ip)).ses = { c.ses with phase := .reply (established a ip) } ∧ (step admit c (.connected ip)).active = true ∧
    (step admit c (.connected ip)).bad = none ∧ (step admit c .refused).ses.phase = .closed := by
  have hi := inv_init.run es h
  rw [hc] at hi
  have ho : ¬ over c = true := by simp [over, hi.1, hp, handler]
  have hn := (hi.step (admit := admit) (.connected ip) (fun _ => by simp)).1
  refine ⟨?_, ?_, hn, ?_⟩
  · simp only [step, hp]; rw [if_neg ho]; simp [advance, Serve.step, hp]
  · simp only [step, hp]; rw [if_neg ho]; simp [advance, Serve.step, hp, calls, handler]
  · simp only [step, hp]; rw [if_neg ho]; rfl

/-- Case: the history above up to the request; the upstream connection to 10.0.0.1, port 80, is established or refused. -/
example : (run (fun _ => true) init hist).ses.phase = .connect (.connect4 [10, 0, 0, 1] 0 80) ∧
    (run (fun _ => true) init (hist ++ [.connected []])).ses.phase = .reply [5, 0, 0, 1, 0, 10, 0, 0, 80, 0] ∧
    (run (fun _ => true) init (hist ++ [.refused])).ses.phase = .closed := by decide +kernel

/-- What a session on top of TLS does with the bytes is what a session of `Model/Serve` does with them, whatever the TLS layer does: every history of this model is a
history of that one in which the same records arrive, and in which the upstream connection is established only if it is here. So C81, C83 and C86 hold of it. -/
theorem c104_same_session (es : List Ev) : ∃ es', Serve.run admit Serve.init es' = (run admit init es).ses ∧ arrived es' = records es ∧
    (∀ ip, .connected ip ∈ es' → .connected ip ∈ es) := run_ses es init

/-- Case: the history above and one of `Model/Serve`. -/
example : Serve.run (fun _ => true) Serve.init [.arrive (List.replicate 36 7), .read, .arrive [5, 1, 0], .read, .write 5,
      .arrive [5, 1, 0, 1, 10, 0, 0, 1, 0, 80], .read, .connected [], .write 12] = (run (fun _ => true) init (hist ++ rest)).ses ∧
    records (hist ++ rest) = [List.replicate 36 7, [5, 1, 0], [5, 1, 0, 1, 10, 0, 0, 1, 0, 80]] := by decide +kernel

/-- For a client that waits for the answers: whatever the sizes of the records, whatever the TLS layer waits for and whenever, the session is not closed, nothing goes
wrong and nothing is discarded; what the client reads is a beginning of the two answers; the server connects to what was asked for; and when the relay begins, both
answers were written, and the bytes after the request are there for it, all of them. -/
theorem c104_waiting_client_partial (H G R D : List (List UInt8)) (v : UInt8) (ms : List UInt8) (rsv : UInt8) (h : S5Spec.Host) (port : Nat)
    (hH : H.flatten.length = 36) (hH0 : [] ∉ H) (ha : admit H.flatten = true)
    (hm : 1 ≤ ms.length ∧ ms.length ≤ 255) (hG : G.flatten = S5Spec.encodeGreeting v ms) (hG0 : [] ∉ G)
    (hR : R.flatten = S5Spec.encodeReq 5 1 rsv h port) (hR0 : [] ∉ R) (hh : S5Spec.HostOk h)
    (es : List Ev) (hs : HandshakeReads admit init es) (l : List (List UInt8 × Nat)) (c : C) (hp : playT admit (script H G R D) init es = some (l, c)) :
    c.bad = none ∧ c.ses.lost = [] ∧ c.ses.phase ≠ .closed ∧ c.ses.phase ≠ .crash ∧
    (∃ rest ip, c.ses.wire ++ rest = [5, 0] ++ established (S5.wanted h port) ip) ∧
    (∀ a, c.ses.phase = .connect a → a = S5.wanted h port) ∧
    (c.ses.phase = .relay → (∃ ip, c.ses.wire = [5, 0] ++ established (S5.wanted h port) ip) ∧
      c.ses.up ++ c.ses.sock.flatten ++ (l.map (·.1)).flatten = D.flatten) := by
  obtain ⟨e1, es', e2⟩ := play_ses es _ _ _ _ hp
  refine ⟨?_, c82_waiting_client_partial H G R D v ms rsv h port hH hH0 ha hm hG hG0 hR hR0 hh es' l c.ses e2⟩
  rw [e1]; exact c104_right_handler_partial es hs

/-- Case: the history above is that of such a client, which has two records of data left to send. -/
example : (playT (fun _ => true) (script [List.replicate 36 7] [[5, 1, 0]] [[5, 1, 0, 1, 10, 0, 0, 1, 0, 80]] [[1, 2], [3]]) init (hist ++ rest)).map
      (fun x => (x.1, x.2.ses.phase, x.2.ses.wire)) =
    some ([([1, 2], 12), ([3], 12)], .relay, [5, 0, 5, 0, 0, 1, 0, 10, 0, 0, 80, 0]) := by decide +kernel

/-- The relay begins on a TLS connection as `Model/TlsRelay` starts it, with no callback saved for writing before the reply: for every history up to it, it is the start of
a relay after a reply whose `ssl_write` calls had the results `ws`, all but the last of which are waits. -/
theorem c104_relay_start_partial (es : List Ev) (h : HandshakeReads admit init es) (hp : (run admit init es).ses.phase = .relay) :
    ∃ (t0 : Ssl.S) (ws : List Ssl.Res), t0.ccw = none ∧ t0.wcb = some (.app 2) ∧ (∀ x ∈ ws, x = .wantR ∨ x = .wantW) ∧
      ∀ srcA dstA srcB dstB, TlsRelay.start false (run admit init es).t [] [] srcA dstA srcB dstB = TlsRelay.start false t0 (ws ++ [.ok]) [] srcA dstA srcB dstB := by
  have hi := inv_init.run es h
  generalize run admit init es = c at hi hp
  cases Bool.eq_false_or_eq_true c.hs with
  | inl hh =>
    rcases hi.2.1 hh with k | k
    · have := k.1; rw [hp] at this; cases this
    · rw [hp] at k; cases k
  | inr hh =>
    have hf := hi.2.2 hh
    rw [hp] at hf
    obtain ⟨t0, ws, k1, k2, k3, k4, k5⟩ := hf
    refine ⟨t0, ws, k1, k2, k3, fun srcA dstA srcB dstB => ?_⟩
    rw [k4]
    rfl


/-- Case: the history above. The reply waited once. -/
example : HandshakeReads (fun _ => true) init (hist ++ rest) ∧ (run (fun _ => true) init (hist ++ rest)).ses.phase = .relay ∧
    (run (fun _ => true) init (hist ++ rest)).t.ccw = some (.app 2) := by decide +kernel

/-- A whole session of the server on top of TLS: when its reply was written without a wait, the relay delivers the client's bytes to the upstream and the upstream's bytes
to the client, in order, each once, for all results of both connections and all sequences of events, as long as the process does not crash. Missing: as for
`c102_order_partial`, and handshakes that wait for writability. -/
theorem c104_session_order_partial (es : List Ev) (h : HandshakeReads admit init es) (hr : ReplyAtOnce admit init es)
    (hp : (run admit init es).ses.phase = .relay) (srcA : List TlsRelay.Rd) (dstA : List TlsRelay.Wr) (srcB : List TlsRelay.Rd) (dstB : List TlsRelay.Wr)
    (rs : List TlsRelay.Ev) (r : TlsRelay.R) (hrun : TlsRelay.run (TlsRelay.start false (run admit init es).t [] [] srcA dstA srcB dstB) rs = some r) :
    r.a.out ++ r.a.buf ++ Spec.TlsRelay.streamOf r.a.src = Spec.TlsRelay.streamOf srcA ∧
    r.b.out ++ r.b.buf ++ Spec.TlsRelay.streamOf r.b.src = Spec.TlsRelay.streamOf srcB := by
  obtain ⟨t0, k1, k2⟩ := relay_at_once es h hr hp
  rw [k2] at hrun
  have := TlsRelay.c102_order_partial false t0 [.ok] [] srcA dstA srcB dstB (by simp) (by simp) k1 rs r hrun
  simpa using this

/-- Case: the reply is written at once; then the client sends three bytes, which reach the upstream. -/
example : HandshakeReads (fun _ => true) init (hist ++ [.connected [], .call .go]) ∧ ReplyAtOnce (fun _ => true) init (hist ++ [.connected [], .call .go]) ∧
    (run (fun _ => true) init (hist ++ [.connected [], .call .go])).ses.phase = .relay ∧
    (TlsRelay.run (TlsRelay.start false (run (fun _ => true) init (hist ++ [.connected [], .call .go])).t [] [] [.wait false, .data 1 [2, 3]] [.sent 12288] [] [])
      [.tr]).map (·.a.out) = some [1, 2, 3] := by decide +kernel

/-- COUNTEREXAMPLE (see also `c40_handshake_loop_counterexample`): a handshake of a server connection that has to wait for writability, after any number `k` of waits for
readability. When the connection is writable and the handshake succeeds, `ssl_handshake_cb` calls itself without end, since no write callback was installed that could be
put back. -/
theorem c104_handshake_counterexample (k : Nat) :
    (run admit init ([.report true true, .dispatch] ++ waits k ++ [.call .waitW, .edge true true, .report true true, .dispatch, .call .go])).bad = some .endless := by
  have h0 : run admit init [.report true true, .dispatch] = shaking false := rfl
  have h1 := run_waits (admit := admit) k false
  simp only [run, List.foldl_append] at h0 h1 ⊢
  rw [h0, h1]
  cases decide (0 < k) <;> rfl

/-- Case: one wait for readability, then one for writability. -/
example : waits 1 = [.call .waitR, .edge true true, .report true true, .dispatch] ∧
    (run (fun _ => true) init [.report true true, .dispatch, .call .waitR, .edge true true, .report true true, .dispatch, .call .waitW, .edge true true,
      .report true true, .dispatch, .call .go]).bad = some .endless := by decide +kernel

end Verif.TlsServe
