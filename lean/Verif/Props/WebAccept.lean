import Verif.Proofs.WebAccept
/-
Property C108: a client of the TLS port reaches the service it speaks to.
-/
namespace Verif.WebAccept
open Verif Verif.Spec.WebAccept
open Verif.Spec.WebConn (records AllSend Ask readAll Able reads allWaits)
open Verif.WebConn (exEnv exCuts exDate exFile exEcho exRec exNow)

/-! ### Cases -/

/-- A check for `Possible` (for the cases). -/
def possible (g : Cfg) (a : A) : List WebConn.Ev → Bool
  | [] => true
  | e :: es =>
    (match a, e with
      | .pre p, .r => p.t.opt.r
      | .pre p, .w => p.t.opt.w
      | .web c, e => WebConn.possible g.k g.home g.index g.E c [e]
      | _, _ => true) &&
    match step g a e with
    | some a' => possible g a' es
    | none => true

theorem possible_sound {g : Cfg} (es : List WebConn.Ev) (a : A) (h : possible g a es = true) : Possible g a es := by
  induction es generalizing a with
  | nil => trivial
  | cons e es ih =>
    simp only [possible, Bool.and_eq_true] at h
    refine ⟨?_, fun a' ha => ih a' (by have := h.2; rw [ha] at this; exact this)⟩
    cases a with
    | pre p => cases e <;> simp only [Reportable] <;> exact h.1
    | web c => exact (WebConn.possible_sound _ _ h.1).1
    | tunnel => trivial
    | closed => trivial
    | endless => trivial

/-- A process with the environment of the cases of C106. -/
def exCfg (secret : Bool) : Cfg := ⟨secret, 1, [47, 119], [105], exEnv⟩

/-- The events of the case of C106. -/
def exEvs : List WebConn.Ev := [.w, .r, .w, .w, .r, .w, .w, .r, .r, .w]

/-- C108, callbacks. A connection on the TLS port, from `accept` on, in both modes, whatever arrives and however often the handshake has to wait for readability and reading or
writing in either direction afterwards: no callback of another phase and no NULL is ever called, the handshake does not call itself without end, and something is registered that
continues what the connection is doing. Missing from the full statement: a handshake that waits for writability (`c108_handshake_counterexample`). -/
theorem c108_waits_partial (g : Cfg) (hs io : List Ssl.Res) (hw : Ssl.Res.wantW ∉ hs) (es : List WebConn.Ev) (hp : Possible g (init hs io) es) :
    ∃ a, run g (init hs io) es = some a ∧ a ≠ .endless ∧ Continues a := by
  obtain ⟨a, h1, h2⟩ := run_good g es [] _ (init_good g hs io hw) hp
  refine ⟨a, h1, ?_, h2.continues⟩
  rintro rfl
  exact h2

/-- Case: the handshake waits twice; the header of the tunnel comes in two records, and reading waits in both directions. -/
example :
    let es : List WebConn.Ev := [.r, .r, .r, .arrive 0xa0 [1, 0xbe], .w, .arrive 0xef (List.replicate 40 7), .r]
    possible (exCfg true) (init [.wantR, .wantR, .ok] [.wantW, .ok, .wantR, .ok]) es = true ∧
    (run (exCfg true) (init [.wantR, .wantR, .ok] [.wantW, .ok, .wantR, .ok]) es).map (fun a => match a with | .tunnel buf _ sock => (buf.length, sock) | _ => (0, [])) =
      some (44, []) := by
  decide +kernel

/-- COUNTEREXAMPLE. A handshake that has to wait any number of times, at least once for writability, and then succeeds: `ssl_handshake_cb` calls itself without end. -/
theorem c108_handshake_counterexample (g : Cfg) (ws hs io : List Ssl.Res) (hw : ∀ x ∈ ws, x = .wantR ∨ x = .wantW) (hm : Ssl.Res.wantW ∈ ws) :
    run g (init (ws ++ .ok :: hs) io) (.r :: ws.map wakes) = some .endless ∧ Possible g (init (ws ++ .ok :: hs) io) (.r :: ws.map wakes) := by
  exact first_endless g ws hs hw hm _ (.inl rfl) rfl rfl

/-- Case: it waits for readability, for writability and for readability again. -/
example : run (exCfg false) (init [.wantR, .wantW, .wantR, .ok] []) [.r, .r, .w, .r] = some .endless :=
  (c108_handshake_counterexample (exCfg false) [.wantR, .wantW, .wantR] [] [] (by decide) (by decide)).1

/-- C108, the web server. With secret mode off: when a connection is with the web server, it is where it would be if the web server had got it at some moment with all
records that had arrived until then, unread, and had seen the events since. -/
theorem c108_web_partial (g : Cfg) (hg : g.secret = false) (hs io : List Ssl.Res) (hw : Ssl.Res.wantW ∉ hs) (es : List WebConn.Ev) (hp : Possible g (init hs io) es)
    (c : WebConn.C) (hr : run g (init hs io) es = some (.web c)) :
    ∃ es1 es2 t0, es = es1 ++ es2 ∧ Spec.WebConn.Possible g.k g.home g.index g.E (WebConn.start g.k g.home g.index g.E t0 (records es1)) es2 ∧
      WebConn.run g.k g.home g.index g.E (WebConn.start g.k g.home g.index g.E t0 (records es1)) es2 = some c := by
  obtain ⟨a, h1, h2⟩ := run_good g es [] _ (init_good g hs io hw) hp
  rw [hr] at h1
  cases h1
  obtain ⟨es1, es2, t0, s0, lost, k1, k2, k3, k4, k5, -⟩ := h2
  obtain ⟨-, rfl⟩ := k5 hg
  exact ⟨es1, es2, t0, k1, k3, k2⟩

/-- Case: the first request arrives before the handshake is done, the second after it. -/
example :
    let es : List WebConn.Ev := [.r, .arrive (exRec exDate.head.bytes).1 (exRec exDate.head.bytes).2, .r, .w, .r, .w, .arrive (exRec exFile.head.line).1 (exRec exFile.head.line).2]
    possible (exCfg false) (init [.wantR, .ok] []) es = true ∧
    (run (exCfg false) (init [.wantR, .ok] []) es).map (fun a => match a with | .web c => (c.i, c.sock.length) | _ => (9, 9)) = some (1, 1) := by
  decide +kernel

/-- C108, answers. With secret mode off, from `accept` on: a client sends requests as in C106. Whatever the order of events, however often the handshake waits for readability
and reading and writing wait or whether they fail: what was sent to the client is a beginning of the responses with the wanted contents, one for each request, in the order of the
requests; and when the connection waits for a request with nothing unread, all complete requests have been answered. Missing: see `c108_handshake_counterexample`, and C106 for the
ways a request can be sent. -/
theorem c108_answers_partial (g : Cfg) (n : Nat) (hk1 : g.k = n + 1) (hg : g.secret = false) (hs io : List Ssl.Res) (hw : Ssl.Res.wantW ∉ hs) (es : List WebConn.Ev)
    (hp : Possible g (init hs io) es) (asks : List Ask) (cuts : List (List (UInt8 × List UInt8))) (hb : AllSend asks cuts) (ha : records es <+: cuts.flatten)
    (hok : ∀ j (h : j < asks.length), asks[j].Ok g.home g.index (g.E j) ∧ WebConn.Dated (g.E j)) (hk : ∀ j (h : j + 1 < asks.length), asks[j].keeps)
    (a : A) (hr : run g (init hs io) es = some a) :
    ∃ full : Nat → List UInt8, (∀ m next, readAll (asks.take m).length (full m ++ next) = ((asks.take m).mapIdx fun j a => (200, a.wanted g.home g.index (g.E j)), next)) ∧
      sent a <+: full asks.length ∧
      ∀ m, (cuts.take m).flatten <+: records es → ∀ c ps, a = .web c → c.ph = .req ps → c.sock = [] → full m <+: sent a := by
  have none : ∀ es1 es2 : List WebConn.Ev, records (es1 ++ es2) = records es1 ++ records es2 := records_append
  by_cases hweb : ∃ c, a = .web c
  · obtain ⟨c, rfl⟩ := hweb
    obtain ⟨es1, es2, t0, rfl, h2, h3⟩ := c108_web_partial g hg hs io hw es hp c hr
    rw [none] at ha
    rw [hk1] at h2 h3
    obtain ⟨-, -, full, k1, k2, -, k4⟩ := WebConn.c106_answers_partial n g.home g.index g.E t0 (records es1) es2 c asks cuts h2 h3 hb ha hok hk
    refine ⟨full, k1, k2, ?_⟩
    intro m hm c' ps hc hps hsk
    cases hc
    exact k4 m (by rw [← none]; exact hm) ⟨ps, hps⟩ hsk
  · obtain ⟨-, -, full, k1, -⟩ := WebConn.c106_answers_partial n g.home g.index g.E tA [] [] _ asks cuts trivial rfl hb (List.nil_prefix) hok hk
    refine ⟨full, k1, ?_, fun m hm c ps hc => absurd ⟨c, hc⟩ hweb⟩
    have : sent a = [] := by
      cases a with
      | web c => exact absurd ⟨c, rfl⟩ hweb
      | _ => rfl
    rw [this]
    exact List.nil_prefix

/-- Case: the same history; the client has got the response to its first request. -/
example :
    let es : List WebConn.Ev := [.r, .arrive (exRec exDate.head.bytes).1 (exRec exDate.head.bytes).2, .r, .w, .r, .w, .arrive (exRec exFile.head.line).1 (exRec exFile.head.line).2]
    AllSend [exDate, exFile, exEcho] exCuts ∧ (records es).isPrefixOf exCuts.flatten = true ∧
    (run (exCfg false) (init [.wantR, .ok] []) es).map (fun a => readAll 2 (sent a)) = some ([(200, exNow)], []) :=
  ⟨WebConn.exSends, by decide +kernel, by decide +kernel⟩

/-- C108, delivery. With secret mode off, from `accept` on: the requests have arrived, the handshake waits `m` times for readability and then succeeds, afterwards reading and writing
never fail (they may have to wait in either direction, any number of times), memory is available and the files can be read. Then after as many events as there were waits and one
more, whichever of the events that can be reported they are, the client has got exactly one response with code 200 and the wanted content for each request, in their order. -/
theorem c108_delivers_partial (g : Cfg) (n : Nat) (hk1 : g.k = n + 1) (hg : g.secret = false) (m : Nat) (hs io : List Ssl.Res) (es : List WebConn.Ev) (asks : List Ask)
    (cuts : List (List (UInt8 × List UInt8)))
    (hp : Possible g (init (List.replicate m .wantR ++ .ok :: hs) io) (cuts.flatten.map (fun r => .arrive r.1 r.2) ++ es)) (he : ∀ e ∈ es, e = .r ∨ e = .w)
    (hl : m + 1 + allWaits g.E asks.length ≤ es.length) (hb : AllSend asks cuts)
    (hok : ∀ j (h : j < asks.length), asks[j].Ok g.home g.index (g.E j) ∧ WebConn.Dated (g.E j)) (hk : ∀ j (h : j + 1 < asks.length), asks[j].keeps)
    (hio : ∀ j, j ≤ asks.length → Ssl.Res.err ∉ (g.E j).io)
    (hq : ∀ j (h : j < asks.length), (cuts[j]?.getD []).length ≤ reads (g.E j).io ∧ Able (g.E j) (asks[j].wanted g.home g.index (g.E j)).length) :
    ∃ a, run g (init (List.replicate m .wantR ++ .ok :: hs) io) (cuts.flatten.map (fun r => .arrive r.1 r.2) ++ es) = some a ∧
      readAll asks.length (sent a) = (asks.mapIdx fun j a => (200, a.wanted g.home g.index (g.E j)), []) := by
  have h0 : run g (init (List.replicate m .wantR ++ .ok :: hs) io) (cuts.flatten.map fun r => .arrive r.1 r.2) =
      some (.pre ⟨tA, List.replicate m .wantR ++ .ok :: hs, io, cuts.flatten, .shake⟩) := run_arrive g _ _
  have hp1 := possible_drop hp h0
  rw [run_append, h0, Option.bind_some]
  obtain ⟨es2, t0, k1, k2, k3, k4⟩ := shake_reaches g m _ hs rfl rfl (.inl rfl) es he (by omega) hp1
  rw [k3]
  simp only [shaken, hg, Bool.false_eq_true, if_false, serve] at k4 ⊢
  rw [run_web]
  have hpw := possible_web k4
  rw [hk1] at hpw ⊢
  obtain ⟨r, r1, r2⟩ := WebConn.c106_delivers_partial n g.home g.index g.E _ es2 asks cuts hpw hb k2 (by omega) hok hk hio hq
  exact ⟨.web r, by rw [r1]; rfl, r2⟩

theorem exOk : ∀ j (h : j < [exDate, exFile, exEcho].length), [exDate, exFile, exEcho][j].Ok (exCfg false).home (exCfg false).index (exEnv j) ∧ WebConn.Dated (exEnv j) := by
  intro j h
  match j, h with
  | 0, _ => exact ⟨WebConn.exDate_ok _, WebConn.exDated _⟩
  | 1, _ => exact ⟨WebConn.exFile_ok, WebConn.exDated _⟩
  | 2, _ => exact ⟨WebConn.exEcho_ok _, WebConn.exDated _⟩

theorem exKeep : ∀ j (h : j + 1 < [exDate, exFile, exEcho].length), [exDate, exFile, exEcho][j].keeps := by
  intro j h
  match j, h with
  | 0, _ => exact ⟨_, List.mem_singleton.mpr rfl, .inl rfl, .inl rfl⟩
  | 1, _ => exact ⟨_, List.mem_singleton.mpr rfl, .inl rfl, .inl rfl⟩

theorem exIo (j : Nat) : Ssl.Res.err ∉ (exEnv j).io := by
  match j with
  | 0 => decide
  | 1 => decide
  | j + 2 => show Ssl.Res.err ∉ [Ssl.Res.wantW, .ok, .ok, .wantR, .ok]; decide

theorem exQ : ∀ j (h : j < [exDate, exFile, exEcho].length), (exCuts[j]?.getD []).length ≤ reads (exEnv j).io ∧
    Able (exEnv j) ([exDate, exFile, exEcho][j].wanted [47, 119] [105] (exEnv j)).length := by
  intro j h
  refine ⟨?_, WebConn.exAble _ _ ?_⟩
  · match j, h with
    | 0, _ => decide +kernel
    | 1, _ => decide +kernel
    | 2, _ => decide +kernel
  match j, h with
  | 0, _ => show (exDate.wanted [47, 119] [105] (exEnv 0)).length ≤ 40; decide +kernel
  | 1, _ => show (exFile.wanted [47, 119] [105] (exEnv 1)).length ≤ 40; decide +kernel
  | 2, _ => show (exEcho.wanted [47, 119] [105] (exEnv 2)).length ≤ 40; decide

/-- Case: the three requests of C106; the handshake waits twice. -/
example : ∃ a, run (exCfg false) (init [.wantR, .wantR, .ok] []) (exCuts.flatten.map (fun r => .arrive r.1 r.2) ++ ([.r, .r, .r] ++ exEvs)) = some a ∧
    readAll 3 (sent a) = ([(200, exNow), (200, [120, 121, 122]), (200, [104, 105])], []) :=
  c108_delivers_partial (exCfg false) 0 rfl rfl 2 [] [] _ [exDate, exFile, exEcho] exCuts (possible_sound _ _ (by decide +kernel)) (by decide) (by decide +kernel)
    WebConn.exSends exOk exKeep (fun j _ => exIo j) exQ

/-- C108, the tunnel. In secret mode, whatever the order of events: a connection that is with the tunnel began with the four magic bytes, at least the 36 bytes of a header are
in the buffer, nothing of what the client sent is lost (the buffer followed by the unread records is all of it), and the callback is the one that checks the header. A connection
whose first four bytes are the magic ones is never with the web server, and one with other first bytes is never with the tunnel. Missing: see `c108_handshake_counterexample`. -/
theorem c108_tunnel_partial (g : Cfg) (hs io : List Ssl.Res) (hw : Ssl.Res.wantW ∉ hs) (es : List WebConn.Ev) (hp : Possible g (init hs io) es) (a : A)
    (hr : run g (init hs io) es = some a) :
    (∀ buf t sock, a = .tunnel buf t sock → g.secret = true ∧ 36 ≤ buf.length ∧ buf ++ bytes sock = bytes (records es) ∧
      (bytes (records es)).take 4 = [0xa0, 0x01, 0xbe, 0xef] ∧ t.rcb = some (.app 11) ∧ t.wcb = none) ∧
    (g.secret = true → ∀ c, a = .web c → (bytes (records es)).take 4 ≠ [0xa0, 0x01, 0xbe, 0xef]) := by
  obtain ⟨a', h1, h2⟩ := run_good g es [] _ (init_good g hs io hw) hp
  rw [hr] at h1
  cases h1
  refine ⟨?_, ?_⟩
  · rintro buf t sock rfl
    obtain ⟨k1, k2, k3, k4, k5⟩ := h2
    refine ⟨k1, k2, k4, ?_, k5⟩
    rw [List.nil_append] at k4
    rw [← k4, List.take_append_of_le_length (by omega)]
    exact k3
  · rintro hg c rfl
    obtain ⟨es1, es2, t0, s0, lost, k1, k2, k3, k4, k5, k6⟩ := h2
    obtain ⟨k6, k7⟩ := k6 hg
    rw [List.nil_append] at k1
    rw [k1, records_append, bytes_append, ← k4, List.append_assoc, List.take_append_of_le_length (by omega)]
    exact k7

/-- Case: see the first case above, where the tunnel gets a connection. A connection with other first bytes, in two records: -/
example :
    let es : List WebConn.Ev := [.r, .arrive 71 (List.replicate 30 7), .r, .arrive 8 (List.replicate 10 7), .r]
    possible (exCfg true) (init [.ok] [.ok, .ok, .ok, .ok]) es = true ∧
    (run (exCfg true) (init [.ok] [.ok, .ok, .ok, .ok]) es).map (fun a => match a with | .web c => c.sock | _ => [(0, [])]) = some [] := by
  decide +kernel

/-- COUNTEREXAMPLE, for all web clients in secret mode (see also C55): the first request is a record of 36 to 8192 bytes. It is read to look for the tunnel's header and thrown
away. When the client sends further requests, everything else being as in `c108_delivers_partial`, it gets the responses to these only: the first response it reads is the one
to its second request. -/
theorem c108_first_request_counterexample (g : Cfg) (n : Nat) (hk1 : g.k = n + 1) (hg : g.secret = true) (m : Nat) (hs ws io : List Ssl.Res) (hws : ∀ x ∈ ws, x = .wantR ∨ x = .wantW)
    (es : List WebConn.Ev) (first : Ask) (b : UInt8) (bs : List UInt8) (h1 : 36 ≤ (b :: bs).length) (h2 : (b :: bs).length ≤ 8192)
    (hm : (b :: bs).take 4 ≠ [0xa0, 0x01, 0xbe, 0xef]) (asks : List Ask) (cuts : List (List (UInt8 × List UInt8)))
    (hp : Possible g (init (List.replicate m .wantR ++ .ok :: hs) (ws ++ .ok :: io)) (((b, bs) :: cuts.flatten).map (fun r => .arrive r.1 r.2) ++ es))
    (he : ∀ e ∈ es, e = .r ∨ e = .w) (hl : m + 1 + ws.length + allWaits g.E asks.length ≤ es.length) (hb : AllSend (first :: asks) ([(b, bs)] :: cuts))
    (hok : ∀ j (h : j < asks.length), asks[j].Ok g.home g.index (g.E j) ∧ WebConn.Dated (g.E j)) (hk : ∀ j (h : j + 1 < asks.length), asks[j].keeps)
    (hio : ∀ j, j ≤ asks.length → Ssl.Res.err ∉ (g.E j).io)
    (hq : ∀ j (h : j < asks.length), (cuts[j]?.getD []).length ≤ reads (g.E j).io ∧ Able (g.E j) (asks[j].wanted g.home g.index (g.E j)).length) :
    ∃ a, run g (init (List.replicate m .wantR ++ .ok :: hs) (ws ++ .ok :: io)) (((b, bs) :: cuts.flatten).map (fun r => .arrive r.1 r.2) ++ es) = some a ∧
      readAll asks.length (sent a) = (asks.mapIdx fun j a => (200, a.wanted g.home g.index (g.E j)), []) := by
  have h0 : run g (init (List.replicate m .wantR ++ .ok :: hs) (ws ++ .ok :: io)) (((b, bs) :: cuts.flatten).map fun r => .arrive r.1 r.2) =
      some (.pre ⟨tA, List.replicate m .wantR ++ .ok :: hs, ws ++ .ok :: io, (b, bs) :: cuts.flatten, .shake⟩) := run_arrive g _ _
  have hp1 := possible_drop hp h0
  rw [run_append, h0, Option.bind_some]
  obtain ⟨es2, t0, k1, k2, k3, k4⟩ := shake_reaches g m _ hs rfl rfl (.inl rfl) es he (by omega) hp1
  rw [k3]
  simp only [shaken, hg, if_true] at k4 ⊢
  simp only [List.length_cons] at h1 h2
  obtain ⟨es3, p', j1, j2, j3, j4, j5⟩ := route_lost g ws io hws _ rfl rfl (b, bs) cuts.flatten rfl (by simp only; omega) (by simp only; omega) hm es2 k2 (by omega) k4
  rw [j4]
  simp only [serve, j3] at j5 ⊢
  rw [run_web]
  have hpw := possible_web j5
  rw [hk1] at hpw ⊢
  obtain ⟨r, r1, r2⟩ := WebConn.c106_delivers_partial n g.home g.index g.E _ es3 asks cuts hpw hb.2 j2 (by omega) hok hk hio hq
  exact ⟨.web r, by rw [r1]; rfl, r2⟩

/-- Case: a request for the date, of 52 bytes, is followed by the three requests of C106, the first of which is for the date, too: four requests, three responses. -/
example : ∃ a, run (exCfg true) (init [.wantR, .ok] [.wantW, .ok])
      ((exRec exDate.head.bytes :: exCuts.flatten).map (fun r => .arrive r.1 r.2) ++ ([.r, .r, .w] ++ exEvs)) = some a ∧
    readAll 3 (sent a) = ([(200, exNow), (200, [120, 121, 122]), (200, [104, 105])], []) :=
  c108_first_request_counterexample (exCfg true) 0 rfl rfl 1 [] [.wantW] [] (by decide) _ exDate _ _ (by decide +kernel) (by decide +kernel) (by decide +kernel)
    [exDate, exFile, exEcho] exCuts (possible_sound _ _ (by decide +kernel)) (by decide) (by decide +kernel)
    ⟨⟨[], [], rfl, by decide, .inl (by decide +kernel)⟩, WebConn.exSends⟩ exOk exKeep (fun j _ => exIo j) exQ

/-- C108. A callback that calls itself without end does not return: nothing happens on the connection any more, not even its timer - and nothing in the whole worker. -/
theorem c108_endless (g : Cfg) (es : List WebConn.Ev) : run g .endless es = some .endless := by
  induction es with
  | nil => rfl
  | cons e es ih => simp only [run, step, Option.bind_some, ih]

end Verif.WebAccept
