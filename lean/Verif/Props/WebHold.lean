import Verif.Proofs.WebHold
import Verif.Props.WebConn
/-
Property C111: how long a connection of the web server can be kept waiting.
-/
namespace Verif.WebHold
open Verif Verif.WebConn Verif.Spec.WebHold

/-- A connection of the environment of C106, at time 100, with nothing received (for the cases). -/
def exStart : X := start 1 [47, 119] [105] exEnv ⟨⟨true, false⟩, none, none, ⟨false, false⟩, none, none⟩ [] 100

/-- The first request arrives, in one record, and is answered in two parts. -/
def exActs : List (Nat × Act) :=
  [(900, .arrive (exRec exDate.head.bytes).1 (exRec exDate.head.bytes).2), (1000, .w), (4000, .r)]

/-- A check for `Can` (for the cases). -/
def can (k : Nat) (home index : List UInt8) (E : Nat → Env) (x : X) : List (Nat × Act) → Bool
  | [] => true
  | v :: vs =>
    (match v.2, x.c.ph with
      | .r, .rsp w _ => w.t.opt.r
      | .r, _ => x.c.t.opt.r
      | .w, .rsp w _ => w.t.opt.w
      | .w, _ => x.c.t.opt.w
      | _, _ => true) &&
    match act k home index E x v with
    | some x' => can k home index E x' vs
    | none => true

theorem can_sound {k : Nat} {home index : List UInt8} {E : Nat → Env} (vs : List (Nat × Act)) (x : X) (h : can k home index E x vs = true) : Can k home index E x vs := by
  induction vs generalizing x with
  | nil => trivial
  | cons v vs ih =>
    obtain ⟨t, v⟩ := v
    simp only [can, Bool.and_eq_true] at h
    refine ⟨?_, fun c' hc => ih c' ?_⟩
    · cases v <;> simp only [Reports, Spec.WebConn.Reportable]
      · cases hp : x.c.ph <;> simp only [hp] at h ⊢ <;> exact h.1
      · cases hp : x.c.ph <;> simp only [hp] at h ⊢ <;> exact h.1
    · have := h.2
      rw [hc] at this
      exact this

/-- A check for `Prompt` (for the cases). -/
def prompt (k : Nat) (home index : List UInt8) (E : Nat → Env) (late : Nat) (x : X) : List (Nat × Act) → Bool
  | [] => true
  | v :: vs =>
    (match v.2, x.timer with
      | .r, some d => decide (v.1 < d + late)
      | .w, some d => decide (v.1 < d + late)
      | _, _ => true) &&
    match act k home index E x v with
    | some x' => prompt k home index E late x' vs
    | none => true

theorem prompt_sound {k : Nat} {home index : List UInt8} {E : Nat → Env} {late : Nat} (vs : List (Nat × Act)) (x : X) (h : prompt k home index E late x vs = true) :
    Prompt k home index E late x vs := by
  induction vs generalizing x with
  | nil => trivial
  | cons v vs ih =>
    obtain ⟨t, v⟩ := v
    simp only [prompt, Bool.and_eq_true] at h
    refine ⟨?_, fun c' hc => ih c' ?_⟩
    · rintro (rfl | rfl) d hd <;> simpa [hd] using h.1
    · have := h.2
      rw [hc] at this
      exact this

/-- C111, silence. A connection of the web server, from the end of the handshake on, on which nothing happened for five seconds is closed when the timers are looked at, whatever it was
doing and whatever happened before. -/
theorem c111_silent (k : Nat) (home index : List UInt8) (E : Nat → Env) (t0 : Ssl.S) (sock : List (UInt8 × List UInt8)) (s t T : Nat) (vs : List (Nat × Act)) (y : X)
    (h0 : s ≤ t) (hv : ∀ v ∈ vs, v.1 ≤ t) (hT : t + 5000 ≤ T)
    (hy : run k home index E (start k home index E t0 sock s) (vs ++ [(T, .pass)]) = some y) : ∃ why, y.c.ph = .gone why := by
  obtain ⟨z, h1, h2⟩ := run_append vs _ hy
  have hA : Armed t (start k home index E t0 sock s) := by
    intro hl
    simp only [start] at hl ⊢
    rw [if_pos hl]
    exact ⟨_, rfl, by omega⟩
  have hz := run_armed vs hA hv h1
  have hs := run_sane vs (show Sane (start k home index E t0 sock s).c from proc_sane _ _) h1
  by_cases hl : live z.c = true
  · obtain ⟨d, e1, e2⟩ := hz hl
    exact pass_gone hs e1 (by omega) h2
  · cases hp : z.c.ph with
    | gone why => exact ⟨why, gone_stays hp h2⟩
    | req ps => exact absurd (live_req hp) hl
    | rsp w keep => exact absurd (live_rsp hp) hl

/-- Case: the response to the first request waits from 1.0 s on, is continued at 4.0 s and waits again; at 8.999 s it still does, at 9.0 s the connection is closed. -/
example :
    (run 1 [47, 119] [105] exEnv exStart exActs).map (fun x => ((match x.c.ph with | .rsp w _ => w.out.length | _ => 0), x.timer)) = some (112, some 9000) ∧
    (run 1 [47, 119] [105] exEnv exStart (exActs ++ [(8999, .pass)])).map (fun x => live x.c) = some true ∧
    (run 1 [47, 119] [105] exEnv exStart (exActs ++ [(9000, .pass)])).map (fun x => live x.c) = some false := by
  decide +kernel

/-- C111, timers. Whatever happens on a connection over TLS, every event that can be reported for it starts the timer anew: the connection, if it is still there, has five seconds from then
on. (So nothing that waits for the peer waits without a deadline.) -/
theorem c111_waits (k : Nat) (home index : List UInt8) (E : Nat → Env) (t0 : Ssl.S) (sock : List (UInt8 × List UInt8)) (s : Nat) (vs : List (Nat × Act))
    (hc : Can k home index E (start k home index E t0 sock s) vs) :
    ∃ x, run k home index E (start k home index E t0 sock s) vs = some x ∧
      ∀ t v, v = .r ∨ v = .w → Reports x v → (∃ why, x.c.ph = .gone why) ∨
        ∃ y, act k home index E x (t, v) = some y ∧ ((∃ why, y.c.ph = .gone why) ∨ y.timer = some (t + 5000)) := by
  obtain ⟨x, h1, h2⟩ := run_reg' vs (show Reg (start k home index E t0 sock s).c from start_reg t0 sock) hc
  refine ⟨x, h1, fun t v hv hr => ?_⟩
  by_cases hl : live x.c = true
  · right
    obtain ⟨y, h3, h4⟩ := act_reg (k := k) (home := home) (index := index) (E := E) (v := (t, v)) h2 hr
    refine ⟨y, h3, ?_⟩
    have key : ∀ e, (e = .r ∨ e = .w) → Spec.WebConn.Reportable x.c e → event k home index E x t e = some y → (∃ why, y.c.ph = .gone why) ∨ y.timer = some (t + 5000) := by
      intro e he hr' hy
      have hc := reg_called h2 hl he hr'
      obtain ⟨c', h5, rfl⟩ := event_timer hy
      dsimp only
      rw [hc]
      cases hp : c'.ph with
      | gone why => exact .inl ⟨why, rfl⟩
      | req ps => right; rw [live_req hp]; rfl
      | rsp w keep => right; rw [live_rsp hp]; rfl
    rcases hv with rfl | rfl
    · exact key .r (.inl rfl) hr h3
    · exact key .w (.inr rfl) hr h3
  · left
    cases hp : x.c.ph with
    | gone why => exact ⟨why, rfl⟩
    | req ps => exact absurd (live_req hp) hl
    | rsp w keep => exact absurd (live_rsp hp) hl

example : Can 1 [47, 119] [105] exEnv exStart exActs ∧ (run 1 [47, 119] [105] exEnv exStart exActs).map (·.timer) = some (some 9000) :=
  ⟨can_sound _ _ (by decide +kernel), by decide +kernel⟩

/-- C111, requests. While every event that starts the timer anew brings a byte of the request, a request is read for a bounded time: 20442 times five seconds (and the delay with which
the timers are looked at) after the deadline at any of its moments it is complete or the connection is closed. Every event without a byte - `idle` of them - adds as much, and
nothing bounds their number (`c111_held_counterexample`): the full statement, a bound for all clients, is false. -/
theorem c111_request_partial (k : Nat) (home index : List UInt8) (E : Nat → Env) (t0 : Ssl.S) (sock : List (UInt8 × List UInt8)) (s : Nat) (us vs : List (Nat × Act)) (x y : X)
    (late d i T : Nat) (hx : run k home index E (start k home index E t0 sock s) us = some x) (hi : Reading i x.c) (hd : x.timer = some d)
    (hp : Prompt k home index E late x vs) (hT : d + (5000 + late) * (20442 + idle k home index E x vs) ≤ T)
    (hy : run k home index E x (vs ++ [(T, .pass)]) = some y) : ¬ Reading i y.c := by
  have hroom := run_room us (show Room (start k home index E t0 sock s).c from proc_fits _ _ trivial) hx
  have hsane := run_sane us (show Sane (start k home index E t0 sock s).c from proc_sane _ _) hx
  obtain ⟨hi, ps, hph⟩ := hi
  obtain ⟨z, h1, h2⟩ := run_append vs _ hy
  have hn := need_le ps (hroom ps hph)
  rcases run_byR (B := d + (5000 + late) * need ps) vs ⟨hi, hroom, ps, d, hph, hd, Nat.le_refl _⟩ hp h1 with ⟨g, gr⟩ | ⟨g1, g2, ps', d', g3, g4, g5⟩
  · have : Past i y.c := by
      rcases act_step h2 with e | ⟨e, he⟩
      · rw [e]; exact g
      · exact step_past g gr he
    rintro ⟨e1, ps', e2⟩
    rcases this with h | ⟨-, h⟩
    · omega
    · exact h ps' e2
  · have hle : (5000 + late) * need ps ≤ (5000 + late) * 20442 := Nat.mul_le_mul_left _ hn
    rw [Nat.mul_add] at hT
    obtain ⟨why, hw⟩ := pass_gone (run_sane vs hsane h1) g4 (T := T) (by omega) h2
    rintro ⟨-, ps', e2⟩
    rw [hw] at e2
    cases e2

/-- Case: the second request of a kept connection, of which the request line is there; with an event in vain, and the bound. -/
example :
    let us : List (Nat × Act) := exActs ++ [(5000, .w), (6000, .arrive (exRec exFile.head.line).1 (exRec exFile.head.line).2), (6500, .w)]
    (run 1 [47, 119] [105] exEnv exStart us).map (fun x => (mark x.c, x.timer)) = some ((1, 1, exFile.head.line.length), some 11500) ∧
    (run 1 [47, 119] [105] exEnv exStart us).map (fun x => prompt 1 [47, 119] [105] exEnv 5 x [(11000, .pass), (11001, .r)]) = some true ∧
    (run 1 [47, 119] [105] exEnv exStart us).map (fun x => idle 1 [47, 119] [105] exEnv x [(11000, .pass), (11001, .r)]) = some 1 ∧
    (run 1 [47, 119] [105] exEnv exStart (us ++ [(11000, .pass), (11001, .r)])).map (fun x => (mark x.c, x.timer)) = some ((1, 1, exFile.head.line.length), some 16001) := by
  decide +kernel

/-- C111, responses. The same for a response, which is one that the router has chosen (`hdr`, `body`) and of which a beginning was sent: five seconds for each byte that is left of it,
and for each event with which nothing could be sent. -/
theorem c111_response_partial (k : Nat) (home index : List UInt8) (E : Nat → Env) (t0 : Ssl.S) (sock : List (UInt8 × List UInt8)) (s : Nat) (us : List (Nat × Act)) (x : X)
    (late d i : Nat) (w : WebSend.W) (keep : Bool) (hx : run k home index E (start k home index E t0 sock s) us = some x) (hi : x.c.i = i) (hw : x.c.ph = .rsp w keep)
    (hd : x.timer = some d) :
    ∃ q hdr body, answer home index (E i) q = .rsp hdr body ∧ w.out <+: Spec.WebSend.whole hdr body ∧ ∀ vs T y, Prompt k home index E late x vs →
      d + (5000 + late) * ((Spec.WebSend.whole hdr body).length - w.out.length + idle k home index E x vs) ≤ T →
      run k home index E x (vs ++ [(T, .pass)]) = some y → ¬ Sending i y.c := by
  have hroom := run_room us (show Room (start k home index E t0 sock s).c from proc_fits _ _ trivial) hx
  have hsane := run_sane us (show Sane (start k home index E t0 sock s).c from proc_sane _ _) hx
  obtain ⟨q, hdr, body, t1, es, hq, hs⟩ := run_from us (show From home index E (start k home index E t0 sock s).c from proc_from _ _) hx w keep hw
  have hok := WebSend.run_ok es (WebSend.start_ok true t1 hdr body _ _ _ _) hs
  refine ⟨q, hdr, body, hi ▸ hq, hok.2.1, fun vs T y hp hT hy => ?_⟩
  obtain ⟨z, h1, h2⟩ := run_append vs _ hy
  rcases run_byS (hdr := hdr) (body := body) (B := d + (5000 + late) * ((Spec.WebSend.whole hdr body).length - w.out.length)) vs
    ⟨hi, hroom, w, keep, d, hw, hsane w keep hw, hok, hd, Nat.le_refl _⟩ hp h1 with ⟨g, gr⟩ | ⟨g1, g2, w', keep', d', g3, g4, g5, g6, g7⟩
  · have : Over i y.c := by
      rcases act_step h2 with e | ⟨e, he⟩
      · rw [e]; exact g
      · exact step_over g gr he
    rintro ⟨e1, w', keep', e2⟩
    rcases this with h | ⟨-, why, h⟩
    · omega
    · rw [h] at e2; cases e2
  · rw [Nat.mul_add] at hT
    obtain ⟨why, hw⟩ := pass_gone (run_sane vs hsane h1) g6 (T := T) (by omega) h2
    rintro ⟨-, w', keep', e2⟩
    rw [hw] at e2
    cases e2

/-- Case: the response to the first request, after 0 and after 112 bytes of it; with an event in vain in the last history. -/
example :
    (run 1 [47, 119] [105] exEnv exStart (exActs.take 2)).map (fun x => (mark x.c, x.timer)) = some ((0, 3, 0), some 6000) ∧
    (run 1 [47, 119] [105] exEnv exStart exActs).map (fun x => (mark x.c, x.timer)) = some ((0, 3, 112), some 9000) ∧
    (run 1 [47, 119] [105] exEnv exStart (exActs.take 2)).map (fun x => prompt 1 [47, 119] [105] exEnv 0 x [(4000, .r), (8000, .pass), (8100, .r)]) = some true ∧
    (run 1 [47, 119] [105] exEnv exStart (exActs.take 2)).map (fun x => idle 1 [47, 119] [105] exEnv x [(4000, .r), (8000, .pass)]) = some 0 := by
  decide +kernel

/-- C111, held. A client that is heard of more often than every five seconds, with nothing that can be used (parts of a TLS record, or empty ones), holds its connection for ever, at the
beginning of its request. -/
theorem c111_held_counterexample (k : Nat) (home index : List UInt8) (E : Nat → Env) (t0 : Ssl.S) (t : Nat) (ts : List Nat)
    (hE : ∀ r ∈ (E 0).io, r = .ok ∨ r = .wantR) (hts : Closer 5000 t ts) :
    ∃ y, run k home index E (start k home index E t0 [] t) (trickle ts) = some y ∧ Reading 0 y.c := by
  have hproc : ∀ c : C, c.sock = [] → (∀ r ∈ c.io, r = .ok ∨ r = .wantR) → c.t.rcb = some (.app 20) →
      (proc k home index E c .line).ph = .req .line ∧ (proc k home index E c .line).sock = [] ∧ (∀ r ∈ (proc k home index E c .line).io, r = .ok ∨ r = .wantR) ∧
        (proc k home index E c .line).t.rcb = some (.app 20) ∧ (proc k home index E c .line).i = c.i := by
    intro c hs hio hr
    unfold proc
    split
    · rename_i h; exact ⟨rfl, hs, by rw [h]; simp, by exact hr, rfl⟩
    · rename_i io h; exact ⟨rfl, hs, fun r hr => hio r (by rw [h]; simp [hr]), by exact hr, rfl⟩
    · rename_i io h; have := hio .wantW (by rw [h]; simp); simp at this
    · rename_i io h; have := hio .err (by rw [h]; simp); simp at this
    · rename_i io h
      split
      · exact ⟨rfl, hs, fun r hr => hio r (by rw [h]; simp [hr]), by exact hr, rfl⟩
      · rename_i h'; rw [hs] at h'; cases h'
  have key : ∀ (ts : List Nat) (t : Nat) (c : C), Closer 5000 t ts → c.ph = .req .line → c.sock = [] → (∀ r ∈ c.io, r = .ok ∨ r = .wantR) → c.t.rcb = some (.app 20) → c.i = 0 →
      ∃ y, run k home index E ⟨c, some (t + 5000)⟩ (trickle ts) = some y ∧ Reading 0 y.c := by
    intro ts
    induction ts with
    | nil => intro t c _ h1 _ _ _ h5; exact ⟨_, rfl, h5, _, h1⟩
    | cons a ts ih =>
      intro t c hcl h1 h2 h3 h4 h5
      obtain ⟨p1, p2, p3, p4, p5⟩ := hproc c h2 h3 h4
      have e1 : act k home index E ⟨c, some (t + 5000)⟩ (a, .pass) = some ⟨c, some (t + 5000)⟩ := by
        simp only [act]; rw [if_neg (by have := hcl.1; omega)]
      have e2 : act k home index E ⟨c, some (t + 5000)⟩ (a, .r) = some ⟨proc k home index E c .line, some (a + 5000)⟩ := by
        simp only [act, event, step, h1, h4, Option.map_some, live, p1, called]
        rfl
      obtain ⟨y, y1, y2⟩ := ih a _ hcl.2 p1 p2 p3 p4 (p5.trans h5)
      refine ⟨y, ?_, y2⟩
      show run k home index E _ ((a, .pass) :: (a, .r) :: trickle ts) = some y
      simp only [run, e1, e2, Option.bind_some, y1]
  obtain ⟨p1, p2, p3, p4, p5⟩ := hproc (begin E { i := 0, t := t0, io := [], sock := [], out := [], ph := .req .line } 0 t0) rfl hE rfl
  have e0 : start k home index E t0 [] t = ⟨proc k home index E (begin E { i := 0, t := t0, io := [], sock := [], out := [], ph := .req .line } 0 t0) .line, some (t + 5000)⟩ := by
    simp only [start, WebConn.start, live, p1]
    rfl
  rw [e0]
  exact key ts t _ hts p1 p2 p3 p4 p5

example : Closer 5000 0 [4000, 8000, 12000, 16000] := by simp [Closer]

/-- C111, without TLS. Of a connection without TLS whose response has to wait, the deadline never moves, whatever can be reported for it in whatever order (none of the events continues
the response, C103): five seconds after the response was started it is closed, and the client has got what was sent at once. -/
theorem c111_plain (hdr : List (List UInt8)) (body : WebSend.Body) (mem : Bool) (rd : List Nat) (dst : List TlsRelay.Wr) (peek : List WebSend.Peek) (t : Nat) (vs : List (Nat × ActW))
    (hf : (WebSend.start false WebSend.plainT hdr body mem rd dst peek).fin = none)
    (hp : PossibleW (startW false WebSend.plainT hdr body mem rd dst peek t) vs) :
    ∃ y, runW (startW false WebSend.plainT hdr body mem rd dst peek t) vs = some y ∧ y.w.out = (WebSend.start false WebSend.plainT hdr body mem rd dst peek).out ∧
      (y.w.fin = none → y.timer = some (t + 5000)) ∧ ((∃ T, t + 5000 ≤ T ∧ (T, .pass) ∈ vs) → y.w.fin ≠ none) := by
  have h0 : Plain (t + 5000) (WebSend.start false WebSend.plainT hdr body mem rd dst peek).out (startW false WebSend.plainT hdr body mem rd dst peek t) :=
    ⟨WebSend.start_stuck hdr body mem rd dst peek, rfl, fun _ => by simp only [startW, hf]; rfl, fun h => absurd hf h⟩
  obtain ⟨y, h1, ⟨h2, h3, h4, h5⟩, h6, h7⟩ := runW_plain vs h0 hp
  exact ⟨y, h1, h3, h4, h7⟩

/-- Case: the socket takes two bytes and is full; the client sends something, and the connection is closed at 5.1 s. -/
example :
    let y := startW false WebSend.plainT [[72, 84], [13, 10]] (.file [1, 2, 3] 3) true [2, 2] [.sent 2, .wait false, .sent 20000] [.byte, .again] 100
    y.w.fin = none ∧ y.timer = some 5100 ∧ (runW y [(4000, .r), (5099, .pass), (5099, .r)]).map (fun y => (y.w.fin, y.timer)) = some (none, some 5100) ∧
      (runW y [(4000, .r), (5099, .pass), (5099, .r), (5100, .pass)]).map (fun y => (y.w.fin, y.timer)) = some (some .expired, none) := by
  decide +kernel

/-- C111, timers of a response seen by itself, with and without TLS: a report that it is writable with which the response is continued starts the timer anew, any other report leaves it as
it is; the timer of a response that is over is taken back. -/
theorem c111_continued (y y' : Y) (t : Nat) (hw : y.w.t.wcb ≠ none) :
    (eventW y t .w = some y' → (y'.w.fin = none → y'.timer = some (t + 5000)) ∧ (y'.w.fin ≠ none → y'.timer = none)) ∧
    (y.w.t.rcb = some (.app 0) → eventW y t .r = some y' → (y'.w.fin = none → y'.timer = y.timer) ∧ (y'.w.fin ≠ none → y'.timer = none)) := by
  have hs : y.w.t.wcb.isSome = true := by rw [Option.isSome_iff_ne_none]; exact hw
  refine ⟨fun h => ?_, fun hr h => ?_⟩ <;> simp only [eventW, Option.map_eq_some_iff] at h <;> obtain ⟨w, -, rfl⟩ := h <;>
    refine ⟨fun h0 => ?_, fun h0 => ?_⟩ <;> dsimp only at h0 ⊢
  · simp [h0, calledW, hs]
  · rw [if_neg (by simpa using h0)]
  · simp [h0, calledW, hr]
  · rw [if_neg (by simpa using h0)]

/-- Case: a response over TLS of which a part was taken at 0 s; it is continued at 3 s, has to wait again, and then has until 8 s. -/
example :
    let y := startW true WebSend.plainT [[72, 84, 84, 80]] (.api [1, 2, 3]) true [] [.sent 2, .wait false, .sent 1, .wait false] [] 0
    (y.w.out, y.timer) = ([72, 84], some 5000) ∧ (eventW y 3000 .w).map (fun z => (z.w.out, z.timer)) = some ([72, 84, 84], some 8000) := by decide +kernel

end Verif.WebHold
