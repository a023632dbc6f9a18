import Verif.Proofs.Hold
import Verif.Spec.Hold
/-
Property C109: nobody can keep a session of the tunnel server waiting before its relay begins.
-/
namespace Verif.Hold
open Verif Verif.S5 Verif.Serve Verif.Spec.Hold

/-- Waiting with a deadline: `B` minus ten seconds (and the delay `late`) for each call that may still come. -/
def By (late B : Nat) (x : X) : Prop := Good x ∧ tried x.sub = x.sub ∧ ∃ d, x.timer = some d ∧ d + (10000 + late) * left x ≤ B

theorem call_by {e : Env} {late B : Nat} {x : X} (hx : By late B x) (t : Nat) (rs : List Res) (ht : ∀ d, x.timer = some d → t < d + late) :
    over (call e x t rs).s = true ∨
      By late (B + (if (call e x t rs).s = x.s ∧ (call e x t rs).sub = x.sub then 10000 + late else 0)) (call e x t rs) := by
  obtain ⟨hg, hu, d, hd, hb⟩ := hx
  have ht := ht d hd
  obtain ⟨s, u, tm⟩ := x
  simp only at hd
  subst hd
  unfold call
  simp only [hg.not_over, Bool.false_eq_true, if_false]
  rcases go_next (e := e) hg rs with h | h | ⟨h1, h2⟩
  · rw [h]
    simp only [hg.not_over, Bool.false_eq_true, if_false]
    right
    obtain ⟨a, b⟩ := tried_good (t' := some (t + tmout u)) hg
    have hm := (tmout_le u).1
    refine ⟨a, by cases u <;> rfl, _, rfl, ?_⟩
    rw [b]
    simp only at hu
    rw [hu]; simp only [and_self, if_true]; omega
  · left; simp only [h, if_true]
  · generalize go e _ rs = y at h1 h2 ⊢
    simp only [h1.not_over, Bool.false_eq_true, if_false]
    right
    obtain ⟨s', u', t'⟩ := y
    obtain ⟨a, b⟩ := tried_good (t' := some (t + tmout u')) h1
    have hm := (tmout_le u').1
    refine ⟨a, by cases u' <;> rfl, _, rfl, ?_⟩
    rw [b]
    have : (10000 + late) * (left ⟨s', u', t'⟩ + 1) ≤ (10000 + late) * left ⟨s, u, some d⟩ := Nat.mul_le_mul_left _ h2
    rw [Nat.mul_add] at this
    dsimp only
    omega

theorem pass_by {late B : Nat} {x : X} (hx : By late B x) (t : Nat) :
    (over (pass x t).s = true) ∨ (pass x t = x ∧ ∀ d, x.timer = some d → t < d) := by
  obtain ⟨hg, -, d, hd, hb⟩ := hx
  unfold pass
  rw [hd]
  dsimp only
  split
  · exact .inl rfl
  · exact .inr ⟨rfl, fun d' h' => by cases h'; omega⟩

theorem pass_over {x : X} (h : over x.s = true) (t : Nat) : over (pass x t).s = true := by
  unfold pass
  split
  · split
    · rfl
    · exact h
  · exact h

theorem step_over {e : Env} {x : X} (h : over x.s = true) (v : Nat × Ev) : over (step e x v).s = true := by
  obtain ⟨t, v⟩ := v
  cases v with
  | pass => exact pass_over h t
  | call rs => simp only [step, call, h, if_true]

theorem run_over {e : Env} {x : X} (h : over x.s = true) (es : List (Nat × Ev)) : over (run e x es).s = true := by
  induction es generalizing x with
  | nil => exact h
  | cons v es ih => exact ih (step_over h v)

theorem run_by {e : Env} {late B : Nat} (es : List (Nat × Ev)) {x : X} (hx : By late B x) (hp : Prompt e late x es) :
    over (run e x es).s = true ∨ By late (B + (10000 + late) * idle e x es) (run e x es) := by
  induction es generalizing x B with
  | nil => exact .inr (by simpa [idle, run] using hx)
  | cons v es ih =>
    obtain ⟨t, v⟩ := v
    obtain ⟨hp1, hp2⟩ := hp
    cases v with
    | pass =>
      rcases pass_by hx t with h | ⟨h, -⟩
      · exact .inl (run_over (show over (step e x (t, .pass)).s = true from h) es)
      · have h' : step e x (t, .pass) = x := h
        rw [h'] at hp2
        have := ih hx hp2
        simp only [idle, h', ne_eq, not_true, false_and, if_false, Nat.zero_add]
        rw [show run e x ((t, .pass) :: es) = run e (step e x (t, .pass)) es from rfl, h']
        exact this
    | call rs =>
      rw [show run e x ((t, .call rs) :: es) = run e (step e x (t, .call rs)) es from rfl]
      rcases call_by (e := e) hx t rs (hp1 (by simp)) with h | h
      · exact .inl (run_over (show over (step e x (t, .call rs)).s = true from h) es)
      · rcases ih h hp2 with h1 | h1
        · exact .inl h1
        · right
          obtain ⟨a, b, d, c1, c2⟩ := h1
          refine ⟨a, b, d, c1, ?_⟩
          simp only [idle, step, ne_eq, reduceCtorEq, not_false_eq_true, true_and] at c2 ⊢
          split at c2
          · next hc => rw [if_pos hc, Nat.mul_add]; omega
          · next hc => rw [if_neg hc, Nat.mul_add]; omega

theorem fresh_good : Good fresh := ⟨by simp [fresh, Serve.init], rfl⟩

theorem start_by (e : Env) (late t0 : Nat) (rs : List Res) :
    over (call e fresh t0 rs).s = true ∨ By late (t0 + 10000 + (10000 + late) * 844) (call e fresh t0 rs) := by
  unfold call
  simp only [fresh_good.not_over, Bool.false_eq_true, if_false]
  rcases go_next (e := e) fresh_good rs with h | h | ⟨h1, h2⟩
  · rw [h]
    right
    simp only [fresh_good.not_over, Bool.false_eq_true, if_false]
    exact ⟨(tried_good fresh_good).1, rfl, _, rfl, by simp [fresh, tmout, left, tried]⟩
  · left; simp only [h, if_true]
  · generalize go e _ rs = y at h1 h2 ⊢
    simp only [h1.not_over, Bool.false_eq_true, if_false]
    right
    obtain ⟨s', u', t'⟩ := y
    obtain ⟨a, b⟩ := tried_good (t' := some (t0 + tmout u')) h1
    have hm := (tmout_le u').1
    refine ⟨a, by cases u' <;> rfl, _, rfl, ?_⟩
    rw [b]
    have h3 : left ⟨s', u', t'⟩ ≤ 844 := by
      have : left fresh = 844 := rfl
      omega
    have : (10000 + late) * left ⟨s', u', t'⟩ ≤ (10000 + late) * 844 := Nat.mul_le_mul_left _ h3
    dsimp only
    omega

/-- An environment for the cases below: every header is right, nothing is cached, every answer is an address. -/
def caseEnv : Env := ⟨fun _ => true, fun _ => none, fun _ _ => some [1, 2, 3, 4]⟩

/-- A client that sends one byte every 9.999 seconds. -/
def slowly (bs : List UInt8) : List (Nat × Ev) := bs.mapIdx fun i b => (9999 * (i + 1), .call [.rd b []])

/-- C109, the bound: whatever the peers send and whenever, when the timers are looked at after ten seconds for each of 844 calls the session is closed or relays, provided
its handlers were never called in vain; each call in vain counts for ten seconds more. `late`: how long a round of events can take. -/
theorem c109_bounded_partial (e : Env) (late t0 T : Nat) (rs : List Res) (es : List (Nat × Ev)) (hp : Prompt e late (call e fresh t0 rs) es)
    (hT : t0 + (10000 + late) * (844 + idle e (call e fresh t0 rs) es) ≤ T) :
    over (run e (call e fresh t0 rs) (es ++ [(T, .pass)])).s = true := by
  have happ : run e (call e fresh t0 rs) (es ++ [(T, Ev.pass)]) = pass (run e (call e fresh t0 rs) es) T := by simp [run, step]
  rw [happ]
  rcases start_by e late t0 rs with h | h
  · exact pass_over (run_over h es) T
  · rcases run_by es h hp with h1 | h1
    · exact pass_over h1 T
    · obtain ⟨hg, -, d, hd, hb⟩ := h1
      have hpos := hg.left_pos
      have : (10000 + late) * 1 ≤ (10000 + late) * left (run e (call e fresh t0 rs) es) := Nat.mul_le_mul_left _ hpos
      rw [Nat.mul_add] at hT
      have hdT : d ≤ T := by omega
      simp only [pass, hd, hdT, if_true]
      rfl

/-- A case: the handshake at once, then the header and the longest greeting byte by byte. After 48 minutes the session still waits, for the last of the methods; the
conditions of the theorem hold. -/
example :
    Prompt caseEnv 0 (call caseEnv fresh 0 [.shaken]) (slowly (List.replicate 36 7 ++ [5, 255] ++ List.replicate 254 0)) ∧
    idle caseEnv (call caseEnv fresh 0 [.shaken]) (slowly (List.replicate 36 7 ++ [5, 255] ++ List.replicate 254 0)) = 0 ∧
    (run caseEnv (call caseEnv fresh 0 [.shaken]) (slowly (List.replicate 36 7 ++ [5, 255] ++ List.replicate 254 0))).timer = some 2929708 ∧
    over (run caseEnv (call caseEnv fresh 0 [.shaken]) (slowly (List.replicate 36 7 ++ [5, 255] ++ List.replicate 254 0) ++ [(2929708, .pass)])).s = true := by
  decide +kernel

/-- C109, silence: a handler that was called at `t` and has to wait sets a timer; until five seconds later nothing is closed, from ten seconds later on the session is,
whatever it was waiting for. -/
theorem c109_silent (e : Env) (x : X) (t T : Nat) (rs : List Res) (h : over (call e x t rs).s = false) :
    (T < t + 5000 → pass (call e x t rs) T = call e x t rs) ∧ (t + 10000 ≤ T → (pass (call e x t rs) T).s.phase = .closed) := by
  have hx : over x.s = false := by
    cases hx : over x.s
    · rfl
    · simp [call, hx] at h
  unfold call at h ⊢
  simp only [hx, Bool.false_eq_true, if_false] at h ⊢
  split at h
  · next h' => simp [h'] at h
  · next h' =>
    simp only [h', Bool.false_eq_true, if_false]
    have hm := tmout_le (go e x rs).sub
    simp only [pass]
    constructor
    · intro hT
      rw [if_neg (by omega)]
    · intro hT
      rw [if_pos (by omega)]
      rfl

/-- C109, how long exactly: five seconds for the resolver, ten for the client and for the connection that is being made. -/
theorem c109_waits (e : Env) (x : X) (t : Nat) (rs : List Res) (h : over (call e x t rs).s = false) (hs : ∀ a, (call e x t rs).sub ≠ .shake a) :
    (call e x t rs).timer =
      some (t + match (call e x t rs).sub with
        | .ask => 5000
        | .answer _ => 5000
        | _ => 10000) := by
  have hx : over x.s = false := by
    cases hx : over x.s
    · rfl
    · simp [call, hx] at h
  unfold call at h hs ⊢
  simp only [hx, Bool.false_eq_true, if_false] at h hs ⊢
  split at h
  · next h' => simp [h'] at h
  · next h' =>
    simp only [h', Bool.false_eq_true, if_false] at hs ⊢
    generalize (go e x rs).sub = u at hs ⊢
    cases u <;> first | rfl | exact absurd rfl (hs _)

/-- C109, the answer of the name server: datagrams that have not yet brought a header, the question and its type and class leave the session waiting for more; once they have,
the answer is judged and the session connects or is closed. -/
theorem c109_answer (e : Env) (s : St) (n : List UInt8) (a c : UInt8) (hp : s.phase = .connect (.resolve n a c)) (got : List UInt8) (b : UInt8) (bs : List UInt8) (tm : Option Nat) :
    one e ⟨s, .answer got, tm⟩ (.dgram b bs) =
      if 16 + Dns.qnameLen n ≤ (got ++ (b :: bs).take (1500 - got.length)).length then
        match e.judge n (got ++ (b :: bs).take (1500 - got.length)) with
        | some ip => some ⟨s, .conn ip, none⟩
        | none => some (shut s)
      else some ⟨s, .answer (got ++ (b :: bs).take (1500 - got.length)), none⟩ := by
  have hw : want n = 16 + Dns.qnameLen n := by unfold want; omega
  simp only [one, hp, hw]
  by_cases hl : 16 + Dns.qnameLen n ≤ (got ++ (b :: bs).take (1500 - got.length)).length
  · rw [if_pos hl, if_neg (by omega)]
    cases e.judge n (got ++ (b :: bs).take (1500 - got.length)) <;> rfl
  · rw [if_neg hl, if_pos (by omega)]

/-- The name `a.b` is asked for with five bytes, so 21 bytes are waited for. -/
example (e : Env) : one e ⟨{ fresh.s with phase := .connect (.resolve [0x61, 0x2E, 0x62] 0 80) }, .answer [], none⟩ (.dgram 0 (List.replicate 19 0)) =
    some ⟨{ fresh.s with phase := .connect (.resolve [0x61, 0x2E, 0x62] 0 80) }, .answer (List.replicate 20 0), none⟩ := by
  rw [c109_answer e _ [0x61, 0x2E, 0x62] 0 80 rfl, if_neg (by decide +kernel)]
  rfl

/-- C109 is false for a peer that keeps being heard of: one that sends, more often than every ten seconds, records that contain nothing (or parts of a record) is called
in vain each time, each time the timer starts anew, and the session waits for ever: here for the header. -/
theorem c109_held_counterexample (e : Env) (t : Nat) (ts : List Nat) (hts : Closer 10000 t ts) :
    over (run e (call e fresh t [.shaken]) (trickle ts)).s = false ∧
      ((run e (call e fresh t [.shaken]) (trickle ts)).s.phase = .auth [] ) := by
  have key : ∀ (ts : List Nat) (t : Nat), Closer 10000 t ts → (run e ⟨Serve.init, .main, some (t + 10000)⟩ (trickle ts)).s = Serve.init := by
    intro ts
    induction ts with
    | nil => intros; rfl
    | cons a ts ih =>
      intro t h
      obtain ⟨h1, h2⟩ := h
      have hp : pass ⟨Serve.init, .main, some (t + 10000)⟩ a = ⟨Serve.init, .main, some (t + 10000)⟩ := by
        simp only [pass]; rw [if_neg (by omega)]
      have : run e ⟨Serve.init, .main, some (t + 10000)⟩ (trickle (a :: ts)) = run e ⟨Serve.init, .main, some (a + 10000)⟩ (trickle ts) := by
        simp only [trickle, List.flatMap_cons, run, List.cons_append, List.nil_append, List.foldl_cons, step]
        rw [hp]
        rfl
      rw [this]
      exact ih a h2
  have h0 : call e fresh t [.shaken] = ⟨Serve.init, .main, some (t + 10000)⟩ := rfl
  rw [h0, key ts t hts]
  exact ⟨rfl, rfl⟩

/-- The same during the handshake, more often than every five seconds. -/
theorem c109_shake_held_counterexample (e : Env) (t : Nat) (ts : List Nat) (hts : Closer 5000 t ts) :
    (run e (call e fresh t []) (trickle ts)).s = Serve.init ∧ (run e (call e fresh t []) (trickle ts)).sub = .shake true := by
  have key : ∀ (ts : List Nat) (t d : Nat), Closer 5000 t ts → t + 5000 ≤ d →
      (run e ⟨Serve.init, .shake true, some d⟩ (trickle ts)).s = Serve.init ∧ (run e ⟨Serve.init, .shake true, some d⟩ (trickle ts)).sub = .shake true := by
    intro ts
    induction ts with
    | nil => intros; exact ⟨rfl, rfl⟩
    | cons a ts ih =>
      intro t d h hd
      obtain ⟨h1, h2⟩ := h
      have hp : pass ⟨Serve.init, .shake true, some d⟩ a = ⟨Serve.init, .shake true, some d⟩ := by
        simp only [pass]; rw [if_neg (by omega)]
      have : run e ⟨Serve.init, .shake true, some d⟩ (trickle (a :: ts)) = run e ⟨Serve.init, .shake true, some (a + 5000)⟩ (trickle ts) := by
        simp only [trickle, List.flatMap_cons, run, List.cons_append, List.nil_append, List.foldl_cons, step]
        rw [hp]
        rfl
      rw [this]
      exact ih a _ h2 (Nat.le_refl _)
  have h0 : call e fresh t [] = ⟨Serve.init, .shake true, some (t + 10000)⟩ := rfl
  rw [h0]
  exact key ts t _ hts (by omega)

/-- Cases: a client that asks for a name; the question is sent and the resolver is waited for, five seconds; the answer comes and the connection is made; the reply is
written and the relay begins. -/
example :
    let x := run caseEnv (call caseEnv fresh 0 [.shaken, .rd 7 (List.replicate 35 7), .rd 5 [1, 0]])
      [(20, .call [.wr 9]), (40, .call [.rd 5 [1, 0, 3, 1, 97, 0, 80], .sent])]
    over x.s = false ∧ x.sub = .answer [] ∧ x.timer = some 5040 ∧ pass x 5039 = x ∧ (pass x 5040).s.phase = .closed ∧
      (run caseEnv x [(60, .call [.dgram 0 (List.replicate 40 0)])]).timer = some 10060 ∧
      (run caseEnv x [(60, .call [.dgram 0 (List.replicate 40 0)]), (80, .call [.conn, .wr 9])]).s.phase = .relay := by
  decide +kernel

example : Closer 10000 0 [9000, 18000, 27000] ∧ Closer 5000 0 [4000, 8000, 12000] := by simp [Closer]

/-- Three records without content. -/
example (e : Env) : (run e (call e fresh 0 [.shaken]) (trickle ((List.range 3).map fun i => 9000 * (i + 1)))).s.phase = .auth [] :=
  (c109_held_counterexample e 0 _ (by simp [Closer, List.range, List.range.loop])).2

end Verif.Hold
