import Verif.Proofs.Path
import Verif.Props.Auth
/-
C91: the two hosts together are a transparent path.
-/
namespace Verif.Path
open Verif Verif.S5 Verif.S5Spec
open Verif.Serve (established_length head2 head12 feed_greet_full feed_req_full flatten_nil)

section
variable {key : List UInt8} {admit : List UInt8 → Bool}

theorem cond (hk : admit (Auth.clientHeader key) = true) {R : List (List UInt8)} {ms : List UInt8} {rsv : UInt8} {h : Host} {port : Nat}
    (hm : 1 ≤ ms.length ∧ ms.length ≤ 255) (hh : HostOk h) (hR : R.flatten = encodeReq 5 1 rsv h port) (hR0 : [] ∉ R) :
    Cond key admit (Auth.clientHeader key) R ms rsv h port :=
  ⟨rfl, Auth.clientHeader_length key, hk, hm, hh, hR, hR0⟩

/-- C91, from the program to the destination: in every history, failures included, the server connects to nothing but the host and port the program
asked for, and what reaches that destination is the beginning of the program's data, in order and unaltered; neither host touches memory outside its
buffers. Missing: what the TLS layer
does to callbacks and interest (C102). -/
theorem c91_up_partial (hk : admit (Auth.clientHeader key) = true) (G R D : List (List UInt8)) (v : UInt8) (ms : List UInt8) (rsv : UInt8) (h : Host) (port : Nat)
    (hm : 1 ≤ ms.length ∧ ms.length ≤ 255) (hh : HostOk h) (hG : G.flatten = encodeGreeting v ms) (hG0 : [] ∉ G)
    (hR : R.flatten = encodeReq 5 1 rsv h port) (hR0 : [] ∉ R) (es : List Ev) (c : List (List UInt8 × Nat)) (s : St)
    (hp : play key admit (script G R D) init es = some (c, s)) :
    s.dst <+: D.flatten ∧ (∀ a, s.srv.phase = .connect a → a = wanted h port) ∧ s.srv.phase ≠ .crash := by
  have hj := j_play (cond hk hm hh hR hR0) (j_init (D := D) hG hG0) hp
  have hu := hj.up
  refine ⟨?_, ?_, ?_⟩
  · refine List.IsPrefix.trans ?_ (up_bounds hu).2
    rw [hj.acc, List.append_assoc]
    exact List.prefix_append _ _
  · intro a ha
    unfold Up at hu
    rw [ha] at hu
    exact hu.1
  · intro ha
    unfold Up at hu
    rw [ha] at hu
    exact hu

/-- C91, to the program: it reads the answer to its greeting, ten bytes that begin with version 5 and success, and then what the destination wrote, in
order and unaltered; never anything else. Missing: what the TLS layer
does to callbacks and interest (C102). -/
theorem c91_down_partial (hk : admit (Auth.clientHeader key) = true) (G R D : List (List UInt8)) (v : UInt8) (ms : List UInt8) (rsv : UInt8) (h : Host) (port : Nat)
    (hm : 1 ≤ ms.length ∧ ms.length ≤ 255) (hh : HostOk h) (hG : G.flatten = encodeGreeting v ms) (hG0 : [] ∉ G)
    (hR : R.flatten = encodeReq 5 1 rsv h port) (hR0 : [] ∉ R) (es : List Ev) (c : List (List UInt8 × Nat)) (s : St)
    (hp : play key admit (script G R D) init es = some (c, s)) :
    ∃ a : List UInt8, a.length = 10 ∧ [5, 0] <+: a ∧ s.got <+: [5, 0] ++ a ++ offered es := by
  have hj := j_play (cond hk hm hh hR hR0) (j_init (D := D) hG hG0) hp
  obtain ⟨R2, h1, h2, h3⟩ := hj.down
  have hpre : ∀ ip, [5, 0] <+: Serve.established (wanted h port) ip := by
    intro ip; cases h <;> simp [Serve.established, wanted, p2Reply]
  have hg : s.got <+: s.srv.wire ++ R2 := by rw [← h1, List.append_assoc]; exact List.prefix_append _ _
  rcases h3 with ⟨rfl, -⟩ | ⟨ip, h3⟩
  · obtain ⟨ip, hw⟩ := (up_bounds hj.up).1
    refine ⟨_, established_length h port ip, hpre ip, ?_⟩
    rw [List.append_nil] at hg
    exact (hg.trans hw).trans (List.prefix_append _ _)
  · refine ⟨_, established_length h port ip, hpre ip, ?_⟩
    rw [h3] at hg
    refine hg.trans ((List.prefix_append_right_inj _).mpr ?_)
    rw [List.nil_append] at h2
    rw [← h2, List.append_assoc]
    exact List.prefix_append _ _

/-- What a state of rest looks like. -/
theorem quiet_facts {s : St} (hph : s.ph ≠ .closed) (hq : Quiet key admit s) :
    s.ph = .relay ∧ s.up = [] ∧ s.lq = [] ∧ s.net = [] ∧ s.back = [] ∧ s.down = [] := by
  have hrel : s.ph = .relay := by
    cases hs : s.ph with
    | connecting =>
      have := congrArg St.ph (hq .established rfl rfl)
      simp [step, hs] at this
    | auth l =>
      have := congrArg St.net (hq (.header 0) rfl rfl)
      simp [step, header, hs] at this
    | relay => rfl
    | closed => exact absurd hs hph
  have hup : s.up = [] := by
    by_cases hx : s.up = []
    · exact hx
    · have := congrArg St.net (hq (.put 0) rfl rfl)
      simp [step, put, hrel, hx] at this
  have hlq : s.lq = [] := by
    have := congrArg St.up (hq (.take 0) rfl rfl)
    simp [step, take, hrel, hup, cap] at this
    exact this
  have hnet : s.net = [] := by
    cases hx : s.net with
    | nil => rfl
    | cons r t =>
      have := congrArg (fun z => z.net.length) (hq .deliver rfl rfl)
      simp [step, hx] at this
  have hdown : s.down = [] := by
    have := congrArg St.got (hq (.cout 0) rfl rfl)
    simp [step, hrel] at this
    exact this
  have hback : s.back = [] := by
    have := congrArg St.down (hq (.cback 0) rfl rfl)
    simp [step, hrel, hdown, cap] at this
    exact this
  exact ⟨hrel, hup, hlq, hnet, hback, hdown⟩

/-- C91, everything arrives: in a history without failures in which nothing is left for the two hosts and the network to do, either it is the program's
turn to write the next piece of its script, or it has written everything, all its data is at the destination, and it has read both answers and everything
the destination wrote. Missing: what the TLS layer
does to callbacks and interest (C102). -/
theorem c91_everything_partial (hk : admit (Auth.clientHeader key) = true) (G R D : List (List UInt8)) (v : UInt8) (ms : List UInt8) (rsv : UInt8) (h : Host)
    (port : Nat) (hm : 1 ≤ ms.length ∧ ms.length ≤ 255) (hh : HostOk h) (hG : G.flatten = encodeGreeting v ms) (hG0 : [] ∉ G)
    (hR : R.flatten = encodeReq 5 1 rsv h port) (hR0 : [] ∉ R) (es : List Ev) (c : List (List UInt8 × Nat)) (s : St)
    (hp : play key admit (script G R D) init es = some (c, s)) (hf : ∀ e ∈ es, e.failure = false) (hq : Quiet key admit s) :
    (∃ r k c', c = (r, k) :: c' ∧ k ≤ s.got.length) ∨
    (c = [] ∧ s.dst = D.flatten ∧ ∃ a : List UInt8, a.length = 10 ∧ [5, 0] <+: a ∧ s.got = [5, 0] ++ a ++ offered es) := by
  have hok : es.all (fun e => !e.failure) = true := by simpa using hf
  have hj := j_play (cond hk hm hh hR hR0) (j_init (D := D) hG hG0) hp
  rw [hok] at hj
  simp only [Bool.and_true] at hj
  obtain ⟨h1, h2, h3, h4, h5, h6⟩ := quiet_facts (hj.open_ rfl) hq
  have hu := hj.up
  obtain ⟨R2, d1, d2, d3⟩ := hj.down
  rw [h5, h6, List.append_nil, List.append_nil] at d1
  rw [h1, h2, h3, h4, List.append_nil] at hu
  have hread : ∀ r t, s.srv.sock = r :: t → (Serve.step admit s.srv .read).sock = s.srv.sock := by
    intro r t _
    exact congrArg (fun z => z.srv.sock) (hq .read rfl rfl)
  have hwrite : ∀ n, (Serve.step admit s.srv (.write n)) = s.srv := fun n => congrArg (fun z => z.srv) (hq (.write n) rfl rfl)
  have hconn : ∀ ip, (Serve.step admit s.srv (.connected ip)) = s.srv := fun ip => congrArg (fun z => z.srv) (hq (.connected ip) rfl rfl)
  have hreadw : s.srv = Serve.step admit s.srv .read := (congrArg (fun z => z.srv) (hq .read rfl rfl)).symm
  have hhdr : (Auth.clientHeader key).length = 36 := Auth.clientHeader_length key
  have hsock : (∃ b, s.srv.phase = .auth b) ∨ (∃ p f, s.srv.phase = .greet p f) ∨ (∃ p f, s.srv.phase = .request p f) ∨ s.srv.phase = .relay →
      s.srv.sock = [] := by
    intro hph
    cases hs : s.srv.sock with
    | nil => rfl
    | cons r t =>
      exfalso
      have hn : [] ∉ s.srv.sock := fun hx => hj.ne (by simp [hx])
      have hrl : r ≠ [] := fun hx => hn (by rw [hs, hx]; simp)
      have hb : ∀ b, s.srv.phase = .auth b → b.length < 36 := by
        intro b hb; have hu := hj.up; unfold Up at hu; rw [hb] at hu; exact hu.2.2.1
      have hr : ∀ u, s.srv.phase = .reply u ∨ s.srv.phase = .greetRsp u → u ≠ [] := by
        rintro u (hb | hb) <;> (have hu := hj.up; unfold Up at hu; rw [hb] at hu)
        · exact hu.1
        · exact hu.2.1
      have hcl : ∀ n (l : List (List UInt8)), 0 < n → Serve.leave n r l ≠ r :: l := by
        intro n l hn e
        have := leave_less (l := l) hn hrl
        rw [e] at this
        omega
      have hwk := hread r t hs
      rcases hph with ⟨b, hph⟩ | ⟨p, f, hph⟩ | ⟨p, f, hph⟩ | hph
      · have := hb b hph
        have hx : (Serve.step admit s.srv .read).sock = Serve.leave (metaN - b.length) r t := by
          simp only [Serve.step, hs, hph, Serve.readAuth]
          repeat' split
          all_goals rfl
        rw [hx, hs] at hwk
        exact hcl _ _ (by simp [metaN]; omega) hwk
      · have hf0 : f ≠ 0 := by
          rintro rfl
          have := congrArg Serve.St.phase hreadw
          simp [Serve.step, hs, hph, Serve.readGreet] at this
        have hx : (Serve.step admit s.srv .read).sock = Serve.leave f r t := by
          simp only [Serve.step, hs, hph, Serve.readGreet, if_neg hf0]
          repeat' split
          all_goals rfl
        rw [hx, hs] at hwk
        exact hcl _ _ (by omega) hwk
      · have hf0 : f ≠ 0 := by
          rintro rfl
          have := congrArg Serve.St.phase hreadw
          simp [Serve.step, hs, hph, Serve.readRequest] at this
        have hx : (Serve.step admit s.srv .read).sock = Serve.leave f r t := by
          simp only [Serve.step, hs, hph, Serve.readRequest, if_neg hf0]
          repeat' split
          all_goals rfl
        rw [hx, hs] at hwk
        exact hcl _ _ (by omega) hwk
      · have : (Serve.step admit s.srv .read).sock = t := by simp [Serve.step, hs, hph]
        rw [this, hs] at hwk
        exact absurd (congrArg List.length hwk) (by simp)
  unfold Up at hu
  split at hu
  · -- auth
    next b hph =>
    exfalso
    rw [hsock (.inl ⟨b, hph⟩)] at hu
    obtain ⟨-, -, hb, Hr, Gr, hr, gr, e1, e2, -, -, e3, -⟩ := hu
    have e1 := e1.symm
    rw [List.append_eq_nil_iff] at e1
    obtain ⟨rfl, rfl⟩ := e1
    subst e3
    have := congrArg List.length e2
    simp [hhdr] at this
    omega
  · -- greet
    next p f hph =>
    rw [hsock (.inr (.inl ⟨p, f, hph⟩))] at hu
    obtain ⟨-, -, w, rest, e1, -, e2, e3 | ⟨-, X, e3, e4, e5⟩⟩ := hu
    · cases e3
    · left
      cases X with
      | nil =>
        exfalso
        simp only [List.flatten_nil, List.append_nil] at e5 e2
        subst e5
        rw [List.append_nil] at e2
        obtain ⟨q, hq'⟩ := feed_greet_full v ms hm
        rw [e2] at e1
        rw [e1] at hq'
        cases hq'
      | cons x X => exact ⟨x, 0, _, by simpa using e4, by omega⟩
  · -- greetRsp
    next u hph =>
    exfalso
    have := congrArg Serve.St.wire (hwrite 0)
    obtain ⟨-, hu1, -⟩ := hu
    simp [Serve.step, hph] at this
    exact hu1 this
  · -- request
    next p f hph =>
    rw [hsock (.inr (.inr (.inl ⟨p, f, hph⟩)))] at hu
    obtain ⟨hw, -, w, rest, e1, -, e2, e3 | ⟨-, X, e3, e4, e5⟩⟩ := hu
    · cases e3
    · left
      cases X with
      | nil =>
        exfalso
        simp only [List.flatten_nil, List.append_nil] at e5 e2
        subst e5
        rw [List.append_nil] at e2
        obtain ⟨q, hq', -⟩ := feed_req_full rsv h port hh
        rw [e2] at e1
        rw [e1] at hq'
        cases hq'
      | cons x X =>
        refine ⟨x, 2, _, by simpa using e4, ?_⟩
        rw [d1, hw]; simp
  · -- connect
    next a hph =>
    exfalso
    have := congrArg Serve.St.phase (hconn [])
    simp [Serve.step, hph] at this
  · -- reply
    next u hph =>
    exfalso
    have := congrArg Serve.St.wire (hwrite 0)
    obtain ⟨hu1, -⟩ := hu
    simp [Serve.step, hph] at this
    exact hu1 this
  · -- relay
    next hph =>
    have hs := hsock (.inr (.inr (.inr hph)))
    rw [hs] at hu
    obtain ⟨⟨ip, hw⟩, rest, e1, e2 | ⟨-, e2⟩⟩ := hu
    · cases e2
    · have hwl : s.srv.wire.length = 12 := by rw [hw, answers, List.length_append, established_length]; rfl
      cases c with
      | cons x c =>
        left
        obtain ⟨r, k⟩ := x
        refine ⟨r, k, c, rfl, ?_⟩
        have hmem : (r, k) ∈ script G R D := (play_suffix hp).subset (by simp)
        have hk12 : k ≤ 12 := by
          simp only [script, List.mem_append, List.mem_map, Prod.mk.injEq] at hmem
          rcases hmem with (⟨_, _, _, e⟩ | ⟨_, _, _, e⟩) | ⟨_, _, _, e⟩ <;> omega
        have := congrArg List.length d1
        simp at this; omega
      | nil =>
        right
        refine ⟨rfl, ?_, Serve.established (wanted h port) ip, established_length h port ip, ?_, ?_⟩
        · simp at e1 e2
          subst e2
          have hsup : s.sup = [] := by
            have := congrArg St.dst (hq (.out 0) rfl rfl)
            simp [step, hph] at this
            exact this
          have hpend : s.pend = [] := by
            have := congrArg St.sup (hq (.fetch 0) rfl rfl)
            simp [step, hph, hsup, cap] at this
            exact this
          have := hj.acc
          rw [hsup, hpend] at this
          simp at this e1
          rw [← this, e1]
        · cases h <;> simp [Serve.established, wanted, p2Reply]
        · have hsdn : s.sdn = [] := by
            have := congrArg St.back (hq (.dput 0) rfl rfl)
            simp [step, hph] at this
            exact this
          have hdq : s.dq = [] := by
            have := congrArg St.sdn (hq (.dtake 0) rfl rfl)
            simp [step, hph, hsdn, cap] at this
            exact this
          rw [hsdn, hdq] at d2
          simp at d2
          rw [d1, hw, d2, answers]
  · cases hu.1
  · exact absurd hu id

/-- Number of events of a history that change something. -/
def effective (key : List UInt8) (admit : List UInt8 → Bool) (s : St) : List Ev → Nat
  | [] => 0
  | e :: es => (if step key admit s e = s then 0 else 1) + effective key admit (step key admit s e) es

/-- C91, it ends: from every state a history reaches, the two hosts and the network can do only a bounded number of things before nothing is left to do
for them. Missing: what the TLS layer
does to callbacks and interest (C102). -/
theorem c91_ends_partial (hk : admit (Auth.clientHeader key) = true) (G R D : List (List UInt8)) (v : UInt8) (ms : List UInt8) (rsv : UInt8) (h : Host)
    (port : Nat) (hm : 1 ≤ ms.length ∧ ms.length ≤ 255) (hh : HostOk h) (hG : G.flatten = encodeGreeting v ms) (hG0 : [] ∉ G)
    (hR : R.flatten = encodeReq 5 1 rsv h port) (hR0 : [] ∉ R) (es : List Ev) (c : List (List UInt8 × Nat)) (s : St)
    (hp : play key admit (script G R D) init es = some (c, s)) :
    ∃ bound, ∀ es' : List Ev, (∀ e ∈ es', e.outside = false ∧ e.failure = false) → effective key admit s es' ≤ bound := by
  have hc := cond (R := R) hk hm hh hR hR0
  have hj := j_play hc (j_init (D := D) hG hG0) hp
  refine ⟨work s, fun es' => ?_⟩
  revert hj
  generalize (true && es.all fun e => !e.failure) = ok
  generalize ([] ++ offered es) = ds
  clear hp
  intro hj
  induction es' generalizing s ok with
  | nil => intro _; simp [effective]
  | cons e es' ih =>
    intro he
    have h1 := he e (by simp)
    have h2 := ih (step key admit s e) _ (j_step hc hj e h1.1) (fun x hx => he x (by simp [hx]))
    simp only [effective]
    split
    · next hx => rw [hx] at h2 ⊢; omega
    · next hx =>
      have := work_step hc hj e h1.1 h1.2 hx
      omega

theorem play_append (c : List (List UInt8 × Nat)) (s : St) (a b : List Ev) :
    play key admit c s (a ++ b) = (play key admit c s a).bind (fun p => play key admit p.1 p.2 b) := by
  induction a generalizing c s with
  | nil => rfl
  | cons e a ih =>
    cases e with
    | send r =>
      cases c with
      | nil => rfl
      | cons x c =>
        obtain ⟨r', k⟩ := x
        simp only [List.cons_append, play]
        split
        · exact ih _ _
        · rfl
    | _ => simpa [play] using ih _ _

theorem offered_append (a b : List Ev) : offered (a ++ b) = offered a ++ offered b := by
  induction a with
  | nil => rfl
  | cons e a ih => cases e <;> simp [offered, ih]

theorem offered_nil {es : List Ev} (h : ∀ e ∈ es, e.outside = false) : offered es = [] := by
  induction es with
  | nil => rfl
  | cons e es ih =>
    have he := h e (by simp)
    cases e with
    | dest r => cases he
    | _ => simpa [offered] using ih (fun x hx => h x (by simp [hx]))

/-- A state of rest can be reached. -/
theorem reach_quiet {ok : Bool} {hdr : List UInt8} {R D : List (List UInt8)} {v : UInt8} {ms : List UInt8} {rsv : UInt8} {h : Host} {port : Nat}
    {c : List (List UInt8 × Nat)} {ds : List UInt8} (hc : Cond key admit hdr R ms rsv h port) (n : Nat) (s : St)
    (hj : J ok hdr R D v ms rsv h port c ds s) (hn : work s ≤ n) :
    ∃ es s', (∀ e ∈ es, e.outside = false ∧ e.failure = false) ∧ play key admit c s es = some (c, s') ∧ Quiet key admit s' := by
  induction n generalizing s ok with
  | zero =>
    refine ⟨[], s, by simp, rfl, fun e h1 h2 => ?_⟩
    by_cases hx : step key admit s e = s
    · exact hx
    · have := work_step hc hj e h1 h2 hx; omega
  | succ n ih =>
    by_cases hq : Quiet key admit s
    · exact ⟨[], s, by simp, rfl, hq⟩
    · simp only [Quiet] at hq
      obtain ⟨e, hq⟩ := Classical.not_forall.mp hq
      rw [Classical.not_imp, Classical.not_imp] at hq
      obtain ⟨h1, h2, hx⟩ := hq
      have hlt := work_step hc hj e h1 h2 hx
      obtain ⟨es, s', g1, g2, g3⟩ := ih _ (j_step hc hj e h1) (by omega)
      refine ⟨e :: es, s', ?_, ?_, g3⟩
      · intro x hx
        rcases List.mem_cons.mp hx with rfl | hx
        · exact ⟨h1, h2⟩
        · exact g1 x hx
      · cases e with
        | send r => cases h1
        | _ => simpa [play] using g2

/-- C91, no dead end: as long as nothing has failed, every session can still be finished, with everything delivered both ways. Missing: what the TLS layer
does to callbacks and interest (C102). -/
theorem c91_no_dead_end_partial (hk : admit (Auth.clientHeader key) = true) (G R D : List (List UInt8)) (v : UInt8) (ms : List UInt8) (rsv : UInt8) (h : Host)
    (port : Nat) (hm : 1 ≤ ms.length ∧ ms.length ≤ 255) (hh : HostOk h) (hG : G.flatten = encodeGreeting v ms) (hG0 : [] ∉ G)
    (hR : R.flatten = encodeReq 5 1 rsv h port) (hR0 : [] ∉ R) (es : List Ev) (c : List (List UInt8 × Nat)) (s : St)
    (hp : play key admit (script G R D) init es = some (c, s)) (hf : ∀ e ∈ es, e.failure = false) :
    ∃ es' s', (∀ e ∈ es', e.failure = false) ∧ play key admit (script G R D) init (es ++ es') = some ([], s') ∧ offered es' = [] ∧ s'.dst = D.flatten ∧
      ∃ a : List UInt8, a.length = 10 ∧ [5, 0] <+: a ∧ s'.got = [5, 0] ++ a ++ offered es := by
  have hc := cond (R := R) hk hm hh hR hR0
  obtain ⟨n, hn⟩ : ∃ n, c.length = n := ⟨_, rfl⟩
  induction n generalizing es c s with
  | zero =>
    have hj := j_play hc (j_init (D := D) hG hG0) hp
    obtain ⟨es1, s1, g1, g2, g3⟩ := reach_quiet hc _ s hj (Nat.le_refl _)
    have hp' : play key admit (script G R D) init (es ++ es1) = some (c, s1) := by rw [play_append, hp]; exact g2
    have hf' : ∀ e ∈ es ++ es1, e.failure = false := by
      intro e he
      rcases List.mem_append.mp he with he | he
      · exact hf e he
      · exact (g1 e he).2
    have ho1 : offered es1 = [] := offered_nil (fun e he => (g1 e he).1)
    have hcn : c = [] := List.eq_nil_of_length_eq_zero hn
    subst hcn
    rcases c91_everything_partial hk G R D v ms rsv h port hm hh hG hG0 hR hR0 _ _ _ hp' hf' g3 with ⟨r, k, c', hx, -⟩ | ⟨-, hd, a, a1, a2, a3⟩
    · cases hx
    · rw [offered_append, ho1, List.append_nil] at a3
      exact ⟨es1, s1, fun e he => (g1 e he).2, hp', ho1, hd, a, a1, a2, a3⟩
  | succ n ih =>
    have hj := j_play hc (j_init (D := D) hG hG0) hp
    obtain ⟨es1, s1, g1, g2, g3⟩ := reach_quiet hc _ s hj (Nat.le_refl _)
    have hp' : play key admit (script G R D) init (es ++ es1) = some (c, s1) := by rw [play_append, hp]; exact g2
    have hf' : ∀ e ∈ es ++ es1, e.failure = false := by
      intro e he
      rcases List.mem_append.mp he with he | he
      · exact hf e he
      · exact (g1 e he).2
    have ho1 : offered es1 = [] := offered_nil (fun e he => (g1 e he).1)
    rcases c91_everything_partial hk G R D v ms rsv h port hm hh hG hG0 hR hR0 _ _ _ hp' hf' g3 with ⟨r, k, c', rfl, hk'⟩ | ⟨rfl, -⟩
    · have hp2 : play key admit (script G R D) init ((es ++ es1) ++ [.send r]) = some (c', step key admit s1 (.send r)) := by
        rw [play_append, hp']; simp [play, hk']
      have hf2 : ∀ e ∈ (es ++ es1) ++ [.send r], e.failure = false := by
        intro e he
        rcases List.mem_append.mp he with he | he
        · exact hf' e he
        · simp at he; subst he; rfl
      obtain ⟨es2, s2, k1, k2, k3, k4, a, a1, a2, a3⟩ := ih _ _ _ hp2 hf2 (by simpa using hn)
      have ho2 : offered (es1 ++ ([.send r] ++ es2)) = [] := by rw [offered_append, ho1, offered_append, k3]; rfl
      refine ⟨es1 ++ ([.send r] ++ es2), s2, ?_, by simpa using k2, ho2, k4, a, a1, a2, ?_⟩
      · intro e he
        rcases List.mem_append.mp he with he | he
        · exact (g1 e he).2
        · rcases List.mem_append.mp he with he | he
          · simp at he; subst he; rfl
          · exact k1 e he
      · rw [a3, offered_append, offered_append, ho1]; simp [offered]
    · cases hn

end

/-- C91: the server's check accepts the header a client with a listed key sends, on a matcher just loaded. -/
theorem c91_key (keys : List (List UInt8)) (hsz : keys.flatten.length ≤ 4096) (m : Auth.Matcher) (hl : Auth.load keys = .ok m) (k : List UInt8)
    (hk : k ∈ keys) (hne : k ≠ []) (hlen : k.length ≤ 16) (h0 : ∀ b ∈ k, b ≠ 0) :
    (Auth.authJudge m (Auth.clientHeader k) []).isAdmitted = true := by
  obtain ⟨ht, hc, -⟩ := Auth.load_ready hsz hl
  have hcl := Auth.clientHeader_length k
  rcases hh : Auth.clientHeader k with _ | ⟨b, bs⟩
  · rw [hh] at hcl; cases hcl
  · obtain ⟨rest, h1⟩ := Auth.admitted_of_root ht hc k hk hne hlen h0 [.data b bs] (by simp [streamOf, hh])
    have h36 : (b :: bs).length = 36 := by rw [← hh]; exact hcl
    have hr : Auth.authRecv [] [.data b bs] = .have_ (b :: bs) [] := by
      rw [Auth.authRecv.eq_def, if_neg (by simp [Auth.hdrLen])]
      dsimp only
      rw [dif_pos (by rw [h36]; simp [Tunnel.cap]), List.nil_append, Auth.authRecv.eq_def, if_pos (by rw [h36]; simp [Auth.hdrLen])]
    simp only [Auth.authChk, hr] at h1
    rw [h1]
    rfl

/-! A concrete session: a client with the key `ab` on a server with the keys `ab` and `xy`; the program asks for 1.2.3.4:80, sends three bytes in two pieces
and the destination answers two bytes. Everything is cut up, and the program and the destination have read everything at the end. -/

/-- The server's check in the example. -/
def exAdmit (b : List UInt8) : Bool :=
  match Auth.load [[97, 98], [120, 121]] with
  | .ok m => (Auth.authJudge m b []).isAdmitted
  | .error _ => false

/-- What happens in the example. -/
def exEs : List Ev :=
  [.send [5], .take 5, .established, .send [1, 0], .header 9, .deliver, .read, .header 99, .put 9, .deliver, .take 9, .put 0, .put 9, .deliver, .read, .deliver,
   .deliver, .read, .read, .read, .write 0, .write 0, .cback 9, .cout 9,
   .send [5, 1, 0, 1, 1, 2], .send [3, 4, 0, 80], .take 99, .put 99, .deliver, .read, .connected [], .write 3, .write 99, .cback 99, .cout 99,
   .send [7], .dest [20, 21], .take 0, .put 0, .send [8, 9], .take 9, .put 9, .deliver, .deliver, .read, .read, .fetch 1, .out 0, .out 9, .fetch 9, .out 9,
   .dtake 0, .dput 0, .dtake 0, .dput 0, .cback 0, .cback 0, .cout 9]

/-- A history to the end (`c91_up_partial`, `c91_down_partial`, `c91_everything_partial`, `c91_ends_partial`, `c91_no_dead_end_partial`): greeting, request and data in pieces, both directions. -/
example : exAdmit (Auth.clientHeader [97, 98]) = true ∧
    (play [97, 98] exAdmit (script [[5], [1, 0]] [[5, 1, 0, 1, 1, 2], [3, 4, 0, 80]] [[7], [8, 9]]) init exEs).map
      (fun p => (p.1, p.2.dst, p.2.got.take 4, p.2.got.drop 12, work p.2)) = some ([], [7, 8, 9], [5, 0, 5, 0], [20, 21], 0) := by decide +kernel

/-- The hypotheses on greeting and request hold in the example. -/
example : ([[5], [1, 0]] : List (List UInt8)).flatten = encodeGreeting 5 [0] ∧
    ([[5, 1, 0, 1, 1, 2], [3, 4, 0, 80]] : List (List UInt8)).flatten = encodeReq 5 1 0 (.v4 1 2 3 4) 80 ∧ HostOk (.v4 1 2 3 4) :=
  ⟨by decide, by decide, trivial⟩

/-- A history with failures: the client closes after the first piece of data, the destination still gets only the beginning. -/
example : (play [97, 98] exAdmit (script [[5], [1, 0]] [[5, 1, 0, 1, 1, 2], [3, 4, 0, 80]] [[7], [8, 9]]) init
      (exEs.take 38 ++ [.put 0, .cfail, .deliver, .read, .fetch 1, .out 0, .sfail])).map (fun p => (p.1, p.2.dst)) = some ([([8, 9], 12)], [7]) := by
  decide +kernel

end Verif.Path
