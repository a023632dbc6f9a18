import Verif.Props.WebConn
import Verif.Spec.WebAccept
/-
Helper lemmas for C108.
-/
namespace Verif.WebAccept
open Verif Verif.Spec.WebAccept
open Verif.Spec.WebConn (records)

/-- Callbacks and interest during the handshake: before any wait, and after waits for readability. -/
def tA : Ssl.S := { opt := Ssl.maskR, rcb := some (.app 10), wcb := none }
def tB : Ssl.S := { opt := Ssl.maskR, rcb := some .hs, wcb := none, typ := Ssl.maskR, ccr := some (.app 10) }

theorem tA_wait : Ssl.handshake tA .wantR = tB := by decide
theorem tB_wait : Ssl.handshake tB .wantR = tB := by decide
theorem tB_next : Ssl.handshakeNext (Ssl.handshakeDone tB) = some (.app 10) := by decide

theorem bytes_left (n : Nat) (r : UInt8 × List UInt8) (t : List (UInt8 × List UInt8)) : (r.1 :: r.2).take n ++ bytes (WebConn.left n r t) = bytes (r :: t) := by
  unfold WebConn.left
  conv => rhs; rw [bytes, List.flatMap_cons, ← List.take_append_drop n (r.1 :: r.2)]
  split
  · rename_i h; rw [h, List.append_nil]; rfl
  · rename_i h; rw [h, bytes, List.flatMap_cons, List.append_assoc]

theorem bytes_append (a b : List (UInt8 × List UInt8)) : bytes (a ++ b) = bytes a ++ bytes b := by simp [bytes]

theorem records_append (a b : List WebConn.Ev) : records (a ++ b) = records a ++ records b := by
  induction a with
  | nil => rfl
  | cons e a ih => cases e <;> simp [records, ih]

theorem possible_snoc {k : Nat} {home index : List UInt8} {E : Nat → WebConn.Env} {e : WebConn.Ev} (es : List WebConn.Ev) {c c' : WebConn.C}
    (h : Spec.WebConn.Possible k home index E c es) (hr : WebConn.run k home index E c es = some c') (he : Spec.WebConn.Reportable c' e) :
    Spec.WebConn.Possible k home index E c (es ++ [e]) := by
  induction es generalizing c with
  | nil =>
    simp only [WebConn.run, Option.some.injEq] at hr
    subst hr
    exact ⟨he, fun _ _ => trivial⟩
  | cons x es ih =>
    obtain ⟨h1, h2⟩ := h
    refine ⟨h1, fun c1 hc1 => ?_⟩
    simp only [WebConn.run, hc1, Option.bind_some] at hr
    exact ih (h2 c1 hc1) hr

theorem run_snoc {k : Nat} {home index : List UInt8} {E : Nat → WebConn.Env} {e : WebConn.Ev} (es : List WebConn.Ev) {c c' : WebConn.C}
    (hr : WebConn.run k home index E c es = some c') : WebConn.run k home index E c (es ++ [e]) = WebConn.step k home index E c' e := by
  induction es generalizing c with
  | nil =>
    simp only [WebConn.run, Option.some.injEq] at hr
    subst hr
    simp only [List.nil_append, WebConn.run]
    cases WebConn.step k home index E c e <;> rfl
  | cons x es ih =>
    simp only [List.cons_append, WebConn.run] at hr ⊢
    cases h : WebConn.step k home index E c x with
    | none => rw [h] at hr; cases hr
    | some c1 => rw [h] at hr; exact ih hr

/-- The state after the events `es`, when the handshake does not wait for writability. -/
def Good (g : Cfg) (es : List WebConn.Ev) : A → Prop
  | .pre p => match p.ph with
    | .shake => p.sock = records es ∧ (p.t = tA ∨ p.t = tB) ∧ Ssl.Res.wantW ∉ p.hs
    | .route got => g.secret = true ∧ p.t.rcb = some (.app 21) ∧ (p.t.opt = Ssl.maskR ∨ (p.t.opt = Ssl.maskW ∧ p.t.wcb = some .rd)) ∧
        got ++ bytes p.sock = bytes (records es) ∧ got.length < 36
  | .web c => ∃ es1 es2 t0 s0 lost, es = es1 ++ es2 ∧ WebConn.run g.k g.home g.index g.E (WebConn.start g.k g.home g.index g.E t0 s0) es2 = some c ∧
      Spec.WebConn.Possible g.k g.home g.index g.E (WebConn.start g.k g.home g.index g.E t0 s0) es2 ∧ lost ++ bytes s0 = bytes (records es1) ∧
      (g.secret = false → lost = [] ∧ s0 = records es1) ∧ (g.secret = true → 36 ≤ lost.length ∧ lost.take 4 ≠ Auth.magic)
  | .tunnel buf t sock => g.secret = true ∧ 36 ≤ buf.length ∧ buf.take 4 = Auth.magic ∧ buf ++ bytes sock = bytes (records es) ∧ t.rcb = some (.app 11) ∧ t.wcb = none
  | .closed => True
  | .endless => False

theorem route_good (g : Cfg) (hg : g.secret = true) (es : List WebConn.Ev) (p : P) (got : List UInt8) (h1 : p.t.rcb = some (.app 21))
    (h2 : got ++ bytes p.sock = bytes (records es)) : Good g es (route g p got) := by
  fun_induction route g p got with
  | case1 p got hl hio => exact ⟨hg, by rw [WebConn.read_rcb]; exact h1, .inl rfl, h2, hl⟩
  | case2 p got hl io hio => exact ⟨hg, by rw [WebConn.read_rcb]; exact h1, .inl rfl, h2, hl⟩
  | case3 p got hl io hio => exact ⟨hg, by rw [WebConn.read_rcb]; exact h1, .inr ⟨rfl, rfl⟩, h2, hl⟩
  | case4 => trivial
  | case5 p got hl io hio hs => exact ⟨hg, by rw [WebConn.read_rcb]; exact h1, .inl rfl, h2, hl⟩
  | case6 p got hl io hio r rest hs ih =>
    refine ih (by rw [WebConn.read_rcb]; exact h1) ?_
    rw [List.append_assoc, bytes_left, ← hs]
    exact h2
  | case7 p got hl hm => exact ⟨hg, by omega, hm, h2, rfl, rfl⟩
  | case8 p got hl hm =>
    refine ⟨es, [], p.t, p.sock, got, by simp, rfl, trivial, h2, ?_, fun _ => ⟨by omega, hm⟩⟩
    rw [hg]; intro h; cases h

theorem shaken_good (g : Cfg) (es : List WebConn.Ev) (p : P) (h : p.sock = records es) : Good g es (shaken g p) := by
  unfold shaken
  split
  · rename_i hg
    exact route_good g hg es _ [] rfl (by simp [h])
  · rename_i hg
    refine ⟨es, [], _, _, [], by simp, rfl, trivial, by simp [h], fun _ => ⟨rfl, h⟩, ?_⟩
    intro h; exact absurd h hg

theorem shake_good (g : Cfg) (es : List WebConn.Ev) (p : P) (cb : Bool) (hp : p.ph = .shake) (h : p.sock = records es) (ht : p.t = tA ∨ p.t = tB)
    (hw : Ssl.Res.wantW ∉ p.hs) (hc : cb = true → p.t = tB) : ∃ a, shake g p cb = some a ∧ Good g es a := by
  unfold shake
  have hwait : Ssl.handshake p.t .wantR = tB := by rcases ht with ht | ht <;> rw [ht]; exacts [tA_wait, tB_wait]
  split
  · exact ⟨_, rfl, by simp only [Good, hp]; exact ⟨h, .inr hwait, hw⟩⟩
  · rename_i hs e
    exact ⟨_, rfl, by simp only [Good, hp]; exact ⟨h, .inr hwait, fun x => hw (by rw [e]; exact List.mem_cons_of_mem _ x)⟩⟩
  · rename_i hs e
    exact absurd (by rw [e]; exact List.mem_cons_self) hw
  · exact ⟨_, rfl, trivial⟩
  · split
    · rename_i hcb
      rw [hc hcb, tB_next]
      exact ⟨_, rfl, shaken_good g es _ h⟩
    · exact ⟨_, rfl, shaken_good g es _ h⟩

theorem step_good (g : Cfg) (es : List WebConn.Ev) (a : A) (e : WebConn.Ev) (h : Good g es a) (hr : Reportable a e) :
    ∃ a', step g a e = some a' ∧ Good g (es ++ [e]) a' := by
  have noarr : ∀ e : WebConn.Ev, (∀ b bs, e ≠ .arrive b bs) → records (es ++ [e]) = records es := by
    intro e h
    rw [records_append]
    cases e with
    | arrive b bs => exact absurd rfl (h b bs)
    | _ => simp [records]
  match a with
  | .closed => exact ⟨_, rfl, trivial⟩
  | .endless => exact absurd h id
  | .tunnel buf t sock =>
    obtain ⟨h1, h2, h3, h4, h5⟩ := h
    cases e with
    | arrive b bs =>
      refine ⟨_, rfl, h1, h2, h3, ?_, h5⟩
      rw [bytes_append, records_append, bytes_append, ← List.append_assoc, h4]; rfl
    | r => exact ⟨_, rfl, h1, h2, h3, by rw [noarr .r (by simp)]; exact h4, h5⟩
    | w => exact ⟨_, rfl, h1, h2, h3, by rw [noarr .w (by simp)]; exact h4, h5⟩
    | timeout => exact ⟨_, rfl, h1, h2, h3, by rw [noarr .timeout (by simp)]; exact h4, h5⟩
  | .web c =>
    obtain ⟨es1, es2, t0, s0, lost, h1, h2, h3, h4⟩ := h
    have hp := possible_snoc es2 h3 h2 hr
    obtain ⟨c', hc', -⟩ := WebConn.run_reg _ (WebConn.start_reg t0 s0) hp
    have := run_snoc (e := e) es2 h2
    rw [this] at hc'
    refine ⟨.web c', by simp only [step, hc', Option.map_some], es1, es2 ++ [e], t0, s0, lost, by rw [h1, List.append_assoc], by rw [this]; exact hc', hp, h4⟩
  | .pre p =>
    cases hph : p.ph with
    | shake =>
      simp only [Good, hph] at h
      obtain ⟨h1, h2, h3⟩ := h
      cases e with
      | arrive b bs =>
        refine ⟨_, rfl, ?_⟩
        simp only [Good, hph]
        exact ⟨by rw [records_append, h1]; rfl, h2, h3⟩
      | timeout => exact ⟨_, rfl, trivial⟩
      | r =>
        have h1' : p.sock = records (es ++ [.r]) := by rw [noarr .r (by simp)]; exact h1
        rcases h2 with h2 | h2
        · have : step g (.pre p) .r = shake g p false := by simp [step, call, hph, h2, tA]
          rw [this]
          exact shake_good g _ p false hph h1' (.inl h2) h3 (by simp)
        · have : step g (.pre p) .r = shake g p true := by simp [step, call, hph, h2, tB]
          rw [this]
          exact shake_good g _ p true hph h1' (.inr h2) h3 (fun _ => h2)
      | w =>
        exfalso
        simp only [Reportable] at hr
        rcases h2 with h2 | h2 <;> · rw [h2] at hr; exact absurd hr (by decide)
    | route got =>
      simp only [Good, hph] at h
      obtain ⟨h1, h2, h3, h4, h5⟩ := h
      cases e with
      | arrive b bs =>
        refine ⟨_, rfl, ?_⟩
        simp only [Good, hph]
        refine ⟨h1, h2, h3, ?_, h5⟩
        rw [bytes_append, records_append, bytes_append, ← List.append_assoc, h4]; rfl
      | timeout => exact ⟨_, rfl, trivial⟩
      | r =>
        refine ⟨route g p got, by simp [step, call, hph, h2], ?_⟩
        exact route_good g h1 _ p got h2 (by rw [noarr .r (by simp)]; exact h4)
      | w =>
        simp only [Reportable] at hr
        simp only [step]
        cases hw : p.t.wcb with
        | none =>
          refine ⟨_, rfl, ?_⟩
          simp only [Good, hph]
          exact ⟨h1, h2, h3, by rw [noarr .w (by simp)]; exact h4, h5⟩
        | some cb =>
          rcases h3 with h3 | ⟨-, h3⟩
          · rw [h3] at hr; exact absurd hr (by decide)
          · rw [hw] at h3
            cases h3
            refine ⟨route g p got, by simp [call, hph, h2], ?_⟩
            exact route_good g h1 _ p got h2 (by rw [noarr .w (by simp)]; exact h4)

theorem run_good (g : Cfg) (es es0 : List WebConn.Ev) (a : A) (h : Good g es0 a) (hp : Possible g a es) : ∃ a', run g a es = some a' ∧ Good g (es0 ++ es) a' := by
  induction es generalizing es0 a with
  | nil => exact ⟨a, rfl, by simpa using h⟩
  | cons e es ih =>
    obtain ⟨a1, h1, h2⟩ := step_good g es0 a e h hp.1
    obtain ⟨a2, h3, h4⟩ := ih (es0 ++ [e]) a1 h2 (hp.2 a1 h1)
    exact ⟨a2, by simp only [run, h1, Option.bind_some]; exact h3, by simpa using h4⟩

theorem init_good (g : Cfg) (hs io : List Ssl.Res) (h : Ssl.Res.wantW ∉ hs) : Good g [] (init hs io) := ⟨rfl, .inl rfl, h⟩

theorem Good.continues {g : Cfg} {es : List WebConn.Ev} {a : A} (h : Good g es a) : Continues a := by
  match a with
  | .closed => trivial
  | .endless => trivial
  | .tunnel .. => trivial
  | .web c =>
    obtain ⟨es1, es2, t0, s0, lost, h1, h2, h3, h4⟩ := h
    obtain ⟨c', hc', hr⟩ := WebConn.run_reg _ (WebConn.start_reg t0 s0) h3
    rw [h2] at hc'
    cases hc'
    exact hr.continues
  | .pre p =>
    cases hph : p.ph with
    | shake =>
      simp only [Good, hph] at h
      simp only [Continues, hph]
      rcases h.2.1 with h | h <;> rw [h] <;> decide
    | route got =>
      simp only [Good, hph] at h
      simp only [Continues, hph]
      refine ⟨h.2.1, ?_⟩
      rcases h.2.2.1 with h | h
      · exact .inl (by rw [h]; rfl)
      · exact .inr ⟨by rw [h.1]; rfl, h.2⟩

/-! ### Progress -/

theorem run_append (g : Cfg) (a : A) (es1 es2 : List WebConn.Ev) : run g a (es1 ++ es2) = (run g a es1).bind fun a' => run g a' es2 := by
  induction es1 generalizing a with
  | nil => rfl
  | cons e es ih =>
    simp only [List.cons_append, run]
    cases step g a e with
    | none => rfl
    | some a' => exact ih a'

theorem possible_drop {g : Cfg} {a a' : A} {es1 es2 : List WebConn.Ev} (h : Possible g a (es1 ++ es2)) (hr : run g a es1 = some a') : Possible g a' es2 := by
  induction es1 generalizing a with
  | nil => cases hr; exact h
  | cons e es ih =>
    simp only [run] at hr
    cases hs : step g a e with
    | none => rw [hs] at hr; cases hr
    | some a1 => rw [hs] at hr; exact ih (h.2 a1 hs) hr

/-- A connection with the web server goes on as in `WebConn`. -/
theorem run_web (g : Cfg) (c : WebConn.C) (es : List WebConn.Ev) : run g (.web c) es = (WebConn.run g.k g.home g.index g.E c es).map .web := by
  induction es generalizing c with
  | nil => rfl
  | cons e es ih =>
    simp only [run, step, WebConn.run]
    cases WebConn.step g.k g.home g.index g.E c e with
    | none => rfl
    | some c' => exact ih c'

theorem possible_web {g : Cfg} {c : WebConn.C} {es : List WebConn.Ev} (h : Possible g (.web c) es) : Spec.WebConn.Possible g.k g.home g.index g.E c es := by
  induction es generalizing c with
  | nil => trivial
  | cons e es ih => exact ⟨h.1, fun c' hc => ih (h.2 (.web c') (by simp only [step, hc, Option.map_some]))⟩

theorem run_arrive (g : Cfg) (p : P) (rs : List (UInt8 × List UInt8)) :
    run g (.pre p) (rs.map fun r => .arrive r.1 r.2) = some (.pre { p with sock := p.sock ++ rs }) := by
  induction rs generalizing p with
  | nil => simp [run]
  | cons r rs ih => simp only [List.map_cons, run, step, Option.bind_some, ih, List.append_assoc, List.singleton_append]

/-- The handshake is over after one event more than it waits. -/
theorem shake_reaches (g : Cfg) (n : Nat) (p : P) (hs : List Ssl.Res) (hh : p.hs = List.replicate n .wantR ++ .ok :: hs) (hp : p.ph = .shake)
    (ht : p.t = tA ∨ p.t = tB) (es : List WebConn.Ev) (he : ∀ e ∈ es, e = .r ∨ e = .w) (hl : n < es.length) (hP : Possible g (.pre p) es) :
    ∃ es2 t0, es2.length = es.length - (n + 1) ∧ (∀ e ∈ es2, e = .r ∨ e = .w) ∧
      run g (.pre p) es = run g (shaken g { p with t := t0, hs }) es2 ∧ Possible g (shaken g { p with t := t0, hs }) es2 := by
  induction n generalizing p es with
  | zero =>
    match es, hl with
    | e :: es, _ =>
      have hr : e = .r := by
        rcases he e List.mem_cons_self with h | h
        · exact h
        · exfalso
          have := hP.1
          simp only [h, Reportable] at this
          rcases ht with ht | ht <;> · rw [ht] at this; exact absurd this (by decide)
      subst hr
      have hs' : p.hs = .ok :: hs := by simpa using hh
      have key : ∃ t0, step g (.pre p) .r = some (shaken g { p with t := t0, hs }) := by
        rcases ht with ht | ht
        · exact ⟨p.t, by simp [step, call, hp, ht, tA, shake, hs']⟩
        · refine ⟨Ssl.handshakeDone p.t, ?_⟩
          have : step g (.pre p) .r = shake g p true := by simp [step, call, hp, ht, tB]
          rw [this, shake, hs']
          simp [ht, tB_next]
      obtain ⟨t0, k⟩ := key
      exact ⟨es, t0, by simp, fun e h => he e (List.mem_cons_of_mem _ h), by simp only [run, k, Option.bind_some], hP.2 _ k⟩
  | succ n ih =>
    match es, hl with
    | e :: es, hl =>
      have hr : e = .r := by
        rcases he e List.mem_cons_self with h | h
        · exact h
        · exfalso
          have := hP.1
          simp only [h, Reportable] at this
          rcases ht with ht | ht <;> · rw [ht] at this; exact absurd this (by decide)
      subst hr
      have hs' : p.hs = .wantR :: (List.replicate n .wantR ++ .ok :: hs) := by rw [hh, List.replicate_succ]; rfl
      have k : step g (.pre p) .r = some (.pre { p with t := tB, hs := List.replicate n .wantR ++ .ok :: hs }) := by
        rcases ht with ht | ht
        · have : step g (.pre p) .r = shake g p false := by simp [step, call, hp, ht, tA]
          rw [this, shake, hs']
          simp only [ht, tA_wait]
        · have : step g (.pre p) .r = shake g p true := by simp [step, call, hp, ht, tB]
          rw [this, shake, hs']
          simp only [ht, tB_wait]
      obtain ⟨es2, t0, h1, h2, h3, h4⟩ := ih { p with t := tB, hs := List.replicate n .wantR ++ .ok :: hs } rfl hp (.inr rfl) es
        (fun e h => he e (List.mem_cons_of_mem _ h)) (by simp only [List.length_cons] at hl; omega) (hP.2 _ k)
      exact ⟨es2, t0, by simp only [List.length_cons]; omega, h2, by simp only [run, k, Option.bind_some]; exact h3, h4⟩

/-- In secret mode a first record of at least 36 bytes that does not begin like the header is read and thrown away. -/
theorem route_lost (g : Cfg) (ws : List Ssl.Res) (io : List Ssl.Res) (hw : ∀ x ∈ ws, x = .wantR ∨ x = .wantW) (p : P) (hio : p.io = ws ++ .ok :: io)
    (ht : p.t.rcb = some (.app 21)) (r : UInt8 × List UInt8) (rest : List (UInt8 × List UInt8)) (hs : p.sock = r :: rest) (h1 : 35 ≤ r.2.length) (h2 : r.2.length < 8192)
    (hm : (r.1 :: r.2).take 4 ≠ Auth.magic) (es : List WebConn.Ev) (he : ∀ e ∈ es, e = .r ∨ e = .w) (hl : ws.length ≤ es.length) (hP : Possible g (route g p []) es) :
    ∃ es2 p', es2.length = es.length - ws.length ∧ (∀ e ∈ es2, e = .r ∨ e = .w) ∧ p'.sock = rest ∧
      run g (route g p []) es = run g (serve g p') es2 ∧ Possible g (serve g p') es2 := by
  induction ws generalizing p es with
  | nil =>
    have ht8 : (r.1 :: r.2).take 8192 = r.1 :: r.2 := List.take_of_length_le (by simp only [List.length_cons]; omega)
    have k : route g p [] = serve g { p with t := Ssl.read p.t .ok, io, sock := rest } := by
      rw [route.eq_def]
      simp only [List.length_nil, Nat.zero_lt_succ, if_true, hio, List.nil_append]
      split
      · rename_i h; rw [hs] at h; cases h
      · rename_i r' rest' h
        rw [hs] at h
        cases h
        rw [route.eq_def]
        simp only [Nat.sub_zero, ht8]
        rw [if_neg (by simp only [List.length_cons]; omega), if_neg hm]
        have : WebConn.left 8192 r rest = rest := WebConn.left_fits h2
        rw [this]
    rw [k] at hP ⊢
    exact ⟨es, _, by simp, he, rfl, rfl, hP⟩
  | cons x ws ih =>
    match es, hl with
    | e :: es, hl =>
      have hws : ∀ x ∈ ws, x = .wantR ∨ x = .wantW := fun x h => hw x (List.mem_cons_of_mem _ h)
      have hes : ∀ e ∈ es, e = .r ∨ e = .w := fun e h => he e (List.mem_cons_of_mem _ h)
      have hl' : ws.length ≤ es.length := by simpa using hl
      rcases hw x List.mem_cons_self with rfl | rfl
      · have k : route g p [] = .pre { p with t := Ssl.read p.t .wantR, io := ws ++ .ok :: io, ph := .route [] } := by
          rw [route.eq_def]; simp only [List.length_nil, Nat.zero_lt_succ, if_true, hio, List.cons_append]
        rw [k] at hP ⊢
        have hr : e = .r := by
          rcases he e List.mem_cons_self with h | h
          · exact h
          · exfalso
            have := hP.1
            simp only [h, Reportable, Ssl.read] at this
            exact absurd this (by decide)
        subst hr
        have k2 : step g (.pre { p with t := Ssl.read p.t .wantR, io := ws ++ .ok :: io, ph := .route [] }) .r =
            some (route g { p with t := Ssl.read p.t .wantR, io := ws ++ .ok :: io, ph := .route [] } []) := by
          simp [step, call, WebConn.read_rcb, ht]
        obtain ⟨es2, p', q1, q2, q3, q4, q5⟩ := ih hws { p with t := Ssl.read p.t .wantR, io := ws ++ .ok :: io, ph := .route [] } rfl (by rw [WebConn.read_rcb]; exact ht) hs es hes hl' (hP.2 _ k2)
        exact ⟨es2, p', by simp only [List.length_cons]; omega, q2, q3, by simp only [run, k2, Option.bind_some]; exact q4, q5⟩
      · have k : route g p [] = .pre { p with t := Ssl.read p.t .wantW, io := ws ++ .ok :: io, ph := .route [] } := by
          rw [route.eq_def]; simp only [List.length_nil, Nat.zero_lt_succ, if_true, hio, List.cons_append]
        rw [k] at hP ⊢
        have k2 : step g (.pre { p with t := Ssl.read p.t .wantW, io := ws ++ .ok :: io, ph := .route [] }) e =
            some (route g { p with t := Ssl.read p.t .wantW, io := ws ++ .ok :: io, ph := .route [] } []) := by
          have hwcb : (Ssl.read p.t .wantW).wcb = some .rd := rfl
          rcases he e List.mem_cons_self with h | h
          · simp [h, step, call, WebConn.read_rcb, ht]
          · simp [h, step, call, WebConn.read_rcb, ht, hwcb]
        obtain ⟨es2, p', q1, q2, q3, q4, q5⟩ := ih hws { p with t := Ssl.read p.t .wantW, io := ws ++ .ok :: io, ph := .route [] } rfl (by rw [WebConn.read_rcb]; exact ht) hs es hes hl' (hP.2 _ k2)
        exact ⟨es2, p', by simp only [List.length_cons]; omega, q2, q3, by simp only [run, k2, Option.bind_some]; exact q4, q5⟩

/-! ### The handshake that waits for writability -/

/-- Callbacks and interest after a wait for writability and perhaps others, the last for `x`. -/
def Seen (x : Ssl.Res) (t : Ssl.S) : Prop :=
  t.wcb = some .hs ∧ t.ccr = some (.app 10) ∧ t.typ = Ssl.maskR ∧ (t.ccw = none ∨ t.ccw = some .hs) ∧
    ((x = .wantR ∧ t.opt = Ssl.maskR ∧ t.rcb = some .hs) ∨ (x = .wantW ∧ t.opt = Ssl.maskW))

theorem Seen.next {x : Ssl.Res} {t : Ssl.S} (h : Seen x t) {y : Ssl.Res} (hy : y = .wantR ∨ y = .wantW) : Seen y (Ssl.handshake t y) := by
  obtain ⟨h1, h2, h3, h4, -⟩ := h
  have e1 : (Ssl.cache t).typ = Ssl.maskR := by
    have : ¬ Ssl.maskR = Event.Mask.none := by decide
    simp [Ssl.cache, h3, this]
  have e2 : (Ssl.cache t).ccr = some (.app 10) := by simp [Ssl.cache, h2]
  have e3 : (Ssl.cache t).ccw = some .hs := by rcases h4 with h | h <;> simp [Ssl.cache, h1, h]
  have e4 : (Ssl.cache t).wcb = some .hs := by simp [Ssl.cache, h1]
  rcases hy with rfl | rfl
  · exact ⟨e4, e2, e1, .inr e3, .inl ⟨rfl, rfl, rfl⟩⟩
  · exact ⟨rfl, e2, e1, .inr e3, .inr ⟨rfl, rfl⟩⟩

theorem Seen.done {x : Ssl.Res} {t : Ssl.S} (h : Seen x t) : Ssl.handshakeNext (Ssl.handshakeDone t) = some .hs := by
  obtain ⟨h1, h2, h3, h4, -⟩ := h
  have : (Ssl.handshakeDone t).wcb = some .hs := by
    unfold Ssl.handshakeDone Ssl.restoreR Ssl.restoreW
    rcases h4 with h | h <;> simp [h3, h, h1, h2, Ssl.maskR, Event.Mask.none]
  rw [Ssl.handshakeNext, if_pos (by rw [this]; simp), this]

theorem Seen.event (g : Cfg) {x : Ssl.Res} {p : P} (h : Seen x p.t) (hp : p.ph = .shake) : step g (.pre p) (wakes x) = shake g p true ∧ Reportable (.pre p) (wakes x) := by
  obtain ⟨h1, h2, h3, h4, h5⟩ := h
  rcases h5 with ⟨rfl, h5, h6⟩ | ⟨rfl, h5⟩
  · exact ⟨by simp [step, wakes, call, hp, h6], by simp only [Reportable, wakes, h5]; rfl⟩
  · exact ⟨by simp [step, wakes, call, hp, h1], by simp only [Reportable, wakes, h5]; rfl⟩

theorem seen_endless (g : Cfg) (ws hs : List Ssl.Res) (hw : ∀ x ∈ ws, x = .wantR ∨ x = .wantW) (x : Ssl.Res) (p : P) (h : Seen x p.t) (hp : p.ph = .shake)
    (hh : p.hs = ws ++ .ok :: hs) : run g (.pre p) (wakes x :: ws.map wakes) = some .endless ∧ Possible g (.pre p) (wakes x :: ws.map wakes) := by
  obtain ⟨e1, e2⟩ := h.event g hp
  induction ws generalizing x p with
  | nil =>
    have k : shake g p true = some .endless := by simp [shake, hh, h.done]
    rw [k] at e1
    exact ⟨by simp [run, e1], e2, fun _ _ => trivial⟩
  | cons y ws ih =>
    have hy := hw y List.mem_cons_self
    have k : shake g p true = some (.pre { p with t := Ssl.handshake p.t y, hs := ws ++ .ok :: hs }) := by
      rcases hy with rfl | rfl <;> simp [shake, hh]
    rw [k] at e1
    have h' : Seen y ({ p with t := Ssl.handshake p.t y, hs := ws ++ .ok :: hs } : P).t := h.next hy
    obtain ⟨f1, f2⟩ := h'.event g hp
    obtain ⟨i1, i2⟩ := ih (fun z hz => hw z (List.mem_cons_of_mem _ hz)) y _ h' hp rfl f1 f2
    refine ⟨?_, e2, fun a ha => ?_⟩
    · simp only [run, e1, Option.bind_some]; exact i1
    · rw [e1] at ha; cases ha; exact i2

theorem first_endless (g : Cfg) (ws hs : List Ssl.Res) (hw : ∀ x ∈ ws, x = .wantR ∨ x = .wantW) (hm : Ssl.Res.wantW ∈ ws) (p : P) (ht : p.t = tA ∨ p.t = tB)
    (hp : p.ph = .shake) (hh : p.hs = ws ++ .ok :: hs) : run g (.pre p) (.r :: ws.map wakes) = some .endless ∧ Possible g (.pre p) (.r :: ws.map wakes) := by
  induction ws generalizing p with
  | nil => cases hm
  | cons y ws ih =>
    have hy := hw y List.mem_cons_self
    have hws : ∀ x ∈ ws, x = .wantR ∨ x = .wantW := fun z hz => hw z (List.mem_cons_of_mem _ hz)
    have e1 : step g (.pre p) .r = some (.pre { p with t := Ssl.handshake p.t y, hs := ws ++ .ok :: hs }) := by
      rcases ht with ht | ht
      · have : step g (.pre p) .r = shake g p false := by simp [step, call, hp, ht, tA]
        rw [this]
        rcases hy with rfl | rfl <;> simp [shake, hh]
      · have : step g (.pre p) .r = shake g p true := by simp [step, call, hp, ht, tB]
        rw [this]
        rcases hy with rfl | rfl <;> simp [shake, hh]
    have e2 : Reportable (.pre p) .r := by
      simp only [Reportable]
      rcases ht with ht | ht <;> rw [ht] <;> rfl
    have key : run g (.pre { p with t := Ssl.handshake p.t y, hs := ws ++ .ok :: hs }) (wakes y :: ws.map wakes) = some .endless ∧
        Possible g (.pre { p with t := Ssl.handshake p.t y, hs := ws ++ .ok :: hs }) (wakes y :: ws.map wakes) := by
      rcases hy with rfl | rfl
      · refine ih hws (by simpa using hm) _ (.inr ?_) hp rfl
        rcases ht with ht | ht <;> rw [ht]
        · exact tA_wait
        · exact tB_wait
      · refine seen_endless g ws hs hws .wantW _ ?_ hp rfl
        rcases ht with ht | ht <;> rw [ht] <;> simp [Seen, Ssl.handshake, Ssl.cache, tA, tB, Ssl.maskR, Event.Mask.none]
    refine ⟨?_, e2, fun a ha => ?_⟩
    · simp only [run, e1, Option.bind_some]; exact key.1
    · rw [e1] at ha; cases ha; exact key.2

end Verif.WebAccept
