import Verif.Spec.WebHold
import Verif.Proofs.WebAsk
import Verif.Proofs.WebConn
/-
Helper lemmas for C111: every call that is not in vain brings a request or a response closer to its end.
-/
namespace Verif.WebHold
open Verif Verif.WebConn Verif.Spec.WebHold

variable {k : Nat} {home index : List UInt8} {E : Nat → Env}

/-- What a request can still take, at most. -/
def need : Ps → Nat
  | .line => 20442
  | .hdrs _ buf _ => 20441 - buf.length
  | .pay _ _ n got => n - got.length

theorem need_pos {ps : Ps} (h : Fits ps) : 1 ≤ need ps := by
  cases ps with
  | line => simp [need]
  | hdrs _ buf _ => simp only [Fits] at h; simp only [need]; omega
  | pay _ _ n got => simp only [Fits] at h; simp only [need]; omega

theorem need_le (ps : Ps) (h : Fits ps) : need ps ≤ 20442 := by
  cases ps with
  | line => simp [need]
  | hdrs _ buf _ => simp only [need]; omega
  | pay _ _ n got => simp only [Fits] at h; simp only [need]; omega

theorem loop_longer (f : Http.Req → Nat → UInt8 → Http.Byte) (n : Nat) (r : Http.Req) (buf : List UInt8) (pos : Nat) (rx : List Rx) {r' : Http.Req} {buf' : List UInt8} {pos' : Nat}
    (h : Http.loop f n r buf pos rx = .wait r' buf' pos') : buf.length ≤ buf'.length ∧ ∀ b bs, rx = [.data b bs] → buf.length < buf'.length := by
  induction n generalizing r buf rx with
  | zero => cases h
  | succ n ih =>
    rw [Http.loop.eq_def] at h
    simp only at h
    split at h
    · split at h
      · cases h
      · rename_i hb
        split at h
        · cases h; exact ⟨Nat.le_refl _, fun _ _ e => by cases e⟩
        · cases h; exact ⟨Nat.le_refl _, fun _ _ e => by cases e⟩
        · cases h
        · split at h
          · cases h
          · cases h
          · split at h
            · cases h
            · have := (ih _ _ _ h).1
              simp only [List.length_append, List.length_take, List.length_cons] at this
              exact ⟨by omega, fun _ _ _ => by omega⟩
    · split at h
      · cases h
      · cases h
      · split at h
        · cases h
        · exact ih _ _ _ h

theorem afterHead_less {o : Http.Out} {N : Nat} (hN : 16344 < N) (ho : ∀ r buf pos, o = .wait r buf pos → 20441 - buf.length < N) {ps : Ps} (h : afterHead o = .more ps) : need ps < N := by
  have hf : ∀ r buf n got, ps = .pay r buf n got → n ≤ 16344 → need ps < N := by
    intro r buf n got e hn; rw [e]; simp only [need]; omega
  cases o with
  | running => cases h
  | wait r buf pos => cases h; exact ho r buf pos rfl
  | err => cases h
  | aborted => cases h
  | done r buf pos rest =>
    simp only [afterHead] at h
    split at h
    · cases h
    · rename_i n hn
      split at h
      · cases h
      · split at h
        · cases h
        · rename_i hacc
          simp only [Bool.not_eq_false] at hacc
          have := (Web.c57_exact_partial n).mp hacc
          split at h
          · cases h
          · split at h
            · cases h; exact hf _ _ _ _ rfl (by omega)
            · cases h

theorem feed_less {ps ps' : Ps} {b : UInt8} {bs : List UInt8} (hp : Fits ps) (h : WebConn.feed k ps b bs = .more ps') : need ps' < need ps := by
  cases ps with
  | line => exact afterHead_less (by simp [need]) (fun _ _ _ _ => by simp only [need]; omega) h
  | hdrs r buf pos =>
    simp only [Fits] at hp
    refine afterHead_less (by simp only [need]; omega) (fun _ buf' _ hw => ?_) h
    have := (loop_longer _ _ _ _ _ _ hw).2 _ _ rfl
    have := loop_wait _ _ _ _ _ _ hw
    simp only [need]; omega
  | pay r buf n got =>
    simp only [Fits] at hp
    simp only [WebConn.feed] at h
    split at h
    · rename_i hl
      cases h
      simp only [need, List.length_append, List.length_cons] at hl ⊢
      omega
    · cases h

/-- Where a connection stands after something happened to it while request `i` was being read at `ps`. -/
def Next (i : Nat) (ps : Ps) (c : C) : Prop :=
  i < c.i ∨ (c.i = i ∧ ∀ ps', c.ph = .req ps' → ps' = ps ∨ need ps' < need ps)

theorem proc_next (c : C) (ps : Ps) (h : Fits ps) : Next c.i ps (proc k home index E c ps) := by
  fun_induction proc k home index E c ps with
  | case1 => exact .inr ⟨rfl, fun ps h' => by cases h'; exact .inl rfl⟩
  | case2 => exact .inr ⟨rfl, fun ps h' => by cases h'; exact .inl rfl⟩
  | case3 => exact .inr ⟨rfl, fun ps h' => by cases h'; exact .inl rfl⟩
  | case5 => exact .inr ⟨rfl, fun ps h' => by cases h'; exact .inl rfl⟩
  | case7 c ps io _ r rest hs hr ps' hf ih =>
    have hl := feed_less h hf
    rcases ih (feed_fits h hf) with g | ⟨g1, g2⟩
    · exact .inl g
    · refine .inr ⟨g1, fun p hp => .inr ?_⟩
      rcases g2 p hp with rfl | g
      · exact hl
      · omega
  | case13 c ps io hi r rest hs hr q hf hdr body ha w hw hk ih =>
    left
    rcases ih trivial with g | ⟨g, -⟩
    · simp only [begin] at g ⊢; omega
    · simp only [begin] at g ⊢; omega
  | _ => exact .inr ⟨rfl, fun ps h' => by cases h'⟩

theorem after_next (c : C) (w : WebSend.W) (keep : Bool) : c.i < (after k home index E c w keep).i ∨
    ((after k home index E c w keep).i = c.i ∧ ((w.fin = none ∧ (after k home index E c w keep).ph = .rsp w keep) ∨ ∃ y, (after k home index E c w keep).ph = .gone y)) := by
  unfold after
  split
  · rename_i hf; exact .inr ⟨rfl, .inl ⟨hf, rfl⟩⟩
  · split
    · left
      rcases proc_next (k := k) (home := home) (index := index) (E := E) (begin E { c with out := c.out ++ w.out } (c.i + 1) w.t) .line trivial with g | ⟨g, -⟩
      · simp only [begin] at g ⊢; omega
      · simp only [begin] at g ⊢; omega
    · exact .inr ⟨rfl, .inr ⟨_, rfl⟩⟩
  · exact .inr ⟨rfl, .inr ⟨_, rfl⟩⟩
  · exact .inr ⟨rfl, .inr ⟨_, rfl⟩⟩

/-- Request `i` has been read, or the connection is gone. -/
def Past (i : Nat) (c : C) : Prop := i < c.i ∨ (c.i = i ∧ ∀ ps, c.ph ≠ .req ps)

/-- The response to request `i` has been sent, or the connection is gone. -/
def Over (i : Nat) (c : C) : Prop := i < c.i ∨ (c.i = i ∧ ∃ y, c.ph = .gone y)

theorem step_cases {c c' : C} {e : Ev} (hs : step k home index E c e = some c') :
    (c'.i = c.i ∧ c'.ph = c.ph ∧ c'.t = c.t) ∨ (∃ ps, c.ph = .req ps ∧ called c e = true ∧ c' = proc k home index E c ps) ∨
    (∃ w keep w' e', c.ph = .rsp w keep ∧ WebSend.step w e' = some w' ∧ c' = after k home index E c w' keep ∧
      ((e = .r ∧ e' = .r) ∨ (e = .w ∧ e' = .w) ∨ (e = .timeout ∧ e' = .timeout))) ∨ (∃ ps, c.ph = .req ps ∧ e = .timeout ∧ c' = { c with ph := .gone .expired }) := by
  cases e with
  | arrive b bs => cases hs; exact .inl ⟨rfl, rfl, rfl⟩
  | r =>
    simp only [step] at hs
    split at hs
    · cases hs; exact .inl ⟨rfl, rfl, rfl⟩
    · rename_i w keep hp
      obtain ⟨w', h1, rfl⟩ := Option.map_eq_some_iff.mp hs
      exact .inr (.inr (.inl ⟨w, keep, w', .r, hp, h1, rfl, .inl ⟨rfl, rfl⟩⟩))
    · rename_i ps hp
      split at hs <;> cases hs
      · exact .inl ⟨rfl, rfl, rfl⟩
      · rename_i hr; exact .inr (.inl ⟨ps, hp, by simp [called, hp, hr], rfl⟩)
  | w =>
    simp only [step] at hs
    split at hs
    · cases hs; exact .inl ⟨rfl, rfl, rfl⟩
    · rename_i w keep hp
      obtain ⟨w', h1, rfl⟩ := Option.map_eq_some_iff.mp hs
      exact .inr (.inr (.inl ⟨w, keep, w', .w, hp, h1, rfl, .inr (.inl ⟨rfl, rfl⟩)⟩))
    · rename_i ps hp
      split at hs <;> cases hs
      · exact .inl ⟨rfl, rfl, rfl⟩
      · rename_i hr _; exact .inr (.inl ⟨ps, hp, by simp [called, hp, hr], rfl⟩)
  | timeout =>
    simp only [step] at hs
    split at hs
    · cases hs; exact .inl ⟨rfl, rfl, rfl⟩
    · rename_i w keep hp
      obtain ⟨w', h1, rfl⟩ := Option.map_eq_some_iff.mp hs
      exact .inr (.inr (.inl ⟨w, keep, w', .timeout, hp, h1, rfl, .inr (.inr ⟨rfl, rfl⟩)⟩))
    · rename_i ps hp; cases hs; exact .inr (.inr (.inr ⟨ps, hp, rfl, rfl⟩))

theorem step_past {i : Nat} {c c' : C} {e : Ev} (h : Past i c) (hr : Room c) (hs : step k home index E c e = some c') : Past i c' := by
  rcases step_cases hs with ⟨a, b, -⟩ | ⟨ps, a, -, rfl⟩ | ⟨w, keep, w', e', a, -, rfl, -⟩ | ⟨ps, a, -, rfl⟩
  · unfold Past; rw [a, b]; exact h
  · rcases h with h | ⟨-, h⟩
    · rcases proc_next (k := k) (home := home) (index := index) (E := E) c ps (hr ps a) with g | ⟨g, -⟩
      · exact .inl (by omega)
      · exact .inl (by omega)
    · exact absurd a (h ps)
  · have hi : i ≤ c.i := by rcases h with h | ⟨h, -⟩ <;> omega
    rcases after_next (k := k) (home := home) (index := index) (E := E) c w' keep with g | ⟨g, ⟨-, g'⟩ | ⟨y, g'⟩⟩
    · exact .inl (by omega)
    · by_cases hlt : i < c.i
      · exact .inl (by omega)
      · exact .inr ⟨by omega, fun ps hps => by rw [g'] at hps; cases hps⟩
    · by_cases hlt : i < c.i
      · exact .inl (by omega)
      · exact .inr ⟨by omega, fun ps hps => by rw [g'] at hps; cases hps⟩
  · rcases h with h | ⟨-, h⟩
    · exact .inl h
    · exact absurd a (h ps)

theorem step_over {i : Nat} {c c' : C} {e : Ev} (h : Over i c) (hr : Room c) (hs : step k home index E c e = some c') : Over i c' := by
  rcases step_cases hs with ⟨a, b, -⟩ | ⟨ps, a, -, rfl⟩ | ⟨w, keep, w', e', a, -, rfl, -⟩ | ⟨ps, a, -, rfl⟩
  · unfold Over; rw [a, b]; exact h
  · rcases h with h | ⟨-, y, h⟩
    · rcases proc_next (k := k) (home := home) (index := index) (E := E) c ps (hr ps a) with g | ⟨g, -⟩
      · exact .inl (by omega)
      · exact .inl (by omega)
    · rw [a] at h; cases h
  · rcases h with h | ⟨-, y, h⟩
    · rcases after_next (k := k) (home := home) (index := index) (E := E) c w' keep with g | ⟨g, -⟩
      · exact .inl (by omega)
      · exact .inl (by omega)
    · rw [a] at h; cases h
  · rcases h with h | ⟨-, y, h⟩
    · exact .inl h
    · rw [a] at h; cases h

/-! ### Reading a request -/

/-- Reading request `i` with a deadline: `B` minus five seconds (and the delay `late`) for each call that may still come. -/
def ByR (late B i : Nat) (x : X) : Prop := x.c.i = i ∧ Room x.c ∧ ∃ ps d, x.c.ph = .req ps ∧ x.timer = some d ∧ d + (5000 + late) * need ps ≤ B

/-- What an event can do to the timer of a connection that lives after it. -/
theorem event_timer {x x' : X} {t : Nat} {e : Ev} (h : event k home index E x t e = some x') :
    ∃ c', step k home index E x.c e = some c' ∧ x' = ⟨c', if live c' then if called x.c e then some (t + 5000) else x.timer else none⟩ := by
  obtain ⟨c', h1, h2⟩ := Option.map_eq_some_iff.mp h
  exact ⟨c', h1, h2.symm⟩

theorem live_req {c : C} {ps : Ps} (h : c.ph = .req ps) : live c = true := by simp [live, h]

theorem live_rsp {c : C} {w : WebSend.W} {keep : Bool} (h : c.ph = .rsp w keep) : live c = true := by simp [live, h]

theorem mark_req {c c' : C} {ps : Ps} (h : c.ph = .req ps) (h' : c'.ph = .req ps) (hi : c'.i = c.i) : mark c' = mark c := by
  cases ps <;> simp [mark, h, h', hi]

theorem event_byR {late B i : Nat} {x x' : X} {t : Nat} {e : Ev} (hx : ByR late B i x) (h : event k home index E x t e = some x')
    (ht : called x.c e = true → ∀ d, x.timer = some d → t < d + late) :
    (Past i x'.c ∧ Room x'.c) ∨ ByR late (B + (if x'.timer ≠ x.timer ∧ mark x'.c = mark x.c then 5000 + late else 0)) i x' := by
  obtain ⟨hi, hr, ps, d, hp, hd, hb⟩ := hx
  obtain ⟨c', h1, rfl⟩ := event_timer h
  have hr' := step_fits hr h1
  dsimp only
  have key : ∀ ps', c'.i = x.c.i → c'.ph = .req ps' → (ps' = ps ∨ need ps' < need ps) →
      ByR late (B + (if (if live c' then if called x.c e then some (t + 5000) else x.timer else none) ≠ x.timer ∧ mark c' = mark x.c then 5000 + late else 0)) i
        ⟨c', if live c' then if called x.c e then some (t + 5000) else x.timer else none⟩ := by
    intro ps' g1 g2 g3
    have hd' : ∃ d', (if live c' then if called x.c e then some (t + 5000) else x.timer else none) = some d' ∧ d' ≤ d + 5000 + late := by
      rw [if_pos (live_req g2)]
      split
      · next hc => have := ht hc d hd; exact ⟨_, rfl, by omega⟩
      · exact ⟨d, hd, by omega⟩
    obtain ⟨d', e1, e2⟩ := hd'
    rw [e1, hd]
    refine ⟨g1.trans hi, hr', ps', d', g2, rfl, ?_⟩
    rcases g3 with rfl | g3
    · rw [mark_req hp g2 g1]
      by_cases hdd : d' = d
      · subst hdd; simp; omega
      · rw [if_pos ⟨by simpa using hdd, rfl⟩]; omega
    · have : (5000 + late) * (need ps' + 1) ≤ (5000 + late) * need ps := Nat.mul_le_mul_left _ g3
      rw [Nat.mul_add] at this
      omega
  rcases step_cases h1 with ⟨a, b, -⟩ | ⟨ps', a, -, rfl⟩ | ⟨w, keep, w', e', a, -⟩ | ⟨ps', a, -, rfl⟩
  · exact .inr (key ps a (b.trans hp) (.inl rfl))
  · rw [hp] at a; cases a
    rcases proc_next (k := k) (home := home) (index := index) (E := E) x.c ps (hr ps hp) with g | ⟨g1, g2⟩
    · exact .inl ⟨.inl (by omega), hr'⟩
    · cases hph : (proc k home index E x.c ps).ph with
      | req ps' => exact .inr (key ps' g1 hph (g2 ps' hph))
      | rsp w keep => exact .inl ⟨.inr ⟨by omega, fun p h => by rw [hph] at h; cases h⟩, hr'⟩
      | gone y => exact .inl ⟨.inr ⟨by omega, fun p h => by rw [hph] at h; cases h⟩, hr'⟩
  · rw [hp] at a; cases a
  · exact .inl ⟨.inr ⟨hi, fun p h => by cases h⟩, hr'⟩

theorem act_byR {late B i : Nat} {x x' : X} {v : Nat × Act} (hx : ByR late B i x) (h : act k home index E x v = some x')
    (ht : v.2 = .r ∨ v.2 = .w → ∀ d, x.timer = some d → v.1 < d + late) :
    (Past i x'.c ∧ Room x'.c) ∨ ByR late (B + (if x'.timer ≠ x.timer ∧ mark x'.c = mark x.c then 5000 + late else 0)) i x' := by
  obtain ⟨t, v⟩ := v
  cases v with
  | arrive b bs => exact event_byR hx h (fun hc => by simp [called] at hc)
  | r => exact event_byR hx h (fun _ => ht (.inl rfl))
  | w => exact event_byR hx h (fun _ => ht (.inr rfl))
  | pass =>
    simp only [act] at h
    obtain ⟨hi, hr, ps, d, hp, hd, hb⟩ := hx
    rw [hd] at h
    dsimp only at h
    split at h
    · exact event_byR ⟨hi, hr, ps, d, hp, hd, hb⟩ h (fun hc => by simp [called] at hc)
    · cases h; exact .inr (by simpa using ⟨hi, hr, ps, d, hp, hd, hb⟩)

theorem act_step {x x' : X} {v : Nat × Act} (h : act k home index E x v = some x') : x'.c = x.c ∨ ∃ e, step k home index E x.c e = some x'.c := by
  obtain ⟨t, v⟩ := v
  have key : ∀ e, event k home index E x t e = some x' → ∃ e, step k home index E x.c e = some x'.c := by
    intro e he
    obtain ⟨c', h1, rfl⟩ := event_timer he
    exact ⟨e, h1⟩
  cases v with
  | arrive b bs => exact .inr (key _ h)
  | r => exact .inr (key _ h)
  | w => exact .inr (key _ h)
  | pass =>
    simp only [act] at h
    split at h
    · split at h
      · exact .inr (key _ h)
      · cases h; exact .inl rfl
    · cases h; exact .inl rfl

theorem run_past {i : Nat} (vs : List (Nat × Act)) {x y : X} (h : Past i x.c) (hr : Room x.c) (hy : run k home index E x vs = some y) : Past i y.c := by
  induction vs generalizing x with
  | nil => cases hy; exact h
  | cons v vs ih =>
    simp only [run, Option.bind_eq_some_iff] at hy
    obtain ⟨x', h1, h2⟩ := hy
    rcases act_step h1 with e | ⟨e, he⟩
    · exact ih (by rw [e]; exact h) (by rw [e]; exact hr) h2
    · exact ih (step_past h hr he) (step_fits hr he) h2

theorem run_room (vs : List (Nat × Act)) {x y : X} (hr : Room x.c) (hy : run k home index E x vs = some y) : Room y.c := by
  induction vs generalizing x with
  | nil => cases hy; exact hr
  | cons v vs ih =>
    simp only [run, Option.bind_eq_some_iff] at hy
    obtain ⟨x', h1, h2⟩ := hy
    rcases act_step h1 with e | ⟨e, he⟩
    · exact ih (by rw [e]; exact hr) h2
    · exact ih (step_fits hr he) h2

theorem run_byR {late B i : Nat} (vs : List (Nat × Act)) {x y : X} (hx : ByR late B i x) (hp : Prompt k home index E late x vs) (hy : run k home index E x vs = some y) :
    Past i y.c ∧ Room y.c ∨ ByR late (B + (5000 + late) * idle k home index E x vs) i y := by
  induction vs generalizing x B with
  | nil => cases hy; exact .inr (by simpa [idle] using hx)
  | cons v vs ih =>
    simp only [run, Option.bind_eq_some_iff] at hy
    obtain ⟨x', h1, h2⟩ := hy
    obtain ⟨p1, p2⟩ := hp
    rcases act_byR hx h1 p1 with ⟨g1, g2⟩ | g
    · exact .inl ⟨run_past vs g1 g2 h2, run_room vs g2 h2⟩
    · rcases ih g (p2 x' h1) h2 with r | ⟨a1, a2, ps, d, a3, a4, a5⟩
      · exact .inl r
      · refine .inr ⟨a1, a2, ps, d, a3, a4, ?_⟩
        simp only [idle, h1]
        split at a5
        · next hc => rw [if_pos hc, Nat.mul_add]; omega
        · next hc => rw [if_neg hc, Nat.mul_add]; omega

/-! ### Sending a response -/

theorem chainLoop_grows (w : WebSend.W) : w.out.length ≤ (WebSend.chainLoop w).1.out.length := by
  fun_induction WebSend.chainLoop w with
  | case1 w _ => exact Nat.le_refl _
  | case2 w p x q _ hd => rw [(WebSend.onWrite_keep _ _).2.2.2.1]
  | case3 w p x q _ r ds hd => rw [(WebSend.onWrite_keep _ _).2.2.2.1]
  | case4 w p x q _ ds hd => rw [(WebSend.onWrite_keep _ _).2.2.2.1]
  | case5 w p x q _ n ds hd ih =>
    rw [(WebSend.onWrite_keep _ _).2.2.2.1] at ih
    simp only [List.length_append] at ih
    omega

theorem ffSend_grows {w w1 : WebSend.W} {r : TlsRelay.SendRes} (h : WebSend.ffSend w = (w1, r)) : w.out.length ≤ w1.out.length := by
  rcases (WebSend.ffSend_data h).2.2.2 with ⟨-, -, h, -⟩ | ⟨-, n, -, h⟩
  · rw [h]
  · rw [h]; simp

theorem ffLoop_grows (f : List UInt8) (n : Int) (w : WebSend.W) : w.out.length ≤ (WebSend.ffLoop f n w).1.out.length := by
  fun_induction WebSend.ffLoop f n w with
  | case1 w w1 hs => exact ffSend_grows hs
  | case2 w w1 hs => exact ffSend_grows hs
  | case3 w w1 hs hr => exact ffSend_grows hs
  | case4 w w1 hs z hz hr => exact ffSend_grows hs
  | case5 w w1 hs o hr ih => have := ffSend_grows hs; dsimp only at ih; omega

theorem ffCall_grows (f : List UInt8) (n : Int) (w : WebSend.W) : w.out.length ≤ (WebSend.ffCall f n w).out.length := by
  have := ffLoop_grows f n w
  unfold WebSend.ffCall
  split <;> rename_i w1 he <;> rw [he] at this <;> exact this

theorem apiCall_grows (w : WebSend.W) : w.out.length ≤ (WebSend.apiCall w).out.length := by
  have := chainLoop_grows w
  unfold WebSend.apiCall
  split <;> rename_i w1 he <;> rw [he] at this <;> exact this

theorem hdrCall_grows (w : WebSend.W) : w.out.length ≤ (WebSend.hdrCall w).out.length := by
  have := chainLoop_grows w
  unfold WebSend.hdrCall
  split <;> rename_i w1 he <;> rw [he] at this
  · exact this
  · exact this
  · split
    · split
      · split
        · exact Nat.le_trans this (ffCall_grows _ _ { w1 with t := { w1.t with wcb := some (.app 2) } })
        · exact this
      · exact this
    · split
      · exact this
      · exact Nat.le_trans this (apiCall_grows { w1 with chain := [_], t := { w1.t with wcb := some (.app 3) } })

theorem callW_grows {w r : WebSend.W} (h : WebSend.callW w = some r) : w.out.length ≤ r.out.length := by
  unfold WebSend.callW at h
  split at h <;> cases h
  · exact hdrCall_grows w
  · exact ffCall_grows _ _ w
  · exact apiCall_grows w

theorem stepW_grows {w r : WebSend.W} {e : WebSend.Ev} (h : WebSend.step w e = some r) : w.out.length ≤ r.out.length := by
  unfold WebSend.step at h
  split at h
  · cases h; exact Nat.le_refl _
  · cases e with
    | timeout => cases h; exact Nat.le_refl _
    | r =>
      simp only at h
      split at h
      · cases h; exact Nat.le_refl _
      · exact callW_grows (w := { w with wR := false }) h
      · cases h
        unfold WebSend.tryRead
        split <;> exact Nat.le_refl _
      · cases h
    | w =>
      simp only at h
      split at h
      · cases h; exact Nat.le_refl _
      · exact callW_grows (w := { w with wW := false }) h

/-- Sending the response to request `i`, of `L` bytes, with a deadline as above. -/
def ByS (hdr : List (List UInt8)) (body : WebSend.Body) (late B i : Nat) (x : X) : Prop :=
  x.c.i = i ∧ Room x.c ∧ ∃ w keep d, x.c.ph = .rsp w keep ∧ w.fin = none ∧ WebSend.Ok hdr body w ∧ x.timer = some d ∧
    d + (5000 + late) * ((Spec.WebSend.whole hdr body).length - w.out.length) ≤ B

theorem event_byS {hdr : List (List UInt8)} {body : WebSend.Body} {late B i : Nat} {x x' : X} {t : Nat} {e : Ev} (hx : ByS hdr body late B i x)
    (h : event k home index E x t e = some x') (ht : called x.c e = true → ∀ d, x.timer = some d → t < d + late) :
    (Over i x'.c ∧ Room x'.c) ∨ ByS hdr body late (B + (if x'.timer ≠ x.timer ∧ mark x'.c = mark x.c then 5000 + late else 0)) i x' := by
  obtain ⟨hi, hr, w, keep, d, hp, hf, hok, hd, hb⟩ := hx
  obtain ⟨c', h1, rfl⟩ := event_timer h
  have hr' := step_fits hr h1
  dsimp only
  have key : ∀ w', c'.i = x.c.i → c'.ph = .rsp w' keep → w'.fin = none → WebSend.Ok hdr body w' → w.out.length ≤ w'.out.length →
      ByS hdr body late (B + (if (if live c' then if called x.c e then some (t + 5000) else x.timer else none) ≠ x.timer ∧ mark c' = mark x.c then 5000 + late else 0)) i
        ⟨c', if live c' then if called x.c e then some (t + 5000) else x.timer else none⟩ := by
    intro w' g1 g2 g3 g4 g5
    have hd' : ∃ d', (if live c' then if called x.c e then some (t + 5000) else x.timer else none) = some d' ∧ d' ≤ d + 5000 + late := by
      rw [if_pos (live_rsp g2)]
      split
      · next hc => have := ht hc d hd; exact ⟨_, rfl, by omega⟩
      · exact ⟨d, hd, by omega⟩
    obtain ⟨d', e1, e2⟩ := hd'
    rw [e1, hd]
    refine ⟨g1.trans hi, hr', w', keep, d', g2, g3, g4, rfl, ?_⟩
    by_cases hl : w'.out.length = w.out.length
    · have hm : mark c' = mark x.c := by simp [mark, hp, g2, g1, hl]
      rw [hm, hl]
      by_cases hdd : d' = d
      · subst hdd; simp; omega
      · rw [if_pos ⟨by simpa using hdd, rfl⟩]; omega
    · have h5 : w'.out.length < (Spec.WebSend.whole hdr body).length := (g4.1 g3).short
      have : (5000 + late) * (((Spec.WebSend.whole hdr body).length - w'.out.length) + 1) ≤ (5000 + late) * ((Spec.WebSend.whole hdr body).length - w.out.length) :=
        Nat.mul_le_mul_left _ (by omega)
      rw [Nat.mul_add] at this
      omega
  rcases step_cases h1 with ⟨a, b, -⟩ | ⟨ps', a, -⟩ | ⟨w0, keep0, w', e', a, hs, rfl, -⟩ | ⟨ps', a, -⟩
  · exact .inr (key w a (b.trans hp) hf hok (Nat.le_refl _))
  · rw [hp] at a; cases a
  · rw [hp] at a; cases a
    rcases after_next (k := k) (home := home) (index := index) (E := E) x.c w' keep with g | ⟨g, ⟨g1, g'⟩ | ⟨y, g'⟩⟩
    · exact .inl ⟨.inl (by omega), hr'⟩
    · exact .inr (key w' g g' g1 (WebSend.step_ok hok hs) (stepW_grows hs))
    · exact .inl ⟨.inr ⟨by omega, y, g'⟩, hr'⟩
  · rw [hp] at a; cases a

theorem act_byS {hdr : List (List UInt8)} {body : WebSend.Body} {late B i : Nat} {x x' : X} {v : Nat × Act} (hx : ByS hdr body late B i x) (h : act k home index E x v = some x')
    (ht : v.2 = .r ∨ v.2 = .w → ∀ d, x.timer = some d → v.1 < d + late) :
    (Over i x'.c ∧ Room x'.c) ∨ ByS hdr body late (B + (if x'.timer ≠ x.timer ∧ mark x'.c = mark x.c then 5000 + late else 0)) i x' := by
  obtain ⟨t, v⟩ := v
  cases v with
  | arrive b bs => exact event_byS hx h (fun hc => by simp [called] at hc)
  | r => exact event_byS hx h (fun _ => ht (.inl rfl))
  | w => exact event_byS hx h (fun _ => ht (.inr rfl))
  | pass =>
    have hx0 := hx
    simp only [act] at h
    obtain ⟨hi, hr, w, keep, d, hp, hf, hok, hd, hb⟩ := hx
    rw [hd] at h
    dsimp only at h
    split at h
    · exact event_byS hx0 h (fun hc => by simp [called] at hc)
    · cases h; exact .inr (by simpa using hx0)

theorem run_over {i : Nat} (vs : List (Nat × Act)) {x y : X} (h : Over i x.c) (hr : Room x.c) (hy : run k home index E x vs = some y) : Over i y.c := by
  induction vs generalizing x with
  | nil => cases hy; exact h
  | cons v vs ih =>
    simp only [run, Option.bind_eq_some_iff] at hy
    obtain ⟨x', h1, h2⟩ := hy
    rcases act_step h1 with e | ⟨e, he⟩
    · exact ih (by rw [e]; exact h) (by rw [e]; exact hr) h2
    · exact ih (step_over h hr he) (step_fits hr he) h2

theorem run_byS {hdr : List (List UInt8)} {body : WebSend.Body} {late B i : Nat} (vs : List (Nat × Act)) {x y : X} (hx : ByS hdr body late B i x)
    (hp : Prompt k home index E late x vs) (hy : run k home index E x vs = some y) :
    Over i y.c ∧ Room y.c ∨ ByS hdr body late (B + (5000 + late) * idle k home index E x vs) i y := by
  induction vs generalizing x B with
  | nil => cases hy; exact .inr (by simpa [idle] using hx)
  | cons v vs ih =>
    simp only [run, Option.bind_eq_some_iff] at hy
    obtain ⟨x', h1, h2⟩ := hy
    obtain ⟨p1, p2⟩ := hp
    rcases act_byS hx h1 p1 with ⟨g1, g2⟩ | g
    · exact .inl ⟨run_over vs g1 g2 h2, run_room vs g2 h2⟩
    · rcases ih g (p2 x' h1) h2 with r | ⟨a1, a2, w, keep, d, a3, a4, a5, a6, a7⟩
      · exact .inl r
      · refine .inr ⟨a1, a2, w, keep, d, a3, a4, a5, a6, ?_⟩
        simp only [idle, h1]
        split at a7
        · next hc => rw [if_pos hc, Nat.mul_add]; omega
        · next hc => rw [if_neg hc, Nat.mul_add]; omega

theorem run_append (vs : List (Nat × Act)) (v : Nat × Act) {x y : X} (h : run k home index E x (vs ++ [v]) = some y) :
    ∃ z, run k home index E x vs = some z ∧ act k home index E z v = some y := by
  induction vs generalizing x with
  | nil =>
    simp only [List.nil_append, run, Option.bind_eq_some_iff] at h
    obtain ⟨y', h1, h2⟩ := h
    cases h2
    exact ⟨x, rfl, h1⟩
  | cons u vs ih =>
    simp only [List.cons_append, run, Option.bind_eq_some_iff] at h ⊢
    obtain ⟨x', h1, h2⟩ := h
    obtain ⟨z, h3, h4⟩ := ih h2
    exact ⟨z, ⟨x', h1, h3⟩, h4⟩

/-! ### Timers -/

theorem step_live {c c' : C} {e : Ev} (hs : step k home index E c e = some c') (h : live c' = true) : live c = true := by
  unfold live at h ⊢
  cases hp : c.ph with
  | gone y =>
    rcases step_cases hs with ⟨-, b, -⟩ | ⟨ps, a, -⟩ | ⟨w, keep, w', e', a, -⟩ | ⟨ps, a, -⟩
    · rw [b, hp] at h; exact h
    · rw [hp] at a; cases a
    · rw [hp] at a; cases a
    · rw [hp] at a; cases a
  | _ => rfl

/-- A connection that lives has a timer, due at `t` plus five seconds at the latest. -/
def Armed (t : Nat) (x : X) : Prop := live x.c = true → ∃ d, x.timer = some d ∧ d ≤ t + 5000

theorem act_armed {t : Nat} {x x' : X} {v : Nat × Act} (hx : Armed t x) (hv : v.1 ≤ t) (h : act k home index E x v = some x') : Armed t x' := by
  obtain ⟨u, v⟩ := v
  have key : ∀ e, event k home index E x u e = some x' → Armed t x' := by
    intro e he hl
    obtain ⟨c', h1, rfl⟩ := event_timer he
    dsimp only at hl ⊢
    rw [if_pos hl]
    split
    · exact ⟨_, rfl, by simp only at hv; omega⟩
    · exact hx (step_live h1 hl)
  cases v with
  | arrive b bs => exact key _ h
  | r => exact key _ h
  | w => exact key _ h
  | pass =>
    simp only [act] at h
    split at h
    · split at h
      · exact key _ h
      · cases h; exact hx
    · cases h; exact hx

theorem run_armed {t : Nat} (vs : List (Nat × Act)) {x y : X} (hx : Armed t x) (hv : ∀ v ∈ vs, v.1 ≤ t) (h : run k home index E x vs = some y) : Armed t y := by
  induction vs generalizing x with
  | nil => cases h; exact hx
  | cons v vs ih =>
    simp only [run, Option.bind_eq_some_iff] at h
    obtain ⟨x', h1, h2⟩ := h
    exact ih (act_armed hx (hv v (by simp)) h1) (fun u hu => hv u (by simp [hu])) h2

/-- Events of a connection that can be reported call a handler that sets the timer. -/
theorem reg_called {c : C} (h : Reg c) (hl : live c = true) {e : Ev} (he : e = .r ∨ e = .w) (hr : Spec.WebConn.Reportable c e) : called c e = true := by
  unfold Reg at h
  cases hp : c.ph with
  | gone y => simp [live, hp] at hl
  | req ps =>
    rw [hp] at h
    rcases he with rfl | rfl
    · simp [called, hp, h.1]
    · simp only [Spec.WebConn.Reportable, hp] at hr
      obtain ⟨h1, h2 | ⟨-, h2⟩⟩ := h
      · rw [h2] at hr; cases hr
      · simp [called, hp, h2]
  | rsp w keep =>
    rw [hp] at h
    obtain ⟨hf, hdr, body, h1, h2, h3⟩ := h
    have hw := h3 hf
    have hA := h2.1 hf
    rcases he with rfl | rfl
    · simp only [Spec.WebConn.Reportable, hp] at hr
      rcases hw with ⟨h4, -⟩ | ⟨-, -, h4⟩
      · rw [h4] at hr; cases hr
      · simp [called, hp, calledW, h4]
    · have hc : w.t.wcb ≠ none := by
        obtain ⟨-, ⟨h1, -⟩ | ⟨h1, -⟩ | ⟨h1, -⟩⟩ := hA <;> simp [h1]
      simp only [called, hp, calledW]
      exact Option.isSome_iff_ne_none.mpr hc

theorem act_reg {x : X} {v : Nat × Act} (h : Reg x.c) (hr : Reports x v.2) : ∃ x', act k home index E x v = some x' ∧ Reg x'.c := by
  obtain ⟨t, v⟩ := v
  have key : ∀ e, Spec.WebConn.Reportable x.c e → ∃ x', event k home index E x t e = some x' ∧ Reg x'.c := by
    intro e he
    obtain ⟨c', h1, h2⟩ := step_reg (k := k) (home := home) (index := index) (E := E) h he
    exact ⟨_, by simp only [event, h1, Option.map_some]; rfl, h2⟩
  cases v with
  | arrive b bs => exact key _ trivial
  | r => exact key _ hr
  | w => exact key _ hr
  | pass =>
    simp only [act]
    split
    · split
      · exact key _ trivial
      · exact ⟨x, rfl, h⟩
    · exact ⟨x, rfl, h⟩

theorem run_reg' (vs : List (Nat × Act)) {x : X} (h : Reg x.c) (hc : Can k home index E x vs) : ∃ y, run k home index E x vs = some y ∧ Reg y.c := by
  induction vs generalizing x with
  | nil => exact ⟨x, rfl, h⟩
  | cons v vs ih =>
    obtain ⟨x', h1, h2⟩ := act_reg (k := k) (home := home) (index := index) (E := E) h hc.1
    obtain ⟨y, h3, h4⟩ := ih h2 (hc.2 x' h1)
    exact ⟨y, by simp only [run, h1, Option.bind_some, h3], h4⟩

/-! ### A response that is being sent is not over -/

/-- The phase of a response ends with it. -/
def Sane (c : C) : Prop := ∀ w keep, c.ph = .rsp w keep → w.fin = none

theorem proc_sane (c : C) (ps : Ps) : Sane (proc k home index E c ps) := by
  fun_induction proc k home index E c ps with
  | case7 c ps io hi r rest hs hr ps' hf ih => exact ih
  | case12 c ps io hi r rest hs hr q hf hdr body ha w hw => intro w' keep h; cases h; exact hw
  | case13 c ps io hi r rest hs hr q hf hdr body ha w hw hk ih => exact ih
  | _ => intro w keep h; cases h

theorem after_sane (c : C) (w : WebSend.W) (keep : Bool) : Sane (after k home index E c w keep) := by
  unfold after
  split
  · rename_i hf; intro w' keep' h; cases h; exact hf
  · split
    · exact proc_sane _ _
    · intro w' keep' h; cases h
  · intro w' keep' h; cases h
  · intro w' keep' h; cases h

theorem step_sane {c c' : C} {e : Ev} (h : Sane c) (hs : step k home index E c e = some c') : Sane c' := by
  rcases step_cases hs with ⟨-, b, -⟩ | ⟨ps, -, -, rfl⟩ | ⟨w, keep, w', e', -, -, rfl, -⟩ | ⟨ps, -, -, rfl⟩
  · intro w keep hw; exact h w keep (b ▸ hw)
  · exact proc_sane _ _
  · exact after_sane _ _ _
  · intro w' keep' h; cases h

theorem run_sane (vs : List (Nat × Act)) {x y : X} (h : Sane x.c) (hy : run k home index E x vs = some y) : Sane y.c := by
  induction vs generalizing x with
  | nil => cases hy; exact h
  | cons v vs ih =>
    simp only [run, Option.bind_eq_some_iff] at hy
    obtain ⟨x', h1, h2⟩ := hy
    rcases act_step h1 with e | ⟨e, he⟩
    · exact ih (by rw [e]; exact h) h2
    · exact ih (step_sane h he) h2

/-- The timer of a connection ends it. -/
theorem pass_gone {z y : X} {d T : Nat} (hs : Sane z.c) (hd : z.timer = some d) (hT : d ≤ T) (h : act k home index E z (T, .pass) = some y) : ∃ why, y.c.ph = .gone why := by
  simp only [act, hd] at h
  rw [if_pos hT] at h
  obtain ⟨c', h3, rfl⟩ := event_timer h
  rcases step_cases h3 with ⟨-, b, -⟩ | ⟨ps, -, h4, -⟩ | ⟨w, keep, w', e', a, h4, rfl, g⟩ | ⟨ps, -, -, rfl⟩
  · cases hp : z.c.ph with
    | gone why => exact ⟨why, b.trans hp⟩
    | req ps => simp only [step, hp] at h3; cases h3; exact ⟨_, rfl⟩
    | rsp w keep =>
      have hf := hs w keep hp
      simp only [step, hp, WebSend.step, hf, Option.map_some] at h3
      cases h3
      exact ⟨_, rfl⟩
  · simp [called] at h4
  · have hf := hs w keep a
    have : e' = .timeout := by rcases g with ⟨g, -⟩ | ⟨g, -⟩ | ⟨-, g⟩ <;> first | exact g | cases g
    subst this
    simp only [WebSend.step, hf] at h4
    cases h4
    exact ⟨_, rfl⟩
  · exact ⟨_, rfl⟩

theorem gone_stays {z y : X} {why : Why} {v : Nat × Act} (hp : z.c.ph = .gone why) (h : act k home index E z v = some y) : y.c.ph = .gone why := by
  rcases act_step h with e | ⟨e, he⟩
  · rw [e]; exact hp
  · rcases step_cases he with ⟨-, b, -⟩ | ⟨ps, a, -⟩ | ⟨w, keep, w', e', a, -⟩ | ⟨ps, a, -⟩
    · exact b.trans hp
    · rw [hp] at a; cases a
    · rw [hp] at a; cases a
    · rw [hp] at a; cases a

/-! ### Which response it is -/

theorem sendRun_snoc {w w' w'' : WebSend.W} {e : WebSend.Ev} (es : List WebSend.Ev) (h : WebSend.run w es = some w') (h' : WebSend.step w' e = some w'') :
    WebSend.run w (es ++ [e]) = some w'' := by
  induction es generalizing w with
  | nil => cases h; simp [WebSend.run, h']
  | cons a es ih =>
    simp only [WebSend.run, Option.bind_eq_some_iff, List.cons_append] at h ⊢
    obtain ⟨v, h1, h2⟩ := h
    exact ⟨v, h1, ih h2⟩

/-- A response in progress is the one the router has chosen for a request. -/
def From (home index : List UInt8) (E : Nat → Env) (c : C) : Prop :=
  ∀ w keep, c.ph = .rsp w keep → ∃ q hdr body t1 es, answer home index (E c.i) q = .rsp hdr body ∧
    WebSend.run (WebSend.start true t1 hdr body (E c.i).mem (E c.i).rd (E c.i).dst (E c.i).peek) es = some w

theorem proc_from (c : C) (ps : Ps) : From home index E (proc k home index E c ps) := by
  fun_induction proc k home index E c ps with
  | case7 c ps io hi r rest hs hr ps' hf ih => exact ih
  | case12 c ps io hi r rest hs hr q hf hdr body ha w hw => intro w' keep h; cases h; exact ⟨q, hdr, body, _, [], ha, rfl⟩
  | case13 c ps io hi r rest hs hr q hf hdr body ha w hw hk ih => exact ih
  | _ => intro w keep h; cases h

theorem after_from (c : C) (w : WebSend.W) (keep : Bool) (h : ∃ q hdr body t1 es, answer home index (E c.i) q = .rsp hdr body ∧
    WebSend.run (WebSend.start true t1 hdr body (E c.i).mem (E c.i).rd (E c.i).dst (E c.i).peek) es = some w) : From home index E (after k home index E c w keep) := by
  unfold after
  split
  · intro w' keep' h'; cases h'; exact h
  · split
    · exact proc_from _ _
    · intro w' keep' h; cases h
  · intro w' keep' h; cases h
  · intro w' keep' h; cases h

theorem step_from {c c' : C} {e : Ev} (h : From home index E c) (hs : step k home index E c e = some c') : From home index E c' := by
  rcases step_cases hs with ⟨a, b, -⟩ | ⟨ps, -, -, rfl⟩ | ⟨w, keep, w', e', a, h1, rfl, -⟩ | ⟨ps, -, -, rfl⟩
  · intro w keep hw; rw [a]; exact h w keep (b ▸ hw)
  · exact proc_from _ _
  · obtain ⟨q, hdr, body, t1, es, g1, g2⟩ := h w keep a
    exact after_from _ _ _ ⟨q, hdr, body, t1, es ++ [e'], g1, sendRun_snoc es g2 h1⟩
  · intro w' keep' h; cases h

theorem run_from (vs : List (Nat × Act)) {x y : X} (h : From home index E x.c) (hy : run k home index E x vs = some y) : From home index E y.c := by
  induction vs generalizing x with
  | nil => cases hy; exact h
  | cons v vs ih =>
    simp only [run, Option.bind_eq_some_iff] at hy
    obtain ⟨x', h1, h2⟩ := hy
    rcases act_step h1 with e | ⟨e, he⟩
    · exact ih (by rw [e]; exact h) h2
    · exact ih (step_from h he) h2

/-! ### Without TLS -/

/-- A plain connection whose response waits, with its deadline. -/
def Plain (D : Nat) (out : List UInt8) (y : Y) : Prop := WebSend.Stuck y.w ∧ y.w.out = out ∧ (y.w.fin = none → y.timer = some D) ∧ (y.w.fin ≠ none → y.timer = none)

theorem actW_plain {D : Nat} {out : List UInt8} {y : Y} {v : Nat × ActW} (h : Plain D out y) (hr : Reported y v.2) :
    ∃ y', actW y v = some y' ∧ Plain D out y' ∧ (y.w.fin ≠ none → y'.w.fin ≠ none) ∧ (v.2 = .pass → D ≤ v.1 → y'.w.fin ≠ none) := by
  obtain ⟨t, v⟩ := v
  obtain ⟨h1, h2, h3, h4⟩ := h
  have key : ∀ e : WebSend.Ev, Spec.WebSend.Reportable y.w e → e ≠ .w → ∃ y', eventW y t e = some y' ∧ Plain D out y' ∧ (y.w.fin ≠ none → y'.w.fin ≠ none) ∧ (e = .timeout → y'.w.fin ≠ none) := by
    intro e he hne
    obtain ⟨r, r1, r2, r3, r4, r5, r6⟩ := WebSend.step_stuck h1 he
    have hc : calledW y.w e = false := by
      cases e with
      | r => simp [calledW, h1.2]
      | w => exact absurd rfl hne
      | timeout => rfl
    have hff : y.w.fin ≠ none → r.fin ≠ none := by
      intro hf
      rcases r5 with g | g | g <;> rw [g]
      · exact hf
      · simp
      · simp
    refine ⟨⟨r, _⟩, by simp only [eventW, r1, Option.map_some, hc]; rfl, ⟨r2, r3.trans h2, ?_, ?_⟩, hff, fun ht => r6 ht⟩
    · intro hf
      have hy : y.w.fin = none := by
        by_contra hy
        exact hff hy hf
      simp only [] at hf
      rw [hf, if_pos (by rfl)]
      exact h3 hy
    · intro hf
      dsimp only at hf ⊢
      rw [if_neg (by simpa using hf)]
  cases v with
  | r =>
    obtain ⟨y', g1, g2, g3, -⟩ := key .r hr (by simp)
    exact ⟨y', g1, g2, g3, by simp⟩
  | w => simp only [Reported, h1.1] at hr; cases hr
  | pass =>
    simp only [actW]
    by_cases hf : y.w.fin = none
    · rw [h3 hf]
      dsimp only
      split
      · obtain ⟨y', g1, g2, g3, g4⟩ := key .timeout trivial (by simp)
        exact ⟨y', g1, g2, g3, fun _ _ => g4 rfl⟩
      · next hlt => exact ⟨y, rfl, ⟨h1, h2, h3, h4⟩, id, fun _ hd => absurd hd hlt⟩
    · rw [h4 hf]
      exact ⟨y, rfl, ⟨h1, h2, h3, h4⟩, id, fun _ _ => hf⟩

theorem runW_plain {D : Nat} {out : List UInt8} (vs : List (Nat × ActW)) {y : Y} (h : Plain D out y) (hp : PossibleW y vs) :
    ∃ y', runW y vs = some y' ∧ Plain D out y' ∧ (y.w.fin ≠ none → y'.w.fin ≠ none) ∧ ((∃ T, D ≤ T ∧ (T, .pass) ∈ vs) → y'.w.fin ≠ none) := by
  induction vs generalizing y with
  | nil => exact ⟨y, rfl, h, id, by simp⟩
  | cons v vs ih =>
    obtain ⟨y1, a1, a2, a3, a4⟩ := actW_plain h hp.1
    obtain ⟨y2, b1, b2, b3, b4⟩ := ih a2 (hp.2 y1 a1)
    refine ⟨y2, by simp only [runW, a1, Option.bind_some, b1], b2, fun hf => b3 (a3 hf), ?_⟩
    rintro ⟨T, hT, hm⟩
    rcases List.mem_cons.mp hm with hm | hm
    · subst hm; exact b3 (a4 rfl hT)
    · exact b4 ⟨T, hT, hm⟩

end Verif.WebHold
